import Verif.Spec.CompactAny
import Verif.Props.CompactDeep
/-! # C264: the exact result of any sequence of calls on the writer -/
namespace CompactBinary
open CompactBinary.Spec

theorem calls_append (d e : Desc) : calls (append d e) = calls d ++ calls e := by
  induction d with
  | done => rfl
  | field k v rest ih => simp only [Spec.append, calls, ih, List.cons_append]
  | raw k v rest ih => simp only [Spec.append, calls, ih, List.cons_append]
  | object k sub rest _ ih => simp only [Spec.append, calls, ih, List.cons_append, List.append_assoc]

theorem open_add (e : Desc) (l : List (List Byte × Desc)) : ∀ d, openCalls (addEntry e d l).1 (addEntry e d l).2 = openCalls d l ++ calls e := by
  induction l with
  | nil => intro d; simp only [addEntry, openCalls, calls_append]
  | cons p l ih => intro d; simp only [addEntry, openCalls, ih, List.append_assoc, List.cons_append]

theorem open_begin (k : List Byte) (l : List (List Byte × Desc)) : ∀ d, openCalls d (l ++ [(k, .done)]) = openCalls d l ++ [.beginObject k] := by
  induction l with
  | nil => intro d; rfl
  | cons p l ih => intro d; simp only [List.cons_append, openCalls, ih, List.append_assoc]

theorem open_close (l : List (List Byte × Desc)) : ∀ d, l ≠ [] → openCalls (closeInner d l).1 (closeInner d l).2 = openCalls d l ++ [.endObject] := by
  induction l with
  | nil => intro d h; exact absurd rfl h
  | cons p l ih =>
    intro d _
    cases l with
    | nil => simp only [closeInner, openCalls, calls_append, calls, List.append_assoc, List.cons_append]
    | cons q l =>
      have h := ih p.2 (by simp)
      simp only [closeInner, openCalls, List.append_assoc, List.cons_append] at h ⊢
      rw [h]

/-- The keys of the outermost level and of every open object. -/
def levelsOk (f : Fmt) (d : Desc) (l : List (List Byte × Desc)) : Prop := keysOk f d ∧ ∀ p ∈ l, validKey f p.1 ∧ keysOk f p.2

theorem any_ops (f : Fmt) (m : Nat) (l : List (List Byte × Desc)) : ∀ (d : Desc) (c : Writer), levelsOk f d l → c.stack.length = m →
    ∃ st, Writer.ops f m c (openCalls d l) = .ok ⟨c.w.put (encode f (understood (m - c.depth) d l)), st, c.depth + l.length⟩ ∧ st.length = m := by
  induction l with
  | nil =>
    intro d c hk hs
    obtain ⟨st, h1, h2, _⟩ := deep_ops f m d c hk.1 hs
    exact ⟨st, h1, h2⟩
  | cons p l ih =>
    intro d c hk hs
    obtain ⟨k, d'⟩ := p
    obtain ⟨st, h1, h2, _⟩ := deep_ops f m d c hk.1 hs
    have hp := hk.2 (k, d') (by simp)
    have hd' : levelsOk f d' l := ⟨hp.2, fun q hq => hk.2 q (by simp [hq])⟩
    by_cases hlt : c.depth < m
    · obtain ⟨st', h3, h4⟩ := ih d' ⟨((c.w.put (encode f (limited (m - c.depth) d))).put (storedKey f k)).put (leBytes f.S 0),
        st.set c.depth ((c.w.put (encode f (limited (m - c.depth) d))).put (storedKey f k)).pos, c.depth + 1⟩ hd' (by rw [List.length_set]; exact h2)
      refine ⟨st', ?_, h4⟩
      simp only [openCalls, ops_append, h1, R.bind_ok, Writer.ops, Writer.op, Writer.beginObject, keyBytes_eq hp.1, emit_eq, if_pos hlt]
      rw [arrSet_lt (by omega)]
      simp only [R.bind_ok, h3]
      congr 1
      simp only [Span.put_put, understood, encode_append, encode, entry, leBytes_eq, List.length_nil, List.append_assoc, List.nil_append,
        List.length_cons, Nat.add_assoc, Nat.add_comm 1, Nat.sub_add_eq]
    · obtain ⟨st', h3, h4⟩ := ih d' ⟨((c.w.put (encode f (limited (m - c.depth) d))).put (storedKey f k)).put (leBytes f.S 0),
        st, c.depth + 1⟩ hd' h2
      refine ⟨st', ?_, h4⟩
      simp only [openCalls, ops_append, h1, R.bind_ok, Writer.ops, Writer.op, Writer.beginObject, keyBytes_eq hp.1, emit_eq, if_neg hlt]
      simp only [R.bind_ok, h3]
      congr 1
      simp only [Span.put_put, understood, encode_append, encode, entry, leBytes_eq, List.length_nil, List.append_assoc, List.nil_append,
        List.length_cons, Nat.add_assoc, Nat.add_comm 1, Nat.sub_add_eq]

theorem addEntry_ok (f : Fmt) (e : Desc) (he : keysOk f e) (l : List (List Byte × Desc)) : ∀ d, levelsOk f d l →
    levelsOk f (addEntry e d l).1 (addEntry e d l).2 := by
  induction l with
  | nil => intro d h; exact ⟨keysOk_append f d e h.1 he, by simp [addEntry]⟩
  | cons p l ih =>
    intro d h
    have hp := h.2 p (by simp)
    have := ih p.2 ⟨hp.2, fun q hq => h.2 q (by simp [hq])⟩
    refine ⟨h.1, ?_⟩
    intro q hq
    simp only [addEntry, List.mem_cons] at hq
    rcases hq with rfl | hq
    · exact ⟨hp.1, this.1⟩
    · exact this.2 q hq

theorem closeInner_ok (f : Fmt) (l : List (List Byte × Desc)) : ∀ d, levelsOk f d l → levelsOk f (closeInner d l).1 (closeInner d l).2 := by
  induction l with
  | nil => intro d h; exact h
  | cons p l ih =>
    intro d h
    have hp := h.2 p (by simp)
    cases l with
    | nil => exact ⟨keysOk_append f d _ h.1 ⟨hp.1, hp.2, trivial⟩, by simp [closeInner]⟩
    | cons q l =>
      have := ih p.2 ⟨hp.2, fun q hq => h.2 q (by simp [hq])⟩
      refine ⟨h.1, ?_⟩
      intro r hr
      simp only [closeInner, List.mem_cons] at hr
      rcases hr with rfl | hr
      · exact ⟨hp.1, this.1⟩
      · exact this.2 r hr

theorem shape_ops (f : Fmt) (m : Nat) (buf : List Byte) (ops : List Op)
    (hk : ∀ o ∈ ops, ∀ k, (o = .beginObject k ∨ (∃ v, o = .field k v) ∨ ∃ v, o = .raw k v) → validKey f k) :
    ∀ s : Shape, levelsOk f s.1 s.2 →
    (Writer.ops f m (Writer.make m buf) (openCalls s.1 s.2) >>= fun c => Writer.ops f m c ops) =
        Writer.ops f m (Writer.make m buf) (openCalls (ops.foldl shapeStep s).1 (ops.foldl shapeStep s).2) ∧
      levelsOk f (ops.foldl shapeStep s).1 (ops.foldl shapeStep s).2 := by
  induction ops with
  | nil =>
    intro s hs
    refine ⟨?_, hs⟩
    simp only [Writer.ops, List.foldl_nil]
    cases Writer.ops f m (Writer.make m buf) (openCalls s.1 s.2) <;> rfl
  | cons o l ih =>
    intro s hs
    have hone : (Writer.ops f m (Writer.make m buf) (openCalls s.1 s.2) >>= fun c => Writer.op f m c o) =
        Writer.ops f m (Writer.make m buf) (openCalls (shapeStep s o).1 (shapeStep s o).2) ∧ levelsOk f (shapeStep s o).1 (shapeStep s o).2 := by
      have snoc : ∀ ops' : List Op, (Writer.ops f m (Writer.make m buf) ops' >>= fun c => Writer.op f m c o) =
          Writer.ops f m (Writer.make m buf) (ops' ++ [o]) := by
        intro ops'
        rw [ops_append]
        congr 1
        funext c
        simp only [Writer.ops]
        cases Writer.op f m c o <;> rfl
      rw [snoc]
      cases o with
      | field k v =>
        have hv := hk (.field k v) (by simp) k (Or.inr (Or.inl ⟨v, rfl⟩))
        exact ⟨by simp only [shapeStep, open_add, calls], addEntry_ok f (.field k v .done) ⟨hv, trivial⟩ _ _ hs⟩
      | raw k v =>
        have hv := hk (.raw k v) (by simp) k (Or.inr (Or.inr ⟨v, rfl⟩))
        exact ⟨by simp only [shapeStep, open_add, calls], addEntry_ok f (.raw k v .done) ⟨hv, trivial⟩ _ _ hs⟩
      | beginObject k =>
        have hv := hk (.beginObject k) (by simp) k (Or.inl rfl)
        refine ⟨by simp only [shapeStep, open_begin], hs.1, ?_⟩
        intro p hp
        simp only [shapeStep, List.mem_append, List.mem_singleton] at hp
        rcases hp with hp | rfl
        · exact hs.2 p hp
        · exact ⟨hv, trivial⟩
      | endObject =>
        refine ⟨?_, closeInner_ok f _ _ hs⟩
        obtain ⟨d, ls⟩ := s
        by_cases hl : ls = []
        · subst hl
          obtain ⟨st, h1, _⟩ := any_ops f m [] d (Writer.make m buf) hs (by simp [Writer.make])
          simp only [shapeStep, closeInner]
          rw [ops_append, h1, R.bind_ok]
          simp [Writer.ops, Writer.op, Writer.endObject, Writer.make, R.bind_ok]
        · simp only [shapeStep, open_close ls d hl]
    have h := ih (fun o ho => hk o (by simp [ho])) (shapeStep s o) hone.2
    refine ⟨?_, h.2⟩
    simp only [List.foldl_cons]
    rw [← h.1, ← hone.1]
    simp only [Writer.ops]
    cases Writer.ops f m (Writer.make m buf) (openCalls s.1 s.2) <;> rfl

/-- **C264**: the exact content of the buffer, the size and the nesting after any sequence of calls, balanced or not and nested as deeply as one likes:
surplus end_object calls do nothing, ended objects within `MaxDepth` levels are complete, all others are stored as empty and followed by
their entries. -/
theorem C264_any_calls (f : Fmt) (maxDepth : Nat) (ops : List Op) (buf : List Byte)
    (hk : ∀ o ∈ ops, ∀ k, (o = .beginObject k ∨ (∃ v, o = .field k v) ∨ ∃ v, o = .raw k v) → validKey f k) :
    ∃ c, Writer.ops f maxDepth (Writer.make maxDepth buf) ops = .ok c ∧
      c.w.buf = written buf (encode f (understood maxDepth (shape ops).1 (shape ops).2)) ∧
      c.w.pos = (encode f (understood maxDepth (shape ops).1 (shape ops).2)).length ∧ c.depth = (shape ops).2.length := by
  have h := shape_ops f maxDepth buf ops hk (.done, []) ⟨trivial, by simp⟩
  obtain ⟨st, h1, _⟩ := any_ops f maxDepth (shape ops).2 (shape ops).1 (Writer.make maxDepth buf) h.2 (by simp [Writer.make])
  have h0 : (Writer.ops f maxDepth (Writer.make maxDepth buf) (openCalls .done []) >>= fun c => Writer.ops f maxDepth c ops) =
      Writer.ops f maxDepth (Writer.make maxDepth buf) ops := rfl
  refine ⟨_, (h0.symm.trans h.1).trans h1, ?_, ?_, ?_⟩
  · simp [Span.put, Writer.make, overlay_zero]
  · simp [Span.put, Writer.make]
  · simp [Writer.make]

/-- a surplus end_object, an ended object and one that is not ended -/
example : let ops := [Op.endObject, .beginObject [1, 0], .raw [3, 0] [1], .endObject, .beginObject [2, 0], .field [4, 0] [7]]
    (∀ o ∈ ops, ∀ k, (o = .beginObject k ∨ (∃ v, o = .field k v) ∨ ∃ v, o = .raw k v) → validKey fmt21 k) ∧
    shape ops = (.object [1, 0] (.raw [3, 0] [1] .done) .done, [([2, 0], .field [4, 0] [7] .done)]) ∧
    encode fmt21 (understood 8 (shape ops).1 (shape ops).2) = [1, 0, 4, 3, 0, 1, 1, 2, 0, 0, 4, 0, 1, 7] := by
  refine ⟨by simp [validKey, fmt21], by decide, by decide⟩

end CompactBinary
