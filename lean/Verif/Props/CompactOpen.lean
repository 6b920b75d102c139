import Verif.Spec.CompactOpen
import Verif.Props.CompactCut
/-! # C263: what a writer has written while objects are not ended -/
namespace CompactBinary
open CompactBinary.Spec

theorem encode_append (f : Fmt) (d e : Desc) : encode f (append d e) = encode f d ++ encode f e := by
  induction d with
  | done => rfl
  | field k v rest ih => simp only [Spec.append, encode, ih, List.append_assoc]
  | raw k v rest ih => simp only [Spec.append, encode, ih, List.append_assoc]
  | object k sub rest _ ih => simp only [Spec.append, encode, ih, List.append_assoc]

theorem first_append (f : Fmt) (key : List Byte) (d e : Desc) : first f key (append d e) = (first f key d).or (first f key e) := by
  induction d with
  | done => rfl
  | field k v rest ih => simp only [Spec.append, first]; split <;> simp [ih]
  | raw k v rest ih => simp only [Spec.append, first]; split <;> simp [ih]
  | object k sub rest _ ih => simp only [Spec.append, first]; split <;> simp [ih]

theorem open_ops (f : Fmt) (m : Nat) (l : List (List Byte × Desc)) : ∀ (d : Desc) (c : Writer), keysOk f (flattened d l) → keysOk f d →
    c.stack.length = m → c.depth + openDepth d l ≤ m →
    ∃ st, Writer.ops f m c (openCalls d l) = .ok ⟨c.w.put (encode f (flattened d l)), st, c.depth + l.length⟩ ∧ st.length = m := by
  have hk2 : ∀ (d e : Desc), keysOk f (append d e) → keysOk f e := by
    intro d e
    induction d with
    | done => exact fun h => h
    | field k v rest ih => exact fun h => ih h.2
    | raw k v rest ih => exact fun h => ih h.2
    | object k sub rest _ ih => exact fun h => ih h.2.2
  have hk1 : ∀ (d e : Desc), keysOk f (append d e) → keysOk f d := by
    intro d e
    induction d with
    | done => exact fun _ => trivial
    | field k v rest ih => exact fun h => ⟨h.1, ih h.2⟩
    | raw k v rest ih => exact fun h => ⟨h.1, ih h.2⟩
    | object k sub rest _ ih => exact fun h => ⟨h.1, h.2.1, ih h.2.2⟩
  induction l with
  | nil =>
    intro d c _ hk hs hd
    obtain ⟨st, h1, h2, _⟩ := ops_calls f m d c hk hs hd
    exact ⟨st, h1, h2⟩
  | cons p l ih =>
    intro d c hkf hk hs hd
    obtain ⟨k, d'⟩ := p
    simp only [openDepth] at hd
    simp only [flattened] at hkf
    have hrest := hk2 d _ hkf
    have hd' : keysOk f d' := by
      have h := hrest.2
      cases l with
      | nil => exact h
      | cons q l => exact hk1 d' _ h
    obtain ⟨st, h1, h2, _⟩ := ops_calls f m d c hk hs (by omega)
    have hlt : c.depth < m := by omega
    obtain ⟨st', h3, h4⟩ := ih d' ⟨((c.w.put (encode f d)).put (storedKey f k)).put (leBytes f.S 0),
      st.set c.depth ((c.w.put (encode f d)).put (storedKey f k)).pos, c.depth + 1⟩ hrest.2 hd' (by rw [List.length_set]; exact h2) (by simp only; omega)
    refine ⟨st', ?_, h4⟩
    simp only [openCalls, ops_append, h1, R.bind_ok, Writer.ops, Writer.op, Writer.beginObject, keyBytes_eq hrest.1, emit_eq, if_pos hlt]
    rw [arrSet_lt (by omega)]
    simp only [R.bind_ok, h3]
    congr 1
    simp only [Span.put_put, flattened, encode_append, encode, entry, leBytes_eq, List.length_nil, List.append_assoc, List.nil_append,
      List.length_cons, Nat.add_assoc, Nat.add_comm 1]

/-- **C263**: the exact content of the buffer while objects are not ended, or if ending them was forgotten: every such object is stored as
empty, its entries follow it as if they were on the level of the outermost one. -/
theorem C263_open_exact (f : Fmt) (maxDepth : Nat) (d : Desc) (l : List (List Byte × Desc)) (hk : keysOk f (flattened d l)) (hd0 : keysOk f d)
    (hd : openDepth d l ≤ maxDepth) (buf : List Byte) :
    ∃ c, Writer.ops f maxDepth (Writer.make maxDepth buf) (openCalls d l) = .ok c ∧
      c.w.buf = written buf (encode f (flattened d l)) ∧ c.w.pos = (encode f (flattened d l)).length := by
  obtain ⟨st, h1, _⟩ := open_ops f maxDepth l d (Writer.make maxDepth buf) hk hd0 (by simp [Writer.make]) (by simp only [Writer.make]; omega)
  refine ⟨_, h1, ?_, ?_⟩
  · simp [Span.put, Writer.make, overlay_zero]
  · simp [Span.put, Writer.make]

/-- entry 1, then an object 2 begun with an entry 1 in it -/
example : keysOk fmt21 (flattened (.field [1, 0] [7] .done) [([2, 0], .field [1, 0] [9] .done)]) ∧
    openDepth (.field [1, 0] [7] .done) [([2, 0], .field [1, 0] [9] .done)] ≤ 4 ∧
    encode fmt21 (flattened (.field [1, 0] [7] .done) [([2, 0], .field [1, 0] [9] .done)]) = [1, 0, 1, 7, 2, 0, 0, 1, 0, 1, 9] := by
  refine ⟨by simp [keysOk, flattened, Spec.append, validKey, fmt21], by decide, by decide⟩

/-- **C263 (partial)**: at any moment, for a key that is complete among the entries before the first object not ended, get<T> returns the
value that was written. Missing: the other keys (next theorem). -/
theorem C263_before_partial (f : Fmt) (W maxDepth : Nat) (d : Desc) (l : List (List Byte × Desc)) (hk : keysOk f (flattened d l)) (hd0 : keysOk f d)
    (hf : fits f (flattened d l)) (hd : openDepth d l ≤ maxDepth) (buf key v : List Byte) (hkey : validKey f key)
    (hb : (encode f (flattened d l)).length ≤ buf.length) (hW : buf.length < 2 ^ W) (hv : first f key d = some v) (hn : 0 < v.length) :
    ∃ c, Writer.ops f maxDepth (Writer.make maxDepth buf) (openCalls d l) = .ok c ∧ get f W (c.w.buf.take c.w.pos) v.length key = .ok (some v) ∧
      getNode f W (c.w.buf.take c.w.pos) key = .ok v := by
  obtain ⟨c, h1, h2, h3⟩ := C263_open_exact f maxDepth d l hk hd0 hd buf
  have he : c.w.buf.take c.w.pos = encode f (flattened d l) := by rw [h2, h3, written, List.take_of_length_le hb, List.take_left]
  have hfirst : first f key (flattened d l) = some v := by
    cases l with
    | nil => exact hv
    | cons p l => simp only [flattened, first_append, hv, Option.or]
  have hp := C42_parse f W (flattened d l) key hk hf hkey (by omega)
  refine ⟨c, h1, ?_, ?_⟩
  · rw [he, hp.2.2 v.length hn, hfirst]; simp
  · rw [he, hp.1, hfirst]; rfl

example : fits fmt21 (flattened (.field [1, 0] [7] .done) [([2, 0], .field [3, 0] [9] .done)]) ∧
    first fmt21 [1, 0] (.field [1, 0] [7] .done) = some [7] ∧ validKey fmt21 [1, 0] := by
  refine ⟨?_, by decide, by simp [validKey, fmt21]⟩
  simp only [fits, flattened, Spec.append]
  exact ⟨by decide, by decide, by decide, trivial⟩

/-- **C263 (violated)**: the entries of an object that is not ended are taken for entries of the level above: here key 1 occurs only
inside object 2, and get(1) on the top level returns its value. -/
theorem C263_open_violated : ∃ c, Writer.ops fmt21 4 (Writer.make 4 (List.replicate 7 0)) (openCalls .done [([2, 0], .field [1, 0] [9] .done)]) = .ok c ∧
    get fmt21 32 (c.w.buf.take c.w.pos) 1 [1, 0] = .ok (some [9]) ∧ getNode fmt21 32 (c.w.buf.take c.w.pos) [2, 0] = .ok [] := by
  have hk : keysOk fmt21 (flattened .done [([2, 0], .field [1, 0] [9] .done)]) := by simp [keysOk, flattened, Spec.append, validKey, fmt21]
  have hf : fits fmt21 (flattened .done [([2, 0], .field [1, 0] [9] .done)]) := by
    simp only [fits, flattened, Spec.append]
    exact ⟨by decide, by decide, trivial⟩
  obtain ⟨c, h1, h2, h3⟩ := C263_open_exact fmt21 4 .done [([2, 0], .field [1, 0] [9] .done)] hk trivial (by decide) (List.replicate 7 0)
  have he : c.w.buf.take c.w.pos = encode fmt21 (flattened .done [([2, 0], .field [1, 0] [9] .done)]) := by
    rw [h2, h3]; decide
  have hp := C42_parse fmt21 32 (flattened .done [([2, 0], .field [1, 0] [9] .done)]) [1, 0] hk hf (by simp [validKey, fmt21]) (by decide)
  have hp2 := C42_parse fmt21 32 (flattened .done [([2, 0], .field [1, 0] [9] .done)]) [2, 0] hk hf (by simp [validKey, fmt21]) (by decide)
  refine ⟨c, h1, ?_, ?_⟩
  · rw [he, hp.2.2 1 (by decide)]; decide
  · rw [he, hp2.1]; decide

theorem keysOk_append (f : Fmt) (d e : Desc) (hd : keysOk f d) (he : keysOk f e) : keysOk f (append d e) := by
  induction d with
  | done => exact he
  | field k v rest ih => exact ⟨hd.1, ih hd.2⟩
  | raw k v rest ih => exact ⟨hd.1, ih hd.2⟩
  | object k sub rest _ ih => exact ⟨hd.1, hd.2.1, ih hd.2.2⟩

theorem fits_append (f : Fmt) (d e : Desc) (hd : fits f d) (he : fits f e) : fits f (append d e) := by
  induction d with
  | done => exact he
  | field k v rest ih => exact ⟨hd.1, ih hd.2⟩
  | raw k v rest ih => exact ⟨hd.1, ih hd.2⟩
  | object k sub rest _ ih => exact ⟨hd.1, hd.2.1, ih hd.2.2⟩

/-- **C42**: two descriptions serialized one after the other in memory read as one: a key is looked for in the first and then in the
second, so what is put in front overrides what is behind. -/
theorem C42_concat (f : Fmt) (W : Nat) (d e : Desc) (key buf buf2 : List Byte) (hkd : keysOk f d) (hke : keysOk f e) (hfd : fits f d) (hfe : fits f e)
    (hkey : validKey f key) (hb : measure f d ≤ buf.length) (hb2 : measure f e ≤ buf2.length) (hW : buf.length + buf2.length < 2 ^ W) :
    ∃ w w2, serialize f buf d = .ok w ∧ serialize f buf2 e = .ok w2 ∧
      getNode f W (w.buf.take w.pos ++ w2.buf.take w2.pos) key = .ok (((first f key d).or (first f key e)).getD []) := by
  refine ⟨_, _, C45_serialize f d hkd buf, C45_serialize f e hke buf2, ?_⟩
  rw [measure_eq hkd] at hb
  rw [measure_eq hke] at hb2
  have he : (written buf (encode f d)).take (encode f d).length = encode f d := by rw [written, List.take_of_length_le hb, List.take_left]
  have he2 : (written buf2 (encode f e)).take (encode f e).length = encode f e := by rw [written, List.take_of_length_le hb2, List.take_left]
  simp only [he, he2, ← encode_append, ← first_append]
  exact (C42_parse f W _ key (keysOk_append f d e hkd hke) (fits_append f d e hfd hfe) hkey
    (by rw [encode_append, List.length_append]; omega)).1

/-- a new value of key 1 put before `demo`, which has one too -/
example : keysOk fmt21 (.field [1, 0] [4] .done) ∧ keysOk fmt21 demo ∧ measure fmt21 demo ≤ 32 ∧
    (first fmt21 [1, 0] (.field [1, 0] [4] .done)).or (first fmt21 [1, 0] demo) = some [4] ∧
    (first fmt21 [2, 0] (.field [1, 0] [4] .done)).or (first fmt21 [2, 0] demo) = some [1, 0, 1, 9, 5, 0, 0] := by
  refine ⟨by simp [keysOk, validKey, fmt21], by simp [keysOk, demo, validKey, fmt21], by decide, by decide, by decide⟩

end CompactBinary
