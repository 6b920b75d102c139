import Verif.Spec.CircBufTake
import Verif.Lemmas.CircBuf
/-! # Property C204: a circular buffer emptied by an interrupt -/

namespace CircBufTake
open CircBuf Spec
variable {T : Type}

/-- Indices stay inside the buffer. -/
def Safe (N : Nat) (s : St T) : Prop := s.b.buf.length = N ∧ s.b.head < N ∧ s.b.tail < N

theorem mask_lt (k i : Nat) : i &&& (2 ^ k - 1) < 2 ^ k := by
  rw [and_mask]; exact Nat.mod_lt _ (Nat.two_pow_pos k)

theorem safe_step {k : Nat} {s : St T} (h : Safe (2 ^ k) s) (a : Act T) :
    ∃ s' es, step (2 ^ k) s a = .ok (s', es) ∧ Safe (2 ^ k) s' := by
  obtain ⟨b, pc⟩ := s
  obtain ⟨h1, h2, h3⟩ := h
  simp only at h1 h2 h3
  cases a with
  | put x =>
    cases pc with
    | idle =>
      have hs : arrSet b.buf b.head x = .ok (b.buf.set b.head x) := arrSet_lt (by omega)
      exact ⟨⟨{ b with buf := b.buf.set b.head x }, .written x⟩, [.call x], by simp only [step, hs, R.bind_ok, R.pure_eq], by simpa using h1, h2, h3⟩
    | _ => exact ⟨_, _, rfl, h1, h2, h3⟩
  | cont =>
    cases pc with
    | drop x t => exact ⟨_, _, rfl, h1, h2, mask_lt _ _⟩
    | advance x => exact ⟨_, _, rfl, h1, mask_lt _ _, h3⟩
    | _ => exact ⟨_, _, rfl, h1, h2, h3⟩
  | get =>
    have hg : ∃ v, arrGet b.buf b.tail = .ok v := ⟨b.buf[b.tail]'(by omega), arrGet_lt (by omega)⟩
    obtain ⟨v, hv⟩ := hg
    by_cases he : empty b = true
    · exact ⟨⟨b, pc⟩, [.answer none], by simp [step, getOpt, he], h1, h2, h3⟩
    · exact ⟨⟨incTail (2 ^ k) { b with full := false }, pc⟩, [.answer (some v)], by simp [step, getOpt, he, hv], h1, h2, mask_lt _ _⟩
  | remove =>
    refine ⟨_, _, rfl, ?_⟩
    by_cases he : empty b = true
    · simp only [removeFirst, he, Bool.not_true, Bool.false_eq_true, if_false]; exact ⟨h1, h2, h3⟩
    · simp only [removeFirst, he, Bool.not_false, if_true]; exact ⟨h1, h2, mask_lt _ _⟩

/-- The buffer at the points of a `put(x)` that began with a full buffer `b0`. -/
def Full (N : Nat) (b0 : CircBuf.St T) (x : T) : CircBuf.St T := { b0 with buf := b0.buf.set b0.head x }

/-- What holds between the buffer and the queue at each point of `put`. -/
def Inv (N : Nat) (s : St T) (a : Abs T) : Prop :=
  match s.pc with
  | .idle => Rel N s.b a.q ∧ a.ph = .out
  | .written x => a.ph = .before ∧
      ((a.q.length < N ∧ Rel N s.b a.q ∧ s.b.buf[s.b.head]? = some x) ∨ (a.q.length = N ∧ ∃ b0, Rel N b0 a.q ∧ s.b = Full N b0 x))
  | .dropping x => a.ph = .before ∧ a.q.length = N ∧ ∃ b0, Rel N b0 a.q ∧ s.b = Full N b0 x
  | .drop x t => a.ph = .before ∧ a.q.length = N ∧ ∃ b0, Rel N b0 a.q ∧ s.b = Full N b0 x ∧ t = b0.tail
  | .advance x => a.ph = .before ∧
      ((a.q.length < N ∧ Rel N s.b a.q ∧ s.b.buf[s.b.head]? = some x) ∨ (a.q.length = N ∧ ∃ b0, Rel N b0 a.q ∧ s.b = incTail N (Full N b0 x)))
  | .compare => a.ph = .fresh ∧ Rel N { s.b with full := decide (a.q.length = N) } a.q ∧ a.q ≠ [] ∧ (a.q.length < N → s.b.full = false)
  | .flag b => a.ph = .after ∧ Rel N { s.b with full := decide (a.q.length = N) } a.q ∧ (a.q.length < N → s.b.full = false) ∧ b = decide (a.q.length = N)

theorem qtail_lt {q : List T} {N : Nat} (h : q.length < N) : q.tail.length < N := by simp; omega

/-- `get()` with fewer than N items leaves `head_` and the slots alone and `full_` cleared. -/
theorem getOpt_room {k : Nat} {b : CircBuf.St T} {q : List T} (h : Rel (2 ^ k) b q) (hl : q.length < 2 ^ k) :
    ∃ b', getOpt (2 ^ k) b = .ok (b', q.head?) ∧ Rel (2 ^ k) b' q.tail ∧ b'.head = b.head ∧ b'.buf = b.buf ∧ b'.full = false := by
  obtain ⟨b', h1, h2⟩ := h.getOpt
  have h3 : b'.full = false := by
    rw [h2.full]; have := qtail_lt hl; simp; simp at this; omega
  refine ⟨b', h1, h2, ?_, ?_, h3⟩
  all_goals
    rw [CircBuf.getOpt] at h1
    split at h1
    · simp only [R.pure_eq, R.ok.injEq, Prod.mk.injEq] at h1; rw [← h1.1]
    · cases hg : arrGet b.buf b.tail with
      | ub => rw [hg] at h1; simp at h1
      | ok v => rw [hg] at h1; simp only [R.bind_ok, R.pure_eq, R.ok.injEq, Prod.mk.injEq] at h1; rw [← h1.1]; rfl

theorem removeFirst_getOpt {k : Nat} {b b' : CircBuf.St T} {r : Option T} (h : getOpt (2 ^ k) b = .ok (b', r)) : removeFirst (2 ^ k) b = b' := by
  rw [CircBuf.getOpt] at h
  split at h
  · rename_i he
    cases h
    simp [CircBuf.removeFirst, he]
  · rename_i he
    cases hg : arrGet b.buf b.tail with
    | ub => rw [hg] at h; simp at h
    | ok v =>
      rw [hg] at h
      simp only [R.bind_ok, R.pure_eq, R.ok.injEq, Prod.mk.injEq] at h
      rw [← h.1]
      simp [CircBuf.removeFirst, he]

/-- Taking an item when one may. -/
theorem inv_take {k : Nat} {s : St T} {a : Abs T} (h : Inv (2 ^ k) s a) (hm : May (2 ^ k) a) :
    ∃ b', getOpt (2 ^ k) s.b = .ok (b', a.q.head?) ∧ Inv (2 ^ k) { s with b := b' } { a with q := a.q.tail } := by
  obtain ⟨b, pc⟩ := s
  obtain ⟨q, ph⟩ := a
  cases pc with
  | idle =>
    obtain ⟨h1, h2⟩ := h
    obtain ⟨b', g1, g2⟩ := h1.getOpt
    exact ⟨b', g1, g2, h2⟩
  | written x =>
    obtain ⟨h1, h2⟩ := h
    simp only at h1 h2; subst h1
    simp only [May] at hm
    rcases h2 with ⟨h2, h3, h4⟩ | ⟨h2, _⟩
    · obtain ⟨b', g1, g2, g3, g4, g5⟩ := getOpt_room h3 hm
      exact ⟨b', g1, rfl, .inl ⟨qtail_lt hm, g2, by simp only [g3, g4]; exact h4⟩⟩
    · omega
  | dropping x =>
    obtain ⟨h1, h2, _⟩ := h
    simp only at h1 h2; subst h1
    simp only [May] at hm; omega
  | drop x t =>
    obtain ⟨h1, h2, _⟩ := h
    simp only at h1 h2; subst h1
    simp only [May] at hm; omega
  | advance x =>
    obtain ⟨h1, h2⟩ := h
    simp only at h1 h2; subst h1
    simp only [May] at hm
    rcases h2 with ⟨h2, h3, h4⟩ | ⟨h2, _⟩
    · obtain ⟨b', g1, g2, g3, g4, g5⟩ := getOpt_room h3 hm
      exact ⟨b', g1, rfl, .inl ⟨qtail_lt hm, g2, by simp only [g3, g4]; exact h4⟩⟩
    · omega
  | compare =>
    obtain ⟨h1, h2, h3, h4⟩ := h
    simp only at h1 h2 h3 h4; subst h1
    simp only [May] at hm
    have hf := h4 hm.2
    have e : ({ b with full := decide (q.length = 2 ^ k) } : CircBuf.St T) = b := by
      rw [show decide (q.length = 2 ^ k) = b.full by rw [hf]; simp; omega]
    rw [e] at h2
    obtain ⟨b', g1, g2, g3, g4, g5⟩ := getOpt_room h2 hm.2
    have e' : ({ b' with full := decide (q.tail.length = 2 ^ k) } : CircBuf.St T) = b' := by
      rw [show decide (q.tail.length = 2 ^ k) = b'.full by rw [g5]; simp; omega]
    refine ⟨b', g1, rfl, by simp only [e']; exact g2, ?_, fun _ => g5⟩
    intro c
    have := congrArg List.length c
    simp at this; omega
  | flag f =>
    obtain ⟨h1, h2, h4, h5⟩ := h
    simp only at h1 h2 h4 h5; subst h1
    simp only [May] at hm
    have hf := h4 hm
    have e : ({ b with full := decide (q.length = 2 ^ k) } : CircBuf.St T) = b := by
      rw [show decide (q.length = 2 ^ k) = b.full by rw [hf]; simp; omega]
    rw [e] at h2
    obtain ⟨b', g1, g2, g3, g4, g5⟩ := getOpt_room h2 hm
    have e' : ({ b' with full := decide (q.tail.length = 2 ^ k) } : CircBuf.St T) = b' := by
      rw [show decide (q.tail.length = 2 ^ k) = b'.full by rw [g5]; simp; omega]
    refine ⟨b', g1, rfl, by simp only [e']; exact g2, fun _ => g5, ?_⟩
    rw [h5]; simp; omega

/-- Storing into the free slot changes no item. -/
theorem rel_store {N : Nat} {b : CircBuf.St T} {q : List T} (h : Rel N b q) (hl : q.length < N) (x : T) :
    Rel N { b with buf := b.buf.set b.head x } q := by
  have hN := h.pos
  refine ⟨by simpa using h.len, h.tail, h.head, h.qlen, h.full, ?_⟩
  intro i hi
  have hne : b.head ≠ (b.tail + i) % N := by
    rw [h.head]
    intro c
    have := mod_add_inj (by omega) hl c.symm
    omega
  simp only
  rw [List.getElem?_set_ne hne]
  exact h.el i hi

theorem head_lt {N : Nat} {b : CircBuf.St T} {q : List T} (h : Rel N b q) : b.head < b.buf.length := by
  rw [h.head, h.len]; exact Nat.mod_lt _ h.pos

theorem qput_len {N : Nat} {q : List T} (hN : 0 < N) (hq : q.length ≤ N) (x : T) :
    (if q.length = N then q.tail ++ [x] else q ++ [x]).length ≤ N := by
  split <;> simp <;> omega

/-- The second half of `put` from a buffer with room. -/
theorem rel_advance {k : Nat} {b : CircBuf.St T} {q : List T} {x : T} (h : Rel (2 ^ k) b q) (hl : q.length < 2 ^ k) (hx : b.buf[b.head]? = some x) :
    Rel (2 ^ k) { incHead (2 ^ k) b with full := decide ((q ++ [x]).length = 2 ^ k) } (q ++ [x]) := by
  obtain ⟨s', h1, h2⟩ := h.put x
  have hs : b.buf.set b.head x = b.buf := by
    apply List.ext_getElem?
    intro i
    by_cases hi : b.head = i
    · subst hi; rw [List.getElem?_set_self (head_lt h), hx]
    · rw [List.getElem?_set_ne hi]
  have hf : b.full = false := by rw [h.full]; simp; omega
  simp only [CircBuf.put, arrSet_lt (head_lt h), R.bind_ok, R.pure_eq, hs, hf, Bool.false_eq_true, if_false, R.ok.injEq] at h1
  have h3 : (_root_.Spec.qstep (2 ^ k) q (.put x)).1 = q ++ [x] := by simp only [_root_.Spec.qstep]; rw [if_neg (by omega)]
  rw [h3] at h2
  have h4 := h2.full
  rw [← h4]
  have : s' = { incHead (2 ^ k) b with full := s'.full } := by rw [← h1]; rfl
  rw [← this]
  exact h2

/-- The second half of `put` from a full buffer. -/
theorem rel_advance_full {k : Nat} {b0 : CircBuf.St T} {q : List T} {x : T} (h : Rel (2 ^ k) b0 q) (hl : q.length = 2 ^ k) :
    Rel (2 ^ k) { incHead (2 ^ k) (incTail (2 ^ k) (Full (2 ^ k) b0 x)) with full := decide ((q.tail ++ [x]).length = 2 ^ k) } (q.tail ++ [x]) := by
  obtain ⟨s', h1, h2⟩ := h.put x
  have hf : b0.full = true := by rw [h.full]; simp [hl]
  simp only [CircBuf.put, arrSet_lt (head_lt h), R.bind_ok, R.pure_eq, hf, if_true, R.ok.injEq] at h1
  have h3 : (_root_.Spec.qstep (2 ^ k) q (.put x)).1 = q.tail ++ [x] := by simp only [_root_.Spec.qstep]; rw [if_pos hl]
  rw [h3] at h2
  have h4 := h2.full
  rw [← h4]
  have : s' = { incHead (2 ^ k) (incTail (2 ^ k) (Full (2 ^ k) b0 x)) with full := s'.full } := by rw [← h1]; rfl
  rw [← this]
  exact h2

theorem head_tail {N : Nat} {b : CircBuf.St T} {q : List T} (h : Rel N { b with full := decide (q.length = N) } q) (hq : q ≠ []) :
    decide (b.head = b.tail) = decide (q.length = N) := by
  have h1 := h.empty
  have h2 := h.head
  have h3 := h.tail
  simp only at h2 h3
  by_cases hl : q.length = N
  · rw [h2, hl, Nat.add_mod_right, Nat.mod_eq_of_lt h3]; simp
  · simp [CircBuf.empty, hl, hq] at h1
    simp [hl, h1]

/-- One step of a schedule in which interrupts take items only when they may. -/
theorem inv_step {k : Nat} {s : St T} {a : Abs T} (h : Inv (2 ^ k) s a) (act : Act T)
    {s' : St T} {es : List (Event T)} (hs : step (2 ^ k) s act = .ok (s', es)) (hr : Room (2 ^ k) a es) :
    AllRight (2 ^ k) a es ∧ Inv (2 ^ k) s' (final (2 ^ k) a es) := by
  cases act with
  | get =>
    rw [step] at hs
    have hm : May (2 ^ k) a := by
      cases hg : getOpt (2 ^ k) s.b with
      | ub => rw [hg] at hs; simp at hs
      | ok p => obtain ⟨b', r⟩ := p; rw [hg] at hs; simp only [R.bind_ok, R.pure_eq, R.ok.injEq, Prod.mk.injEq] at hs; rw [← hs.2] at hr; exact hr.1
    obtain ⟨b', g1, g2⟩ := inv_take h hm
    rw [g1] at hs
    simp only [R.bind_ok, R.pure_eq, R.ok.injEq, Prod.mk.injEq] at hs
    obtain ⟨rfl, rfl⟩ := hs
    exact ⟨⟨rfl, trivial⟩, g2⟩
  | remove =>
    simp only [step, R.pure_eq, R.ok.injEq, Prod.mk.injEq] at hs
    obtain ⟨rfl, rfl⟩ := hs
    obtain ⟨b', g1, g2⟩ := inv_take h hr.1
    rw [removeFirst_getOpt g1]
    exact ⟨⟨trivial, trivial⟩, g2⟩
  | put x =>
    obtain ⟨b, pc⟩ := s
    cases pc with
    | idle =>
      obtain ⟨h1, h2⟩ := h
      simp only at h1 h2
      simp only [step, arrSet_lt (head_lt h1), R.bind_ok, R.pure_eq, R.ok.injEq, Prod.mk.injEq] at hs
      obtain ⟨rfl, rfl⟩ := hs
      refine ⟨⟨trivial, trivial⟩, rfl, ?_⟩
      have hq := h1.qlen
      by_cases hl : a.q.length = 2 ^ k
      · exact .inr ⟨hl, b, h1, rfl⟩
      · exact .inl ⟨by simp only [final, next]; omega, rel_store h1 (by omega) x, by simp only; rw [List.getElem?_set_self (head_lt h1)]⟩
    | _ =>
      simp only [step, R.pure_eq, R.ok.injEq, Prod.mk.injEq] at hs
      obtain ⟨rfl, rfl⟩ := hs
      exact ⟨trivial, h⟩
  | cont =>
    obtain ⟨b, pc⟩ := s
    obtain ⟨q, ph⟩ := a
    cases pc with
    | idle =>
      simp only [step, R.pure_eq, R.ok.injEq, Prod.mk.injEq] at hs
      obtain ⟨rfl, rfl⟩ := hs
      exact ⟨trivial, h⟩
    | written x =>
      simp only [step, R.pure_eq, R.ok.injEq, Prod.mk.injEq] at hs
      obtain ⟨rfl, rfl⟩ := hs
      obtain ⟨h1, h2⟩ := h
      refine ⟨trivial, ?_⟩
      rcases h2 with ⟨h2, h3, h4⟩ | ⟨h2, b0, h3, h4⟩
      · have hf : b.full = false := by have := h3.full; rw [this]; simp at h2 ⊢; omega
        simp only [hf, Bool.false_eq_true, if_false]
        exact ⟨h1, .inl ⟨h2, h3, h4⟩⟩
      · have hf : b.full = true := by simp only at h4; rw [h4]; simp only [Full]; rw [h3.full]; simp at h2 ⊢; exact h2
        simp only [hf, if_true]
        exact ⟨h1, h2, b0, h3, h4⟩
    | dropping x =>
      simp only [step, R.pure_eq, R.ok.injEq, Prod.mk.injEq] at hs
      obtain ⟨rfl, rfl⟩ := hs
      obtain ⟨h1, h2, b0, h3, h4⟩ := h
      exact ⟨trivial, h1, h2, b0, h3, h4, by simp only at h4; rw [h4]; rfl⟩
    | drop x t =>
      simp only [step, R.pure_eq, R.ok.injEq, Prod.mk.injEq] at hs
      obtain ⟨rfl, rfl⟩ := hs
      obtain ⟨h1, h2, b0, h3, h4, h5⟩ := h
      simp only at h4
      subst h4 h5
      exact ⟨⟨trivial, trivial⟩, h1, .inr ⟨h2, b0, h3, rfl⟩⟩
    | advance x =>
      simp only [step, R.pure_eq, R.ok.injEq, Prod.mk.injEq] at hs
      obtain ⟨rfl, rfl⟩ := hs
      obtain ⟨h1, h2⟩ := h
      refine ⟨⟨trivial, trivial⟩, rfl, ?_⟩
      rcases h2 with ⟨h2, h3, h4⟩ | ⟨h2, b0, h3, h4⟩
      · simp only at h2 h3 h4
        have hf : b.full = false := by have := h3.full; rw [this]; simp; omega
        simp only [final, next, if_neg (show ¬ q.length = 2 ^ k by omega)]
        exact ⟨rel_advance h3 h2 h4, by simp, fun _ => hf⟩
      · simp only at h2 h3 h4
        subst h4
        simp only [final, next, if_pos h2]
        refine ⟨rel_advance_full h3 h2, by simp, fun c => ?_⟩
        have hp := Nat.two_pow_pos k
        simp at c; omega
    | compare =>
      simp only [step, R.pure_eq, R.ok.injEq, Prod.mk.injEq] at hs
      obtain ⟨rfl, rfl⟩ := hs
      obtain ⟨h1, h2, h3, h4⟩ := h
      exact ⟨⟨trivial, trivial⟩, rfl, h2, h4, head_tail h2 h3⟩
    | flag f =>
      simp only [step, R.pure_eq, R.ok.injEq, Prod.mk.injEq] at hs
      obtain ⟨rfl, rfl⟩ := hs
      obtain ⟨h1, h2, h4, h5⟩ := h
      simp only at h5
      subst h5
      exact ⟨⟨trivial, trivial⟩, h2, rfl⟩

theorem allRight_append {N : Nat} {es fs : List (Event T)} : ∀ {a : Abs T}, AllRight N a es → AllRight N (final N a es) fs → AllRight N a (es ++ fs) := by
  induction es with
  | nil => intro a _ h; exact h
  | cons e es ih => intro a h1 h2; exact ⟨h1.1, ih h1.2 h2⟩

theorem final_append {N : Nat} {es fs : List (Event T)} : ∀ {a : Abs T}, final N a (es ++ fs) = final N (final N a es) fs := by
  induction es with
  | nil => intro a; rfl
  | cons e es ih => intro a; exact ih

theorem room_append {N : Nat} {es fs : List (Event T)} : ∀ {a : Abs T}, Room N a (es ++ fs) → Room N a es ∧ Room N (final N a es) fs := by
  induction es with
  | nil => intro a h; exact ⟨trivial, h⟩
  | cons e es ih =>
    intro a h
    cases e with
    | answer r => exact ⟨⟨h.1, (ih h.2).1⟩, (ih h.2).2⟩
    | removed => exact ⟨⟨h.1, (ih h.2).1⟩, (ih h.2).2⟩
    | call x => exact ih (a := next N a (.call x)) h
    | dropped => exact ih (a := next N a .dropped) h
    | added x => exact ih (a := next N a (.added x)) h
    | compared => exact ih (a := next N a .compared) h
    | done => exact ih (a := next N a .done) h

theorem inv_run {k : Nat} (l : List (Act T)) : ∀ {s : St T} {a : Abs T} {s' : St T} {es : List (Event T)}, Inv (2 ^ k) s a →
    run (2 ^ k) s l = .ok (s', es) → Room (2 ^ k) a es → AllRight (2 ^ k) a es ∧ Inv (2 ^ k) s' (final (2 ^ k) a es) := by
  induction l with
  | nil =>
    intro s a s' es h hs _
    cases hs
    exact ⟨trivial, h⟩
  | cons act l ih =>
    intro s a s' es h hs hr
    rw [run] at hs
    cases h1 : step (2 ^ k) s act with
    | ub => rw [h1] at hs; simp at hs
    | ok p =>
      obtain ⟨s1, e1⟩ := p
      rw [h1] at hs
      simp only [R.bind_ok] at hs
      cases h2 : run (2 ^ k) s1 l with
      | ub => rw [h2] at hs; simp at hs
      | ok p2 =>
        obtain ⟨s2, e2⟩ := p2
        rw [h2] at hs
        simp only [R.bind_ok, R.pure_eq, R.ok.injEq, Prod.mk.injEq] at hs
        obtain ⟨rfl, rfl⟩ := hs
        obtain ⟨r1, r2⟩ := room_append hr
        obtain ⟨a1, i1⟩ := inv_step h act h1 r1
        obtain ⟨a2, i2⟩ := ih i1 h2 r2
        exact ⟨allRight_append a1 a2, by rw [final_append]; exact i2⟩

/-- **C204.** Whatever the interrupts do and whenever they come, no access leaves the buffer. -/
theorem C204_in_bounds (k : Nat) (dflt : T) (l : List (Act T)) : ∃ s es, run (2 ^ k) (init (2 ^ k) dflt) l = .ok (s, es) := by
  have gen : ∀ (l : List (Act T)) (s : St T), Safe (2 ^ k) s → ∃ s' es, run (2 ^ k) s l = .ok (s', es) := by
    intro l
    induction l with
    | nil => intro s _; exact ⟨s, [], rfl⟩
    | cons a l ih =>
      intro s h
      obtain ⟨s1, e1, h1, h2⟩ := safe_step h a
      obtain ⟨s2, e2, h3⟩ := ih s1 h2
      exact ⟨s2, e1 ++ e2, by simp only [run, h1, h3, R.bind_ok, R.pure_eq]⟩
  exact gen l _ ⟨by simp [init, CircBuf.init], Nat.two_pow_pos k, Nat.two_pow_pos k⟩

example : ∃ s es, run (2 ^ 1) (init (2 ^ 1) 0) [.put 7, .cont, .get, .cont, .get, .cont, .get, .cont, .get] = .ok (s, es) ∧ es ≠ [] :=
  ⟨_, _, rfl, by decide⟩

/-- **C204 (partial).** If an interrupt that comes inside `put()` takes an item only while there are fewer than N items, and between the arrival of the new item and the comparison of the indices only if it leaves one, then every answer is the
oldest item there is (or "nothing" if there is none), and when no `put()` is running the buffer behaves, in all calls to come, as the queue of the items that should be there. Missing: the other moments, where it is false
(`C204_emptied_violated`, `C204_full_violated`, `C204_filled_violated`). -/
theorem C204_answers_partial (k : Nat) (dflt : T) (l : List (Act T)) (s : St T) (es : List (Event T))
    (hs : run (2 ^ k) (init (2 ^ k) dflt) l = .ok (s, es)) (hr : Room (2 ^ k) ⟨[], .out⟩ es) :
    AllRight (2 ^ k) ⟨[], .out⟩ es
    ∧ (s.pc = .idle →
        CircBuf.count (2 ^ k) s.b = (final (2 ^ k) ⟨[], .out⟩ es).q.length
        ∧ ∀ ops : List (CircBuf.Op T), ∃ s', CircBuf.runOpt (2 ^ k) s.b ops = .ok (s', (_root_.Spec.qrun (2 ^ k) (final (2 ^ k) ⟨[], .out⟩ es).q (ops.map CircBuf.Op.toQ)).2)) := by
  have h0 : Inv (2 ^ k) (init (2 ^ k) dflt) ⟨[], .out⟩ := ⟨Rel.init (Nat.two_pow_pos k) dflt, rfl⟩
  obtain ⟨h1, h2⟩ := inv_run l h0 hs hr
  refine ⟨h1, fun hp => ?_⟩
  obtain ⟨b, pc⟩ := s
  simp only at hp
  subst hp
  obtain ⟨h3, h4⟩ := h2
  refine ⟨h3.count, fun ops => ?_⟩
  obtain ⟨s', g1, _⟩ := h3.run dflt ops
  exact ⟨s', g1⟩

/-- Two items, a third `put` interrupted before, in and after; one interrupt more takes the last of them while the flag is about to be written. -/
example : ∃ s, run (2 ^ 2) (init (2 ^ 2) 0) [.put 7, .cont, .cont, .cont, .cont, .put 8, .cont, .get, .cont, .cont, .get, .cont, .get]
      = .ok (s, [.call 7, .added 7, .compared, .done, .call 8, .answer (some 7), .added 8, .compared, .answer (some 8), .done, .answer none])
    ∧ Room (2 ^ 2) ⟨[], .out⟩ [.call 7, .added 7, .compared, .done, .call 8, .answer (some 7), .added 8, .compared, .answer (some 8), .done, .answer (none : Option Nat)] :=
  ⟨_, rfl, by simp [Room, next, May]⟩

/-- **C204 (the property is false here).** In a buffer of any size of at least two: an interrupt takes the only item just after it arrived, before `put()` compares the indices. Equal indices then mean "full": the empty buffer counts N
items, and the next `get()` answers with a slot nobody filled. -/
theorem C204_emptied_violated (k : Nat) (hk : 1 ≤ k) (dflt x : T) :
    ∃ s, run (2 ^ k) (init (2 ^ k) dflt) [.put x, .cont, .cont, .get, .cont, .cont, .get]
        = .ok (s, [.call x, .added x, .answer (some x), .compared, .done, .answer (some dflt)])
      ∧ (∃ s1 es, run (2 ^ k) (init (2 ^ k) dflt) [.put x, .cont, .cont, .get, .cont, .cont] = .ok (s1, es) ∧ CircBuf.count (2 ^ k) s1.b = 2 ^ k)
      ∧ ¬ AllRight (2 ^ k) ⟨[], .out⟩ [.call x, .added x, .answer (some x), .compared, .done, .answer (some dflt)] := by
  have hN : 2 ≤ 2 ^ k := by
    calc 2 = 2 ^ 1 := rfl
      _ ≤ 2 ^ k := Nat.pow_le_pow_right (by omega) hk
  have hm : (0 + 1) &&& (2 ^ k - 1) = 1 := by rw [and_mask]; exact Nat.mod_eq_of_lt (by omega)
  have hm' : 1 &&& (2 ^ k - 1) = 1 := hm
  have hset : arrSet (List.replicate (2 ^ k) dflt) 0 x = .ok ((List.replicate (2 ^ k) dflt).set 0 x) := arrSet_lt (by simp; omega)
  have hg0 : arrGet ((List.replicate (2 ^ k) dflt).set 0 x) 0 = .ok x := arrGet_some (by rw [List.getElem?_set_self (by simp; omega)])
  have hg1 : arrGet ((List.replicate (2 ^ k) dflt).set 0 x) 1 = .ok dflt :=
    arrGet_some (by rw [List.getElem?_set_ne (by omega), List.getElem?_replicate]; simp; omega)
  clear hm
  generalize 2 ^ k = N at *
  refine ⟨⟨⟨(List.replicate N dflt).set 0 x, 1, 2 &&& (N - 1), false⟩, .idle⟩, ?_, ⟨⟨⟨(List.replicate N dflt).set 0 x, 1, 1, true⟩, .idle⟩, [.call x, .added x, .answer (some x), .compared, .done], ?_, rfl⟩, ?_⟩
  · simp [run, step, init, CircBuf.init, hset, hg0, hg1, hm', CircBuf.getOpt, CircBuf.empty, CircBuf.incHead, CircBuf.incTail]
  · simp [run, step, init, CircBuf.init, hset, hg0, hm', CircBuf.getOpt, CircBuf.empty, CircBuf.incHead, CircBuf.incTail]
  · have hN1 : ¬ (0 = N) := by omega
    simp [AllRight, next, Right, hN1]

/-- **C204 (the property is false here).** The buffer is full and a `put()` has stored its item over the oldest: an interrupt gets the new item in place of the oldest. A second later in the same `put()`, after the tail moved, it gets the
second oldest, and both then miss an item. -/
theorem C204_full_violated :
    (∃ s, run (2 ^ 1) (init (2 ^ 1) 0) [.put 1, .cont, .cont, .cont, .cont, .put 2, .cont, .cont, .cont, .cont, .put 3, .get]
        = .ok (s, [.call 1, .added 1, .compared, .done, .call 2, .added 2, .compared, .done, .call 3, .answer (some 3)]))
    ∧ ¬ AllRight (2 ^ 1) ⟨[], .out⟩ [.call 1, .added 1, .compared, .done, .call 2, .added 2, .compared, .done, .call 3, .answer (some 3)]
    ∧ (∃ s, run (2 ^ 1) (init (2 ^ 1) 0) [.put 1, .cont, .cont, .cont, .cont, .put 2, .cont, .cont, .cont, .cont, .put 3, .cont, .cont, .cont, .get]
        = .ok (s, [.call 1, .added 1, .compared, .done, .call 2, .added 2, .compared, .done, .call 3, .dropped, .answer (some 2)]))
    ∧ ¬ AllRight (2 ^ 1) ⟨[], .out⟩ [.call 1, .added 1, .compared, .done, .call 2, .added 2, .compared, .done, .call 3, .dropped, .answer (some 2)] :=
  ⟨⟨_, rfl⟩, by simp [AllRight, next, Right], ⟨_, rfl⟩, by simp [AllRight, next, Right]⟩

/-- **C204 (the property is false here).** The item that fills the buffer has arrived and `full_` is not yet set: an interrupt is told that there is nothing, with N items in the buffer. -/
theorem C204_filled_violated :
    (∃ s, run (2 ^ 1) (init (2 ^ 1) 0) [.put 1, .cont, .cont, .cont, .cont, .put 2, .cont, .cont, .get]
        = .ok (s, [.call 1, .added 1, .compared, .done, .call 2, .added 2, .answer none]))
    ∧ ¬ AllRight (2 ^ 1) ⟨[], .out⟩ [.call 1, .added 1, .compared, .done, .call 2, .added 2, .answer none] :=
  ⟨⟨_, rfl⟩, by simp [AllRight, next, Right]⟩

end CircBufTake
