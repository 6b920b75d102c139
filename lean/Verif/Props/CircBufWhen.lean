import Verif.Spec.CircBufWhen
import Verif.Props.CircBufTake
/-! # Property C204: exactly when an interrupt may empty a circular buffer -/

namespace CircBufTake.When
open CircBuf CircBufTake
variable {T : Type}

/-- What holds between the buffer and the queue at each point of `put`. -/
def Inv (N : Nat) (s : St T) (a : Abs T) : Prop :=
  match s.pc with
  | .idle => Rel N s.b a.q ∧ a.ph = .out
  | .written x => a.ph = .begun x ∧
      ((a.q.length < N ∧ Rel N s.b a.q ∧ s.b.buf[s.b.head]? = some x) ∨ (a.q.length = N ∧ ∃ b0, Rel N b0 a.q ∧ s.b = Full N b0 x))
  | .dropping x => a.ph = .begun x ∧ a.q.length = N ∧ ∃ b0, Rel N b0 a.q ∧ s.b = Full N b0 x
  | .drop x t => a.ph = .begun x ∧ a.q.length = N ∧ ∃ b0, Rel N b0 a.q ∧ s.b = Full N b0 x ∧ t = b0.tail
  | .advance x => a.q.length < N ∧ Rel N { s.b with full := false } a.q ∧ s.b.buf[s.b.head]? = some x ∧
      ((a.ph = .begun x ∧ s.b.full = false) ∨ (∃ u, a.ph = .dropped u ∧ s.b.full = u ∧ (u = true → a.q.length + 1 = N)))
  | .compare => ∃ u, a.ph = .added u ∧ Rel N { s.b with full := decide (a.q.length = N) } a.q ∧ a.q ≠ [] ∧ s.b.full = u ∧ (u = true → a.q.length = N)
  | .flag b => a.ph = .compared ∧ Rel N { s.b with full := decide (a.q.length = N) } a.q ∧ (a.q.length < N → s.b.full = false) ∧ b = decide (a.q.length = N)

/-- `get()` when `full_` is set or there are fewer than N items. -/
theorem getOpt_any {k : Nat} {b : CircBuf.St T} {q : List T} (h : Rel (2 ^ k) { b with full := decide (q.length = 2 ^ k) } q)
    (hc : q ≠ [] ∧ b.full = true ∨ q.length < 2 ^ k ∧ b.full = false) :
    ∃ b', getOpt (2 ^ k) b = .ok (b', q.head?) ∧ Rel (2 ^ k) b' q.tail ∧ b'.head = b.head ∧ b'.buf = b.buf ∧ b'.full = false := by
  rcases hc with ⟨h1, h2⟩ | ⟨h1, h2⟩
  · cases q with
    | nil => exact absurd rfl h1
    | cons a q =>
      obtain ⟨g1, g2⟩ := h.incTail
      refine ⟨incTail (2 ^ k) { b with full := false }, ?_, g2, rfl, rfl, rfl⟩
      simp only at g1
      simp [CircBuf.getOpt, CircBuf.empty, h2, arrGet_some g1]
  · have e : ({ b with full := decide (q.length = 2 ^ k) } : CircBuf.St T) = b := by
      rw [show decide (q.length = 2 ^ k) = b.full by rw [h2]; simp; omega]
    rw [e] at h
    exact getOpt_room h h1

theorem rel_flag {N : Nat} {b : CircBuf.St T} {q : List T} (h : Rel N b q) : Rel N { b with full := decide (q.length = N) } q := by
  have := h.full
  rw [← this]
  exact h

/-- Taking an item when one may. -/
theorem inv_take {k : Nat} (hk : 1 ≤ k) {s : St T} {a : Abs T} (h : Inv (2 ^ k) s a) (hm : May (2 ^ k) a) :
    ∃ b', getOpt (2 ^ k) s.b = .ok (b', a.q.head?) ∧ Inv (2 ^ k) { s with b := b' } ⟨a.q.tail, touch a.ph⟩ := by
  have hN : 2 ≤ 2 ^ k := by
    calc 2 = 2 ^ 1 := rfl
      _ ≤ 2 ^ k := Nat.pow_le_pow_right (by omega) hk
  obtain ⟨b, pc⟩ := s
  obtain ⟨q, ph⟩ := a
  have tl : q.tail.length < 2 ^ k ∨ 2 ^ k < q.length := by simp; omega
  cases pc with
  | idle =>
    obtain ⟨h1, h2⟩ := h
    simp only at h1 h2; subst h2
    obtain ⟨b', g1, g2⟩ := h1.getOpt
    exact ⟨b', g1, g2, rfl⟩
  | written x =>
    obtain ⟨h1, h2⟩ := h
    simp only at h1 h2; subst h1
    simp only [May] at hm
    rcases h2 with ⟨h2, h3, h4⟩ | ⟨h2, _⟩
    · obtain ⟨b', g1, g2, g3, g4, g5⟩ := getOpt_room h3 hm
      exact ⟨b', g1, rfl, .inl ⟨qtail_lt hm, g2, by simp only [g3, g4]; exact h4⟩⟩
    · omega
  | dropping x =>
    obtain ⟨h1, h2, _⟩ := h
    simp only at h1 h2; subst h1
    simp only [May] at hm; omega
  | drop x t =>
    obtain ⟨h1, h2, _⟩ := h
    simp only at h1 h2; subst h1
    simp only [May] at hm; omega
  | advance x =>
    obtain ⟨h1, h2, h3, h4⟩ := h
    simp only at h1 h2 h3 h4
    have h2' : Rel (2 ^ k) { b with full := decide (q.length = 2 ^ k) } q := by
      rw [show decide (q.length = 2 ^ k) = false by simp; omega]; exact h2
    have hc : q ≠ [] ∧ b.full = true ∨ q.length < 2 ^ k ∧ b.full = false := by
      rcases h4 with ⟨_, h4⟩ | ⟨u, _, h4, h5⟩
      · exact .inr ⟨h1, h4⟩
      · cases u with
        | false => exact .inr ⟨h1, h4⟩
        | true => refine .inl ⟨?_, h4⟩; rintro rfl; have := h5 rfl; simp at this; omega
    obtain ⟨b', g1, g2, g3, g4, g5⟩ := getOpt_any h2' hc
    have g2' : Rel (2 ^ k) { b' with full := false } q.tail := by rw [← g5]; exact g2
    refine ⟨b', g1, qtail_lt h1, g2', by simp only [g3, g4]; exact h3, ?_⟩
    rcases h4 with ⟨h4, _⟩ | ⟨u, h4, _, _⟩
    · exact .inl ⟨by simp only [h4, touch], g5⟩
    · exact .inr ⟨false, by simp only [h4, touch], g5, by simp⟩
  | compare =>
    obtain ⟨u, h1, h2, h3, h4, h5⟩ := h
    simp only at h1 h2 h3 h4 h5; subst h1
    simp only [May] at hm
    have hc : q ≠ [] ∧ b.full = true ∨ q.length < 2 ^ k ∧ b.full = false := by
      rcases hm with hm | ⟨_, hm⟩
      · cases u with
        | false => exact .inr ⟨hm.2, h4⟩
        | true => exact .inl ⟨h3, h4⟩
      · exact .inl ⟨h3, h4.trans hm⟩
    obtain ⟨b', g1, g2, g3, g4, g5⟩ := getOpt_any h2 hc
    have hl : 2 ≤ q.length := by rcases hm with hm | hm <;> omega
    refine ⟨b', g1, false, rfl, rel_flag g2, ?_, g5, by simp⟩
    intro c
    have := congrArg List.length c
    simp at this; omega
  | flag f =>
    obtain ⟨h1, h2, h4, h5⟩ := h
    simp only at h1 h2 h4 h5; subst h1
    simp only [May] at hm
    obtain ⟨b', g1, g2, g3, g4, g5⟩ := getOpt_any h2 (.inr ⟨hm, h4 hm⟩)
    refine ⟨b', g1, rfl, rel_flag g2, fun _ => g5, ?_⟩
    rw [h5]; simp; omega

/-- One step of a schedule in which interrupts take items only when they may. -/
theorem inv_step {k : Nat} (hk : 1 ≤ k) {s : St T} {a : Abs T} (h : Inv (2 ^ k) s a) (act : Act T)
    {s' : St T} {es : List (Event T)} (hs : step (2 ^ k) s act = .ok (s', es)) (hr : Allowed (2 ^ k) a es) :
    AllRight (2 ^ k) a es ∧ Inv (2 ^ k) s' (final a es) := by
  cases act with
  | get =>
    rw [step] at hs
    have hm : May (2 ^ k) a := by
      cases hg : getOpt (2 ^ k) s.b with
      | ub => rw [hg] at hs; simp at hs
      | ok p => obtain ⟨b', r⟩ := p; rw [hg] at hs; simp only [R.bind_ok, R.pure_eq, R.ok.injEq, Prod.mk.injEq] at hs; rw [← hs.2] at hr; exact hr.1
    obtain ⟨b', g1, g2⟩ := inv_take hk h hm
    rw [g1] at hs
    simp only [R.bind_ok, R.pure_eq, R.ok.injEq, Prod.mk.injEq] at hs
    obtain ⟨rfl, rfl⟩ := hs
    exact ⟨⟨rfl, trivial⟩, g2⟩
  | remove =>
    simp only [step, R.pure_eq, R.ok.injEq, Prod.mk.injEq] at hs
    obtain ⟨rfl, rfl⟩ := hs
    obtain ⟨b', g1, g2⟩ := inv_take hk h hr.1
    rw [removeFirst_getOpt g1]
    exact ⟨⟨trivial, trivial⟩, g2⟩
  | put x =>
    obtain ⟨b, pc⟩ := s
    cases pc with
    | idle =>
      obtain ⟨h1, h2⟩ := h
      simp only at h1 h2
      simp only [step, arrSet_lt (head_lt h1), R.bind_ok, R.pure_eq, R.ok.injEq, Prod.mk.injEq] at hs
      obtain ⟨rfl, rfl⟩ := hs
      refine ⟨⟨trivial, trivial⟩, rfl, ?_⟩
      have hq := h1.qlen
      by_cases hl : a.q.length = 2 ^ k
      · exact .inr ⟨hl, b, h1, rfl⟩
      · exact .inl ⟨by simp only [final, next]; omega, rel_store h1 (by omega) x, by simp only; rw [List.getElem?_set_self (head_lt h1)]⟩
    | _ =>
      simp only [step, R.pure_eq, R.ok.injEq, Prod.mk.injEq] at hs
      obtain ⟨rfl, rfl⟩ := hs
      exact ⟨trivial, h⟩
  | cont =>
    obtain ⟨b, pc⟩ := s
    obtain ⟨q, ph⟩ := a
    cases pc with
    | idle =>
      simp only [step, R.pure_eq, R.ok.injEq, Prod.mk.injEq] at hs
      obtain ⟨rfl, rfl⟩ := hs
      exact ⟨trivial, h⟩
    | written x =>
      simp only [step, R.pure_eq, R.ok.injEq, Prod.mk.injEq] at hs
      obtain ⟨rfl, rfl⟩ := hs
      obtain ⟨h1, h2⟩ := h
      refine ⟨trivial, ?_⟩
      rcases h2 with ⟨h2, h3, h4⟩ | ⟨h2, b0, h3, h4⟩
      · simp only at h1 h2 h3 h4
        have hf : b.full = false := by have := h3.full; rw [this]; simp; omega
        simp only [hf, Bool.false_eq_true, if_false]
        exact ⟨h2, by simp only; rw [← hf]; exact h3, h4, .inl ⟨h1, hf⟩⟩
      · have hf : b.full = true := by simp only at h4; rw [h4]; simp only [Full]; rw [h3.full]; simp at h2 ⊢; exact h2
        simp only [hf, if_true]
        exact ⟨h1, h2, b0, h3, h4⟩
    | dropping x =>
      simp only [step, R.pure_eq, R.ok.injEq, Prod.mk.injEq] at hs
      obtain ⟨rfl, rfl⟩ := hs
      obtain ⟨h1, h2, b0, h3, h4⟩ := h
      exact ⟨trivial, h1, h2, b0, h3, h4, by simp only at h4; rw [h4]; rfl⟩
    | drop x t =>
      simp only [step, R.pure_eq, R.ok.injEq, Prod.mk.injEq] at hs
      obtain ⟨rfl, rfl⟩ := hs
      obtain ⟨h1, h2, b0, h3, h4, h5⟩ := h
      simp only at h1 h2 h3 h4 h5
      subst h4 h5
      refine ⟨⟨h2, trivial⟩, ?_⟩
      have hp := Nat.two_pow_pos k
      cases q with
      | nil => simp at h2; omega
      | cons y q =>
        have hh : b0.head = b0.tail := by
          have := h3.head; rw [h2, Nat.add_mod_right, Nat.mod_eq_of_lt h3.tail] at this; exact this
        obtain ⟨_, g2⟩ := h3.incTail
        have hl : q.length < 2 ^ k := by simp at h2; omega
        have gh : (incTail (2 ^ k) { b0 with full := false }).head = b0.head := rfl
        refine ⟨hl, rel_store g2 hl x, ?_, .inr ⟨true, rfl, ?_, fun _ => by simpa [final, next] using h2⟩⟩
        · simp only [Full]
          rw [List.getElem?_set_self (head_lt h3)]
        · simp only [Full]
          rw [h3.full]; simp at h2 ⊢; exact h2
    | advance x =>
      simp only [step, R.pure_eq, R.ok.injEq, Prod.mk.injEq] at hs
      obtain ⟨rfl, rfl⟩ := hs
      obtain ⟨h1, h2, h3, h4⟩ := h
      simp only at h1 h2 h3 h4
      refine ⟨⟨h1, trivial⟩, untouched ph, rfl, rel_advance (b := { b with full := false }) h2 h1 h3, by simp [final, next], ?_, ?_⟩
      · rcases h4 with ⟨e1, e2⟩ | ⟨u, e1, e2, _⟩
        · simp [incHead, e1, e2, untouched]
        · cases u <;> simp [incHead, e1, e2, untouched]
      · rcases h4 with ⟨e1, e2⟩ | ⟨u, e1, e2, e3⟩
        · simp [e1, untouched]
        · cases u with
          | false => simp [e1, untouched]
          | true => intro _; simpa [final, next] using e3 rfl
    | compare =>
      simp only [step, R.pure_eq, R.ok.injEq, Prod.mk.injEq] at hs
      obtain ⟨rfl, rfl⟩ := hs
      obtain ⟨u, h1, h2, h3, h4, h5⟩ := h
      simp only at h1 h2 h3 h4 h5
      refine ⟨⟨trivial, trivial⟩, rfl, h2, ?_, head_tail h2 h3⟩
      intro hl
      simp only [final, next] at hl
      cases u with
      | false => exact h4
      | true => have := h5 rfl; omega
    | flag f =>
      simp only [step, R.pure_eq, R.ok.injEq, Prod.mk.injEq] at hs
      obtain ⟨rfl, rfl⟩ := hs
      obtain ⟨h1, h2, h4, h5⟩ := h
      simp only at h5
      subst h5
      exact ⟨⟨trivial, trivial⟩, h2, rfl⟩

theorem allRight_append {N : Nat} {es fs : List (Event T)} : ∀ {a : Abs T}, AllRight N a (es ++ fs) ↔ AllRight N a es ∧ AllRight N (final a es) fs := by
  induction es with
  | nil => intro a; simp [AllRight, final]
  | cons e es ih => intro a; simp only [List.cons_append, AllRight, final, ih, and_assoc]

theorem final_append {es fs : List (Event T)} : ∀ {a : Abs T}, final a (es ++ fs) = final (final a es) fs := by
  induction es with
  | nil => intro a; rfl
  | cons e es ih => intro a; exact ih

theorem allowed_append {N : Nat} {es fs : List (Event T)} : ∀ {a : Abs T}, Allowed N a (es ++ fs) → Allowed N a es ∧ Allowed N (final a es) fs := by
  induction es with
  | nil => intro a h; exact ⟨trivial, h⟩
  | cons e es ih =>
    intro a h
    cases e with
    | answer r => exact ⟨⟨h.1, (ih h.2).1⟩, (ih h.2).2⟩
    | removed => exact ⟨⟨h.1, (ih h.2).1⟩, (ih h.2).2⟩
    | call x => exact ih (a := next a (.call x)) h
    | dropped => exact ih (a := next a .dropped) h
    | added x => exact ih (a := next a (.added x)) h
    | compared => exact ih (a := next a .compared) h
    | done => exact ih (a := next a .done) h

theorem inv_run {k : Nat} (hk : 1 ≤ k) (l : List (Act T)) : ∀ {s : St T} {a : Abs T} {s' : St T} {es : List (Event T)}, Inv (2 ^ k) s a →
    run (2 ^ k) s l = .ok (s', es) → Allowed (2 ^ k) a es → AllRight (2 ^ k) a es ∧ Inv (2 ^ k) s' (final a es) := by
  induction l with
  | nil =>
    intro s a s' es h hs _
    cases hs
    exact ⟨trivial, h⟩
  | cons act l ih =>
    intro s a s' es h hs hr
    rw [run] at hs
    cases h1 : step (2 ^ k) s act with
    | ub => rw [h1] at hs; simp at hs
    | ok p =>
      obtain ⟨s1, e1⟩ := p
      rw [h1] at hs
      simp only [R.bind_ok] at hs
      cases h2 : run (2 ^ k) s1 l with
      | ub => rw [h2] at hs; simp at hs
      | ok p2 =>
        obtain ⟨s2, e2⟩ := p2
        rw [h2] at hs
        simp only [R.bind_ok, R.pure_eq, R.ok.injEq, Prod.mk.injEq] at hs
        obtain ⟨rfl, rfl⟩ := hs
        obtain ⟨r1, r2⟩ := allowed_append hr
        obtain ⟨a1, i1⟩ := inv_step hk h act h1 r1
        obtain ⟨a2, i2⟩ := ih i1 h2 r2
        exact ⟨allRight_append.2 ⟨a1, a2⟩, by rw [final_append]; exact i2⟩

/-- **C204 (exact), one half.** In a buffer of at least two places, if interrupts take items only at the moments of `May`, then nothing is dropped that need not be, every answer is the oldest item there is (or "nothing" if there is none), and when
no `put()` is running the buffer behaves, in all calls to come, as the queue of the items that should be there. -/
theorem C204_when_exact (k : Nat) (hk : 1 ≤ k) (dflt : T) (l : List (Act T)) (s : St T) (es : List (Event T))
    (hs : run (2 ^ k) (CircBufTake.init (2 ^ k) dflt) l = .ok (s, es)) (hr : Allowed (2 ^ k) ⟨[], .out⟩ es) :
    AllRight (2 ^ k) ⟨[], .out⟩ es
    ∧ (s.pc = .idle →
        CircBuf.count (2 ^ k) s.b = (final ⟨[], .out⟩ es).q.length
        ∧ ∀ ops : List (CircBuf.Op T), ∃ s', CircBuf.runOpt (2 ^ k) s.b ops = .ok (s', (_root_.Spec.qrun (2 ^ k) (final ⟨[], .out⟩ es).q (ops.map CircBuf.Op.toQ)).2)) := by
  have h0 : Inv (2 ^ k) (CircBufTake.init (2 ^ k) dflt) ⟨[], .out⟩ := ⟨Rel.init (Nat.two_pow_pos k) dflt, rfl⟩
  obtain ⟨h1, h2⟩ := inv_run hk l h0 hs hr
  refine ⟨h1, fun hp => ?_⟩
  obtain ⟨b, pc⟩ := s
  simp only at hp
  subst hp
  obtain ⟨h3, h4⟩ := h2
  refine ⟨h3.count, fun ops => ?_⟩
  obtain ⟨s', h5, _⟩ := h3.run dflt ops
  exact ⟨s', h5⟩

/-- A full buffer; an interrupt takes an item as soon as `put()` has dropped the oldest, and another one when the new item is in: both right. -/
example : ∃ s, run (2 ^ 1) (CircBufTake.init (2 ^ 1) 0) [.put 1, .cont, .cont, .cont, .cont, .put 2, .cont, .cont, .cont, .cont, .put 3, .cont, .cont, .cont, .get, .cont, .cont, .cont, .get]
      = .ok (s, [.call 1, .added 1, .compared, .done, .call 2, .added 2, .compared, .done, .call 3, .dropped, .answer (some 2), .added 3, .compared, .done, .answer (some 3)])
    ∧ Allowed (2 ^ 1) (⟨[], .out⟩ : Abs Nat) [.call 1, .added 1, .compared, .done, .call 2, .added 2, .compared, .done, .call 3, .dropped, .answer (some 2), .added 3, .compared, .done, .answer (some 3)] :=
  ⟨_, rfl, by simp [Allowed, next, May, touch]⟩

/-- **C204 (exact), other half: the property is false at every other moment.** After every history in which interrupts took items only when they may, at a moment at which they may not: an interrupt that takes an item with `get()` now leads to a wrong
answer, now or later (a value that is not the oldest item, "nothing" though there is something, something though there is nothing), or to an item dropped though there is room. For the moments before the oldest item is
dropped this supposes that the new item can be told from the oldest. -/
theorem C204_other_moments_violated (k : Nat) (hk : 1 ≤ k) (dflt : T) (l : List (Act T)) (s : St T) (es : List (Event T)) (a : Abs T)
    (hs : run (2 ^ k) (CircBufTake.init (2 ^ k) dflt) l = .ok (s, es)) (hr : Allowed (2 ^ k) ⟨[], .out⟩ es)
    (ha : final ⟨[], .out⟩ es = a) (hm : ¬ May (2 ^ k) a) (hx : ∀ x, a.ph = .begun x → a.q.head? ≠ some x) :
    ∃ l' s' es', run (2 ^ k) s (.get :: l') = .ok (s', es') ∧ ¬ AllRight (2 ^ k) a es' := by
  have hN : 2 ≤ 2 ^ k := by
    calc 2 = 2 ^ 1 := rfl
      _ ≤ 2 ^ k := Nat.pow_le_pow_right (by omega) hk
  have h0 : Inv (2 ^ k) (CircBufTake.init (2 ^ k) dflt) ⟨[], .out⟩ := ⟨Rel.init (Nat.two_pow_pos k) dflt, rfl⟩
  obtain ⟨_, h⟩ := inv_run hk l h0 hs hr
  rw [ha] at h
  obtain ⟨b, pc⟩ := s
  obtain ⟨q, ph⟩ := a
  simp only at hx
  -- a `get()` that finds the new item in the place of the oldest
  have full_case : ∀ x, ph = .begun x → q.length = 2 ^ k → (∃ b0, Rel (2 ^ k) b0 q ∧ b = Full (2 ^ k) b0 x) →
      ∃ l' s' es', run (2 ^ k) ⟨b, pc⟩ (.get :: l') = .ok (s', es') ∧ ¬ AllRight (2 ^ k) (⟨q, ph⟩ : Abs T) es' := by
    rintro x hp hl ⟨b0, hb, rfl⟩
    have hh : b0.head = b0.tail := by
      have := hb.head; rw [hl, Nat.add_mod_right, Nat.mod_eq_of_lt hb.tail] at this; exact this
    have hf : b0.full = true := by rw [hb.full]; simp [hl]
    have hg : arrGet (b0.buf.set b0.head x) b0.tail = .ok x := arrGet_some (by rw [← hh, List.getElem?_set_self (head_lt hb)])
    refine ⟨[], ⟨incTail (2 ^ k) { Full (2 ^ k) b0 x with full := false }, pc⟩, [.answer (some x)], ?_, ?_⟩
    · simp only [run, step, CircBuf.getOpt, CircBuf.empty, Full, hf, hg, Bool.not_true, Bool.false_and, Bool.false_eq_true, if_false, R.bind_ok, R.pure_eq, List.append_nil]
    · intro c
      exact hx x hp c.1.symm
  -- a `get()` that is told "nothing"
  have none_case : Rel (2 ^ k) { b with full := decide (q.length = 2 ^ k) } q → q.length = 2 ^ k → b.full = false →
      ∃ l' s' es', run (2 ^ k) ⟨b, pc⟩ (.get :: l') = .ok (s', es') ∧ ¬ AllRight (2 ^ k) (⟨q, ph⟩ : Abs T) es' := by
    intro hb hl hf
    have hh : b.head = b.tail := by
      have := hb.head; simp only at this; rw [hl, Nat.add_mod_right, Nat.mod_eq_of_lt hb.tail] at this; exact this
    refine ⟨[], ⟨b, pc⟩, [.answer none], ?_, ?_⟩
    · simp [run, step, CircBuf.getOpt, CircBuf.empty, hf, hh]
    · intro c
      have := c.1
      simp only [Right] at this
      cases q with
      | nil => simp at hl; omega
      | cons => simp at this
  cases pc with
  | idle => obtain ⟨_, h2⟩ := h; simp only at h2; subst h2; exact absurd trivial hm
  | written x =>
    obtain ⟨h1, h2⟩ := h
    simp only at h1 h2
    rcases h2 with ⟨h2, _⟩ | ⟨h2, h3⟩
    · subst h1; exact absurd h2 hm
    · exact full_case x h1 h2 h3
  | dropping x => obtain ⟨h1, h2, h3⟩ := h; exact full_case x h1 h2 h3
  | drop x t => obtain ⟨h1, h2, b0, h3, h4, _⟩ := h; exact full_case x h1 h2 ⟨b0, h3, h4⟩
  | advance x =>
    obtain ⟨h1, _, _, h4⟩ := h
    simp only at h1 h4
    rcases h4 with ⟨h4, _⟩ | ⟨u, h4, _⟩
    · subst h4; exact absurd h1 hm
    · subst h4; exact absurd trivial hm
  | compare =>
    obtain ⟨u, h1, h2, h3, h4, h5⟩ := h
    simp only at h1 h2 h3 h4 h5
    subst h1
    simp only [May, not_or, not_and] at hm
    have hq := h2.qlen
    by_cases hl : q.length = 2 ^ k
    · have hu : u = false := by have := hm.2 hl; simpa using this
      exact none_case h2 hl (h4.trans hu)
    · have hu : u = false := by
        cases u with
        | false => rfl
        | true => exact absurd (h5 rfl) hl
      have h1 : q.length = 1 := by
        have : 0 < q.length := List.length_pos_iff.2 h3
        refine Decidable.byContradiction fun hc => hm.1 (by omega) (by omega)
      obtain ⟨y, rfl⟩ := List.length_eq_one_iff.1 h1
      have hf : b.full = false := h4.trans hu
      have ht := h2.tail
      have hh : b.head = (b.tail + 1) &&& (2 ^ k - 1) := by have := h2.head; rw [and_mask]; simpa using this
      have hne : ¬ b.head = b.tail := by
        have := head_tail h2 h3
        simp only [List.length_singleton, show ¬ 1 = 2 ^ k by omega, decide_false, decide_eq_false_iff_not] at this
        exact this
      have hg : arrGet b.buf b.tail = .ok y := arrGet_some (by have := h2.el 0 (by simp); simpa [Nat.mod_eq_of_lt ht] using this)
      have hb2 : b.head < b.buf.length := head_lt (b := { b with full := decide ([y].length = 2 ^ k) }) h2
      obtain ⟨z, hz⟩ : ∃ z, arrGet b.buf b.head = .ok z := ⟨b.buf[b.head], arrGet_lt hb2⟩
      refine ⟨[.cont, .cont, .get], ⟨⟨b.buf, b.head, (b.head + 1) &&& (2 ^ k - 1), false⟩, .idle⟩, [.answer (some y), .compared, .done, .answer (some z)], ?_, ?_⟩
      · simp [run, step, CircBuf.getOpt, CircBuf.empty, hf, hne, hg, incTail, ← hh, hz]
      · intro c
        have := c.2.2.2.1
        simp [Right, next] at this
  | flag f =>
    obtain ⟨h1, h2, h4, h5⟩ := h
    simp only at h1 h2 h4 h5
    subst h1
    simp only [May] at hm
    have hq := h2.qlen
    have hl : q.length = 2 ^ k := by omega
    cases hf : b.full with
    | false => exact none_case h2 hl hf
    | true =>
      have hne : q ≠ [] := by rintro rfl; simp at hl; omega
      obtain ⟨b', g1, g2, g3, g4, g5⟩ := getOpt_any h2 (.inl ⟨hne, hf⟩)
      have hft : f = true := by rw [h5]; simp [hl]
      have hs : ∀ y, arrSet b'.buf b'.head y = .ok (b'.buf.set b'.head y) := fun y => arrSet_lt (head_lt g2)
      refine ⟨[.cont, .put dflt, .cont, .cont, .cont], ⟨⟨b'.buf.set b'.head dflt, b'.head, (b'.tail + 1) &&& (2 ^ k - 1), true⟩, .advance dflt⟩,
        [.answer q.head?, .done, .call dflt, .dropped], ?_, ?_⟩
      · simp [run, step, g1, hft, hs]
      · intro c
        have := c.2.2.2.1
        simp only [Right, next, List.length_tail] at this
        omega

/-- Such moments are met: the item that fills the buffer is in, and nothing is compared yet. -/
example : ∃ s, run (2 ^ 1) (CircBufTake.init (2 ^ 1) 0) [.put 1, .cont, .cont, .cont, .cont, .put 2, .cont, .cont] = .ok (s, [.call 1, .added 1, .compared, .done, .call 2, .added 2])
    ∧ Allowed (2 ^ 1) (⟨[], .out⟩ : Abs Nat) [.call 1, .added 1, .compared, .done, .call 2, .added 2]
    ∧ ¬ May (2 ^ 1) (final (⟨[], .out⟩ : Abs Nat) [.call 1, .added 1, .compared, .done, .call 2, .added 2]) :=
  ⟨_, rfl, by simp [Allowed], by simp [May, final, next, untouched]⟩

end CircBufTake.When
