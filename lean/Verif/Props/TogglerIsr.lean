import Verif.Spec.TogglerIsr
/-! # Property C169: button events that arrive by interrupt -/

namespace TogglerIsr
open Spec

theorem run_cons {s s' : St} {a : Act} {l : List Act} {es : List Event} (h : run s (a :: l) = some (s', es)) :
    ∃ s1 e1 e2, step s a = some (s1, e1) ∧ run s1 l = some (s', e2) ∧ es = e1 ++ e2 := by
  unfold run at h
  split at h
  · cases h
  · next s1 e1 hs =>
    split at h
    · cases h
    · next s2 e2 hr =>
      cases h
      exact ⟨s1, e1, e2, hs, hr, rfl⟩

theorem owed_append (p o : Bool) (a b : List Event) : owed p o (a ++ b) = owed p (owed p o a) b := by
  induction a generalizing o with
  | nil => rfl
  | cons e a ih => cases e <;> simp only [List.cons_append, owed, ih]

theorem level_append (h : Bool) (a b : List Event) : level h (a ++ b) = level (level h a) b := by
  induction a generalizing h with
  | nil => rfl
  | cons e a ih => cases e <;> simp only [List.cons_append, level, ih]

theorem edges_append (p : Bool) (a b : List Event) : edges p (a ++ b) = edges p a + edges p b := by
  induction a with
  | nil => simp [edges]
  | cons e a ih => cases e <;> simp only [List.cons_append, edges, ih] <;> omega

theorem yes_append (p : Bool) (a b : List Event) : yes p (a ++ b) = yes p a + yes p b := by
  induction a with
  | nil => simp [yes]
  | cons e a ih => cases e <;> simp only [List.cons_append, yes, ih] <;> omega

/-- The flag for a question. -/
def flag (t : Toggler) (p : Bool) : Bool := if p then t.rising else t.falling

theorem step_book {s s' : St} {a : Act} {e : List Event} (h : step s a = some (s', e)) (p : Bool) :
    flag s'.t p = owed p (flag s.t p) e ∧ s'.t.high = level s.t.high e ∧
    yes p e + (if s'.pc = .saw p ∨ flag s'.t p = true then 1 else 0) ≤ edges p e + (if s.pc = .saw p ∨ flag s.t p = true then 1 else 0) := by
  obtain ⟨⟨hi, ri, fa⟩, pc⟩ := s
  cases a with
  | isr i =>
    simp only [step, Option.some.injEq, Prod.mk.injEq] at h
    obtain ⟨rfl, rfl⟩ := h
    cases i with
    | state b => cases b <;> cases p <;> cases hi <;> cases ri <;> cases fa <;> simp [isr, Toggler.registerState, flag, owed, level, yes, edges] <;> split <;> simp
    | rise => cases p <;> cases hi <;> cases ri <;> cases fa <;> simp [isr, Toggler.registerRisingEdge, flag, owed, level, yes, edges] <;> split <;> simp
    | fall => cases p <;> cases hi <;> cases ri <;> cases fa <;> simp [isr, Toggler.registerFallingEdge, flag, owed, level, yes, edges] <;> split <;> simp
  | ask q =>
    cases pc with
    | idle => cases q <;> cases p <;> cases ri <;> cases fa <;> simp [step] at h <;> obtain ⟨rfl, rfl⟩ := h <;> simp [flag, owed, level, yes, edges]
    | saw r => simp [step] at h
  | cont =>
    cases pc with
    | idle => simp [step] at h
    | saw r => cases r <;> cases p <;> cases ri <;> cases fa <;> simp [step] at h <;> obtain ⟨rfl, rfl⟩ := h <;> simp [flag, owed, level, yes, edges]

theorem run_book (l : List Act) : ∀ (s s' : St) (es : List Event), run s l = some (s', es) → ∀ p,
    flag s'.t p = owed p (flag s.t p) es ∧ s'.t.high = level s.t.high es ∧
    yes p es + (if s'.pc = .saw p ∨ flag s'.t p = true then 1 else 0) ≤ edges p es + (if s.pc = .saw p ∨ flag s.t p = true then 1 else 0) := by
  induction l with
  | nil => intro s s' es h p; cases h; simp [owed, level, yes, edges]
  | cons a l ih =>
    intro s s' es h p
    obtain ⟨s1, e1, e2, hs, hr, rfl⟩ := run_cons h
    obtain ⟨k1, k2, k3⟩ := step_book hs p
    obtain ⟨m1, m2, m3⟩ := ih s1 s' e2 hr p
    refine ⟨by rw [owed_append, m1, k1], by rw [level_append, m2, k2], ?_⟩
    rw [yes_append, edges_append]
    omega

/-- **C169**: a Toggler fed by an interrupt, at any moments: whenever the main program asks is_just_pressed() (`p = true`) or is_just_released(), the answer is "yes" exactly if one is owed: an edge of that kind has been registered since the
last "yes" (and was not withdrawn by an opposite edge of a Debouncer). No event is lost or invented, though the flag is tested and cleared in two accesses. -/
theorem C169_answers (sched : List Act) (s : St) (es : List Event) (h : run init sched = some (s, es)) (hp : s.pc = .idle) (p : Bool) :
    (owed p false es = true → step s (.ask p) = some ({ s with pc := .saw p }, []) ∧ ∀ i : List Isr, ∃ s' e', run s (.ask p :: (i.map .isr ++ [.cont])) = some (s', e' ++ [.answer p true]) ∧ s'.pc = .idle) ∧
    (owed p false es = false → step s (.ask p) = some (s, [.answer p false])) := by
  have hb := (run_book sched init s es h p).1
  have h0 : flag init.t p = false := by cases p <;> rfl
  rw [h0] at hb
  constructor
  · intro ho
    rw [ho] at hb
    have hs : step s (.ask p) = some ({ s with pc := .saw p }, []) := by
      simp only [step, if_pos hp]
      rw [if_pos (by exact hb)]
    refine ⟨hs, fun i => ?_⟩
    have gen : ∀ (i : List Isr) (c : St), c.pc = .saw p → ∃ s' e', run c (i.map .isr ++ [.cont]) = some (s', e' ++ [.answer p true]) ∧ s'.pc = .idle := by
      intro i
      induction i with
      | nil =>
        intro c hc
        cases p <;> exact ⟨_, [], by simp only [List.map_nil, List.nil_append, run, step, hc]; rfl, rfl⟩
      | cons x i ih =>
        intro c hc
        obtain ⟨s', e', k1, k2⟩ := ih { c with t := (isr c.t x).1 } hc
        refine ⟨s', (isr c.t x).2 ++ e', ?_, k2⟩
        simp only [List.map_cons, List.cons_append, run, step]
        rw [k1]
        simp
    obtain ⟨s', e', k1, k2⟩ := gen i { s with pc := .saw p } rfl
    refine ⟨s', e', ?_, k2⟩
    unfold run
    rw [hs]
    simp only
    rw [k1]
    rfl
  · intro ho
    rw [ho] at hb
    simp only [step, if_pos hp]
    rw [if_neg (by unfold flag at hb; rw [hb]; decide)]

/-- **C169**: there are never more "yes" answers than edges, and is_high() is the state registered last. -/
theorem C169_counts (sched : List Act) (s : St) (es : List Event) (h : run init sched = some (s, es)) (p : Bool) :
    yes p es ≤ edges p es ∧ s.t.isHigh = level false es := by
  obtain ⟨_, k2, k3⟩ := run_book sched init s es h p
  have h0 : (if init.pc = .saw p ∨ flag init.t p = true then 1 else 0) = 0 := by cases p <;> rfl
  rw [h0] at k3
  exact ⟨by omega, k2⟩

/-- press, query interrupted between test and clearing by a release and a press -/
example : run init [.isr (.state true), .ask true, .isr (.state false), .isr (.state true), .cont, .ask true, .ask false, .cont] =
    some (⟨⟨true, false, false⟩, .idle⟩, [.edge true, .edge false, .edge true, .answer true true, .answer true false, .answer false true]) := by decide

namespace Compact

theorem run_cons {s s' : St} {a : Act} {l : List Act} {es : List Event} (h : run s (a :: l) = some (s', es)) :
    ∃ s1 e1 e2, step s a = some (s1, e1) ∧ run s1 l = some (s', e2) ∧ es = e1 ++ e2 := by
  unfold run at h
  split at h
  · cases h
  · next s1 e1 hs =>
    split at h
    · cases h
    · next s2 e2 hr =>
      cases h
      exact ⟨s1, e1, e2, hs, hr, rfl⟩

/-- No interrupt comes between the load and the store of the byte when a flag is cleared. -/
def NoTear : St → List Act → Prop
  | _, [] => True
  | s, a :: l => (∀ p b, s.pc = .loaded p b → ∀ i, a ≠ .isr i) ∧ ∀ s' e, step s a = some (s', e) → NoTear s' l

/-- The flag for a question. -/
def flag (t : TogglerCompact) (p : Bool) : Bool := if p then t.rising ≠ 0 else t.falling ≠ 0

/-- The byte loaded is current. -/
def Fresh (s : St) : Prop := ∀ p b, s.pc = .loaded p b → b = s.t

theorem bit (b : BitVec 1) : b = 0 ∨ b = 1 := by
  revert b; decide

theorem step_book {s s' : St} {a : Act} {e : List Event} (h : step s a = some (s', e)) (hf : Fresh s) (hn : ∀ p b, s.pc = .loaded p b → ∀ i, a ≠ .isr i) (p : Bool) :
    Fresh s' ∧ flag s'.t p = owed p (flag s.t p) e ∧ s'.t.isHigh = level s.t.isHigh e := by
  obtain ⟨⟨hi, ri, fa⟩, pc⟩ := s
  cases a with
  | isr i =>
    simp only [step, Option.some.injEq, Prod.mk.injEq] at h
    obtain ⟨rfl, rfl⟩ := h
    refine ⟨fun q b hq => absurd rfl (hn q b hq i), ?_⟩
    rcases bit hi with rfl | rfl <;> rcases bit ri with rfl | rfl <;> rcases bit fa with rfl | rfl <;> cases p <;> cases i with
    | state b => cases b <;> exact ⟨rfl, rfl⟩
    | rise => exact ⟨rfl, rfl⟩
    | fall => exact ⟨rfl, rfl⟩
  | ask q =>
    cases pc with
    | idle =>
      rcases bit ri with rfl | rfl <;> rcases bit fa with rfl | rfl <;> cases q <;> cases p <;> simp [step] at h <;> obtain ⟨rfl, rfl⟩ := h <;> simp [flag, owed, level, Fresh, TogglerCompact.isHigh]
    | saw r => simp [step] at h
    | loaded r b => simp [step] at h
  | cont =>
    cases pc with
    | idle => simp [step] at h
    | saw r =>
      simp [step] at h
      obtain ⟨rfl, rfl⟩ := h
      exact ⟨fun p b hb => by (simp only [Pc.loaded.injEq] at hb; exact hb.2.symm), rfl, rfl⟩
    | loaded r b =>
      have hb := hf r b rfl
      simp only at hb
      subst hb
      cases r <;> simp [step] at h <;> obtain ⟨rfl, rfl⟩ := h <;> cases p <;> simp [flag, owed, level, Fresh, TogglerCompact.isHigh]

theorem run_book (l : List Act) : ∀ (s s' : St) (es : List Event), run s l = some (s', es) → Fresh s → NoTear s l → ∀ p, flag s'.t p = owed p (flag s.t p) es ∧ s'.t.isHigh = level s.t.isHigh es := by
  induction l with
  | nil => intro s s' es h _ _ p; cases h; exact ⟨rfl, rfl⟩
  | cons a l ih =>
    intro s s' es h hf hn p
    obtain ⟨s1, e1, e2, hs, hr, rfl⟩ := run_cons h
    obtain ⟨k0, k1, k2⟩ := step_book hs hf hn.1 p
    obtain ⟨m1, m2⟩ := ih s1 s' e2 hr k0 (hn.2 _ _ hs) p
    exact ⟨by rw [owed_append, m1, k1], by rw [level_append, m2, k2]⟩

/-- **C169** for TogglerCompact (partial): the same, if no interrupt comes between the load and the store of the byte when a flag is cleared. Missing: interrupts there, see below. -/
theorem C169_compact_partial (sched : List Act) (s : St) (es : List Event) (h : run init sched = some (s, es)) (hn : NoTear init sched) (hp : s.pc = .idle) (p : Bool) :
    (owed p false es = true → step s (.ask p) = some ({ s with pc := .saw p }, [])) ∧ (owed p false es = false → step s (.ask p) = some (s, [.answer p false])) ∧ s.t.isHigh = level false es := by
  obtain ⟨hb, hl⟩ := run_book sched init s es h (fun _ _ h => by (cases h)) hn p
  have h0 : flag init.t p = false := by cases p <;> rfl
  rw [h0] at hb
  refine ⟨fun ho => ?_, fun ho => ?_, hl⟩
  · rw [ho] at hb
    simp only [step, if_pos hp]
    rw [if_pos]
    cases p <;> simpa [flag] using hb
  · rw [ho] at hb
    simp only [step, if_pos hp]
    rw [if_neg]
    cases p <;> simpa [flag] using hb

/-- **C169 is violated** by TogglerCompact: a release registered while the main program clears the press flag is lost: it is never reported, and is_high() stays true. -/
theorem C169_compact_violated : ∃ s es, run init [.isr (.state true), .ask true, .cont, .isr (.state false), .cont] = some (s, es) ∧ s.pc = .idle ∧ owed false false es = true ∧
    step s (.ask false) = some (s, [.answer false false]) ∧ s.t.isHigh = true ∧ level false es = false := ⟨_, _, rfl, rfl, rfl, rfl, rfl, rfl⟩

/-- an untorn run with an interrupt between the test and the load -/
example : NoTear init [.isr (.state true), .ask true, .isr (.state false), .cont, .cont, .ask false, .cont, .cont] := by
  simp [NoTear, init, step, isr, TogglerCompact.registerState]

end Compact
end TogglerIsr
