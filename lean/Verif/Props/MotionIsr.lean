import Verif.Spec.MotionIsr
/-! # Property C180: motion and changes registered by an interrupt -/

namespace MotionIsr
open Spec

theorem run_cons {s s' : St} {a : Act} {l : List Act} {es : List Event} (h : run s (a :: l) = some (s', es)) :
    ∃ s1 e1 e2, step s a = some (s1, e1) ∧ run s1 l = some (s', e2) ∧ es = e1 ++ e2 := by
  unfold run at h
  split at h
  · cases h
  · next s1 e1 hs =>
    split at h
    · cases h
    · next s2 e2 hr =>
      cases h
      exact ⟨s1, e1, e2, hs, hr, rfl⟩

/-- Is a call running that has read `motion` and will clear it? -/
def reading : Pc → Bool
  | .read _ _ => true
  | _ => false

/-- What that call has read. -/
def value : Pc → Int
  | .read _ v => v
  | _ => 0

/-- Motion that will still be got: what is stored, or what the running call has read. -/
def pending (s : St) : Int := if reading s.pc then value s.pc else s.shared.motion

theorem book (l : List Act) : ∀ (s s' : St) (es : List Event), run s l = some (s', es) →
    got es + pending s' + within (reading s.pc) es = turned es + pending s ∧ s'.shared.absPos = s.shared.absPos + turned es := by
  induction l with
  | nil => intro s s' es h; cases h; simp [got, within, turned]
  | cons a l ih =>
    intro s s' es h
    obtain ⟨s1, e1, e2, hs, hr, rfl⟩ := run_cons h
    obtain ⟨k, k2⟩ := ih s1 s' e2 hr
    obtain ⟨sh, ow, pc⟩ := s
    cases a with
    | turn d =>
      simp only [step, Option.some.injEq, Prod.mk.injEq] at hs
      obtain ⟨rfl, rfl⟩ := hs
      cases pc <;> simp_all [got, within, turned, reading, pending, value] <;> omega
    | use =>
      cases pc <;> simp [step] at hs
      obtain ⟨rfl, rfl⟩ := hs
      simp_all [got, within, turned, reading, pending, value]
    | transfer =>
      cases pc <;> simp [step] at hs
      obtain ⟨rfl, rfl⟩ := hs
      simp_all [got, within, turned, reading, pending, value]
    | add =>
      cases pc <;> simp [step] at hs
      obtain ⟨rfl, rfl⟩ := hs
      simp_all [got, within, turned, reading, pending, value]
    | cont =>
      cases pc with
      | idle => simp [step] at hs
      | read own v =>
        cases own <;> (simp only [step, Option.some.injEq, Prod.mk.injEq] at hs; obtain ⟨rfl, rfl⟩ := hs; simp_all [got, within, turned, reading, pending, value]; omega)
      | added =>
        simp only [step, Option.some.injEq, Prod.mk.injEq] at hs
        obtain ⟨rfl, rfl⟩ := hs
        simp_all [got, within, turned, reading, pending, value]

/-- **C180** (partial): an encoder turned by an interrupt, at any moments: what the main program has got from `use_motion()` and `transfer_motion` plus what is still stored is what the encoder was turned by, less what it was
turned by while one of these calls had read `motion` and not yet cleared it. So nothing is lost unless an interrupt falls between these two accesses; `abs_pos` never loses anything. Missing: such interrupts, below. -/
theorem C180_motion_partial (sched : List Act) (s : St) (es : List Event) (h : run init sched = some (s, es)) (hp : s.pc = .idle) :
    got es + s.shared.motion = turned es - within false es ∧ s.shared.absPos = turned es := by
  obtain ⟨k, k2⟩ := book sched init s es h
  have e1 : pending s = s.shared.motion := by simp [pending, hp, reading]
  have e2 : pending init = 0 := rfl
  have e3 : init.shared.absPos = 0 := rfl
  have e4 : reading init.pc = false := rfl
  rw [e1, e2, e4] at k
  rw [e3] at k2
  exact ⟨by omega, by omega⟩

/-- five turns, two of them between calls, one during a call: 1 is lost -/
example : run init [.turn 2, .use, .cont, .turn 3, .transfer, .turn 1, .cont, .turn (-4)] = some (⟨⟨2, -4⟩, ⟨3, 3⟩, .idle⟩, [.turn 2, .load, .used 2, .turn 3, .load, .turn 1, .used 3, .turn (-4)]) ∧
    within false [.turn 2, .load, .used 2, .turn 3, .load, .turn 1, .used 3, .turn (-4)] = 1 := by decide

/-- **C180, violated**: a turn by 1 between the two accesses of `use_motion()` is in no answer and not stored. -/
theorem C180_motion_violated : run init [.use, .turn 1, .cont] = some (⟨⟨1, 0⟩, {}, .idle⟩, [.load, .turn 1, .used 0]) ∧ turned [.load, .turn 1, .used 0] = 1 ∧ got [.load, .turn 1, .used 0] = 0 := by decide

/-- **C180** (partial): `add_motion` adds the stored motion to `motion`, and to `abs_pos` what is stored after the interrupts that came in between: the two agree exactly if the encoder did not move in between. -/
theorem C180_add_partial (s : St) (hp : s.pc = .idle) (ds : List Int) :
    ∃ s' es, run s (.add :: (ds.map .turn ++ [.cont])) = some (s', es) ∧ s'.own.motion = s.own.motion + s.shared.motion ∧ s'.own.absPos = s.own.absPos + s.shared.motion + ds.sum ∧ s'.pc = .idle := by
  have gen : ∀ (ds : List Int) (c : St), c.pc = .added → ∃ s' es, run c (ds.map .turn ++ [.cont]) = some (s', es) ∧ s'.own.motion = c.own.motion ∧ s'.own.absPos = c.own.absPos + c.shared.motion + ds.sum ∧ s'.pc = .idle := by
    intro ds
    induction ds with
    | nil =>
      intro c hc
      refine ⟨⟨c.shared, { c.own with absPos := c.own.absPos + c.shared.motion }, .idle⟩, [], by simp only [List.map_nil, List.nil_append, run, step, hc], rfl, by simp, rfl⟩
    | cons d ds ih =>
      intro c hc
      obtain ⟨s', es, k1, k2, k3, k4⟩ := ih { c with shared := ⟨c.shared.absPos + d, c.shared.motion + d⟩ } hc
      refine ⟨s', .turn d :: es, ?_, k2, by rw [k3]; simp only [List.sum_cons]; omega, k4⟩
      simp only [List.map_cons, List.cons_append, run, step]
      rw [k1]
      rfl
  obtain ⟨s', es, k1, k2, k3, k4⟩ := gen ds { s with own := { s.own with motion := s.own.motion + s.shared.motion }, pc := .added } rfl
  refine ⟨s', es, ?_, k2, k3, k4⟩
  unfold run
  simp only [step, if_pos hp]
  rw [k1]
  rfl

example : init.pc = .idle := rfl

namespace Change

theorem run_cons {s s' : St} {a : Act} {l : List Act} {es : List Event} (h : run s (a :: l) = some (s', es)) :
    ∃ s1 e1 e2, step s a = some (s1, e1) ∧ run s1 l = some (s', e2) ∧ es = e1 ++ e2 := by
  unfold run at h
  split at h
  · cases h
  · next s1 e1 hs =>
    split at h
    · cases h
    · next s2 e2 hr =>
      cases h
      exact ⟨s1, e1, e2, hs, hr, rfl⟩

theorem owed_append (o : Bool) (a b : List Event) : owed o (a ++ b) = owed (owed o a) b := by
  induction a generalizing o with
  | nil => rfl
  | cons e a ih => cases e <;> simp only [List.cons_append, owed, ih]

theorem changes_append (a b : List Event) : changes (a ++ b) = changes a + changes b := by
  induction a with
  | nil => simp [changes]
  | cons e a ih => cases e <;> simp only [List.cons_append, changes, ih] <;> omega

theorem yes_append (a b : List Event) : yes (a ++ b) = yes a + yes b := by
  induction a with
  | nil => simp [yes]
  | cons e a ih => cases e <;> simp only [List.cons_append, yes, ih] <;> omega

theorem step_book {s s' : St} {a : Act} {e : List Event} (h : step s a = some (s', e)) :
    s'.c.changed = owed s.c.changed e ∧ yes e + (if s'.saw = true ∨ s'.c.changed = true then 1 else 0) ≤ changes e + (if s.saw = true ∨ s.c.changed = true then 1 else 0) := by
  obtain ⟨⟨la, ch⟩, sw⟩ := s
  cases a with
  | update b =>
    simp only [step, Option.some.injEq, Prod.mk.injEq] at h
    obtain ⟨rfl, rfl⟩ := h
    cases b <;> cases la <;> cases ch <;> cases sw <;> simp [ChangeDet.update, owed, yes, changes]
  | ask => cases ch <;> cases sw <;> simp [step] at h <;> obtain ⟨rfl, rfl⟩ := h <;> simp [owed, yes, changes]
  | cont => cases ch <;> cases sw <;> simp [step] at h <;> obtain ⟨rfl, rfl⟩ := h <;> simp [owed, yes, changes]

theorem run_book (l : List Act) : ∀ (s s' : St) (es : List Event), run s l = some (s', es) →
    s'.c.changed = owed s.c.changed es ∧ yes es + (if s'.saw = true ∨ s'.c.changed = true then 1 else 0) ≤ changes es + (if s.saw = true ∨ s.c.changed = true then 1 else 0) := by
  induction l with
  | nil => intro s s' es h; cases h; simp [owed, yes, changes]
  | cons a l ih =>
    intro s s' es h
    obtain ⟨s1, e1, e2, hs, hr, rfl⟩ := run_cons h
    obtain ⟨k1, k2⟩ := step_book hs
    obtain ⟨m1, m2⟩ := ih s1 s' e2 hr
    refine ⟨by rw [owed_append, m1, k1], ?_⟩
    rw [yes_append, changes_append]
    omega

/-- **C180**: a ChangeDetector updated by an interrupt, at any moments: when the main program calls `changed()`, it answers "yes" exactly if a change has been seen since the last "yes", whatever interrupts come during the call; and there are
never more answers "yes" than changes. -/
theorem C180_changed (sched : List Act) (s : St) (es : List Event) (h : run init sched = some (s, es)) :
    yes es ≤ changes es ∧ (s.saw = false →
      (owed false es = true → ∀ us : List Bool, ∃ s' e', run s (.ask :: (us.map .update ++ [.cont])) = some (s', e' ++ [.answer true]) ∧ s'.saw = false) ∧
      (owed false es = false → step s .ask = some (s, [.answer false]))) := by
  obtain ⟨k1, k2⟩ := run_book sched init s es h
  have e0 : init.c.changed = false := rfl
  have e1 : init.saw = false := rfl
  rw [e0] at k1
  rw [e0, e1] at k2
  refine ⟨by simp at k2; omega, fun hs => ⟨?_, ?_⟩⟩
  · intro ho us
    rw [ho] at k1
    have gen : ∀ (us : List Bool) (c : St), c.saw = true → ∃ s' e', run c (us.map .update ++ [.cont]) = some (s', e' ++ [.answer true]) ∧ s'.saw = false := by
      intro us
      induction us with
      | nil =>
        intro c hc
        refine ⟨_, [], by simp only [List.map_nil, List.nil_append, run, step, if_pos hc]; rfl, rfl⟩
      | cons u us ih =>
        intro c hc
        obtain ⟨s', e', q1, q2⟩ := ih { c with c := c.c.update u } hc
        refine ⟨s', (if c.c.last = u then [] else [.change]) ++ e', ?_, q2⟩
        simp only [List.map_cons, List.cons_append, run, step]
        rw [q1]
        simp
    obtain ⟨s', e', q1, q2⟩ := gen us { s with saw := true } rfl
    refine ⟨s', e', ?_, q2⟩
    unfold run
    simp only [step, hs, k1, Bool.false_eq_true, if_false, if_true]
    rw [q1]
    rfl
  · intro ho
    rw [ho] at k1
    simp only [step, hs, k1, Bool.false_eq_true, if_false]

/-- a change during the call: both changes are covered by the one answer -/
example : run init [.update true, .ask, .update false, .cont, .ask] = some (⟨⟨false, false⟩, false⟩, [.change, .change, .answer true, .answer false]) := by decide

end Change
end MotionIsr
