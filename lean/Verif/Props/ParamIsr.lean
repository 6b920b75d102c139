import Verif.Spec.ParamIsr
/-! # Property C182: parameters set by an interrupt -/

namespace ParamIsr
open Spec
variable {α : Type} [DecidableEq α]

theorem run_cons {s s' : St α} {a : Act α} {l : List (Act α)} {es : List (Event α)} (h : run s (a :: l) = some (s', es)) :
    ∃ s1 e1 e2, step s a = some (s1, e1) ∧ run s1 l = some (s', e2) ∧ es = e1 ++ e2 := by
  unfold run at h
  split at h
  · cases h
  · next s1 e1 hs =>
    split at h
    · cases h
    · next s2 e2 hr =>
      cases h
      exact ⟨s1, e1, e2, hs, hr, rfl⟩

/-- Inside a call: it began with no change owed. -/
def win : Option Bool → Bool
  | some false => true
  | _ => false

theorem book (l : List (Act α)) : ∀ (s s' : St α) (es : List (Event α)) (o : Bool), run s l = some (s', es) → (s.saw = none → s.p.changed = o) → (∀ b, s.saw = some b → (b = true → o = true) ∧ (b = false → s.p.changed = o)) →
    latest s.p.cur es = s'.p.cur ∧ (Quiet o (win s.saw) es → (s.saw = some false → o = false) → Right o es ∧ (s'.saw = none → s'.p.changed = owed o es)) := by
  induction l with
  | nil =>
    intro s s' es o h h1 h2
    cases h
    exact ⟨rfl, fun _ _ => ⟨trivial, h1⟩⟩
  | cons a l ih =>
    intro s s' es o h h1 h2
    obtain ⟨s1, e1, e2, hs, hr, rfl⟩ := run_cons h
    obtain ⟨⟨cur, ch⟩, sw⟩ := s
    cases a with
    | set v =>
      simp only [step, Option.some.injEq, Prod.mk.injEq] at hs
      obtain ⟨rfl, rfl⟩ := hs
      have hch : (Param.set ⟨cur, ch⟩ v).changed = (ch || decide (v ≠ cur)) := by
        unfold Param.set
        by_cases hv : v = cur <;> simp [hv]
      have hcu : (Param.set ⟨cur, ch⟩ v).cur = v := by
        unfold Param.set
        by_cases hv : v = cur <;> simp [hv]
      obtain ⟨k0, k⟩ := ih _ s' e2 (o || decide (v ≠ cur)) hr (fun h => by simp only [hch]; rw [← h1 h]) (fun b hb => by
        obtain ⟨g1, g2⟩ := h2 b hb
        refine ⟨fun hb => by simp [g1 hb], fun hb => by simp only [hch]; rw [← g2 hb]⟩)
      refine ⟨by simp only [List.cons_append, List.nil_append, latest]; rw [← k0]; simp only [hcu], fun hq ho => ?_⟩
      simp only [List.cons_append, List.nil_append, Quiet] at hq
      obtain ⟨hq1, hq2⟩ := hq
      obtain ⟨m1, m2⟩ := k hq2 (fun hw => by
        have : sw = some false := hw
        subst this
        rw [ho rfl, hq1 rfl]
        rfl)
      exact ⟨m1, m2⟩
    | ask =>
      cases sw with
      | some b => simp [step] at hs
      | none =>
        simp only [step, if_true, Option.some.injEq, Prod.mk.injEq] at hs
        obtain ⟨rfl, rfl⟩ := hs
        have e : ch = o := h1 rfl
        subst e
        obtain ⟨k0, k⟩ := ih _ s' e2 ch hr (fun h => by cases h) (fun b hb => by
          cases hb
          exact ⟨id, fun _ => rfl⟩)
        refine ⟨k0, fun hq _ => ?_⟩
        simp only [List.cons_append, List.nil_append, Quiet] at hq
        have hw : win (some ch) = !ch := by cases ch <;> rfl
        rw [← hw] at hq
        exact k hq (fun h => by cases h; rfl)
    | cont =>
      cases sw with
      | none => simp [step] at hs
      | some b =>
        simp only [step, Option.some.injEq, Prod.mk.injEq] at hs
        obtain ⟨rfl, rfl⟩ := hs
        obtain ⟨g1, g2⟩ := h2 b rfl
        by_cases hb : b = false → o = false
        · have hbo : b = o := by
            cases b
            · exact (hb rfl).symm
            · exact (g1 rfl).symm
          have e0 : (if b = true then false else o) = false := by subst hbo; cases b <;> rfl
          obtain ⟨k0, k⟩ := ih _ s' e2 (if b = true then false else o) hr (fun _ => e0.symm) (fun c hc => by cases hc)
          refine ⟨k0, fun hq _ => ?_⟩
          simp only [List.cons_append, List.nil_append, Quiet] at hq
          obtain ⟨m1, m2⟩ := k hq (fun h => by cases h)
          exact ⟨⟨hbo, m1⟩, m2⟩
        · have k0 : latest cur e2 = s'.p.cur := (ih _ s' e2 false hr (fun _ => rfl) (fun c hc => by cases hc)).1
          refine ⟨k0, fun _ ho => absurd (fun h => ho (by rw [h])) hb⟩

/-- **C182** (partial): a `Parameter` set by an interrupt, at any moments: it has the value set last; and if no change falls into a call of `isChanged()` before which none was owed, every answer is right: "changed" exactly if a different
value was set since the last answer "changed" (the first answer is "changed"). Missing: changes in such calls, below. -/
theorem C182_param_partial (v : α) (sched : List (Act α)) (s : St α) (es : List (Event α)) (h : run (init v) sched = some (s, es)) :
    s.p.cur = latest v es ∧ (Quiet true false es → Right true es ∧ (s.saw = none → s.p.changed = owed true es)) := by
  obtain ⟨k0, k⟩ := book sched (init v) s es true h (fun _ => rfl) (fun b hb => by cases hb)
  exact ⟨k0.symm, fun hq => k hq (fun h => by cases h)⟩

/-- a change between two calls, and one inside a call that is owed one anyway -/
example : (run (init (0 : Nat)) [.ask, .set 3, .cont, .set 4, .ask, .set 5, .cont, .ask, .cont]).map (·.2) = some [.begin, .set 3 true, .answer true, .set 4 true, .begin, .set 5 true, .answer true, .begin, .answer false] := by decide

example : Quiet true false ([.begin, .set 3 true, .answer true, .set 4 true, .begin, .set 5 true, .answer true, .begin, .answer false] : List (Event Nat)) := by simp [Quiet]

/-- **C182, violated** for Parameter: a value set between the two accesses of `isChanged()` is never reported. -/
theorem C182_param_violated : (run (init (0 : Nat)) [.ask, .cont, .ask, .set 7, .cont, .ask, .cont]).map (fun r => (r.1.p.cur, r.2)) = some (7, [.begin, .answer true, .begin, .set 7 true, .answer false, .begin, .answer false]) ∧
    ¬ Right true ([.begin, .answer true, .begin, .set 7 true, .answer false, .begin, .answer false] : List (Event Nat)) := by
  refine ⟨by decide, ?_⟩
  simp [Right]

namespace Ref

theorem run_cons {s s' : St α} {a : Act α} {l : List (Act α)} {es : List (Event α)} (h : run s (a :: l) = some (s', es)) :
    ∃ s1 e1 e2, step s a = some (s1, e1) ∧ run s1 l = some (s', e2) ∧ es = e1 ++ e2 := by
  unfold run at h
  split at h
  · cases h
  · next s1 e1 hs =>
    split at h
    · cases h
    · next s2 e2 hr =>
      cases h
      exact ⟨s1, e1, e2, hs, hr, rfl⟩

theorem book (l : List (Act α)) : ∀ (s s' : St α) (es : List (Event α)), run s l = some (s', es) → s'.p.ref = latest s.p.ref es ∧ s'.p.last = reported s.p.ref s.p.last es := by
  induction l with
  | nil => intro s s' es h; cases h; exact ⟨rfl, rfl⟩
  | cons a l ih =>
    intro s s' es h
    obtain ⟨s1, e1, e2, hs, hr, rfl⟩ := run_cons h
    obtain ⟨k1, k2⟩ := ih s1 s' e2 hr
    obtain ⟨⟨rf, la⟩, sw⟩ := s
    cases a with
    | set v =>
      simp only [step, Option.some.injEq, Prod.mk.injEq] at hs
      obtain ⟨rfl, rfl⟩ := hs
      exact ⟨k1, k2⟩
    | ask =>
      cases sw
      · simp only [step, Bool.false_eq_true, if_false] at hs
        by_cases he : rf = la
        · rw [if_pos he] at hs
          cases hs
          exact ⟨k1, k2⟩
        · rw [if_neg he] at hs
          cases hs
          exact ⟨k1, k2⟩
      · simp [step] at hs
    | cont =>
      cases sw
      · simp [step] at hs
      · simp only [step, if_true, Option.some.injEq, Prod.mk.injEq] at hs
        obtain ⟨rfl, rfl⟩ := hs
        exact ⟨k1, k2⟩

/-- **C182**: a `RefParameter` whose variable is set by an interrupt, at any moments: when the main program calls `isChanged()`, the answer is "changed" exactly if the variable then differs from what it was at the last answer "changed" (whatever
interrupts come during the call); so a lasting change is never missed, and nothing is reported twice. -/
theorem C182_ref (v r : α) (sched : List (Act α)) (s : St α) (es : List (Event α)) (h : run ⟨⟨v, r⟩, false⟩ sched = some (s, es)) (hs : s.saw = false) :
    s.p.ref = latest v es ∧ (latest v es = reported v r es → step s .ask = some (s, [.begin, .answer false])) ∧
    (latest v es ≠ reported v r es → ∀ us : List α, ∃ s' e', run s (.ask :: (us.map .set ++ [.cont])) = some (s', .begin :: e' ++ [.answer true]) ∧ s'.saw = false) := by
  obtain ⟨k1, k2⟩ := book sched _ s es h
  simp only at k1 k2
  refine ⟨k1, fun he => ?_, fun he us => ?_⟩
  · simp only [step, hs, Bool.false_eq_true, if_false]
    rw [if_pos (by rw [k1, k2, he])]
  · have gen : ∀ (us : List α) (c : St α), c.saw = true → ∃ s' e', run c (us.map .set ++ [.cont]) = some (s', e' ++ [.answer true]) ∧ s'.saw = false := by
      intro us
      induction us with
      | nil =>
        intro c hc
        exact ⟨⟨{ c.p with last := c.p.ref }, false⟩, [], by simp only [List.map_nil, List.nil_append, run, step, if_pos hc]; rfl, rfl⟩
      | cons u us ih =>
        intro c hc
        obtain ⟨s', e', q1, q2⟩ := ih { c with p := { c.p with ref := u } } hc
        refine ⟨s', .set u (decide (u ≠ c.p.ref)) :: e', ?_, q2⟩
        simp only [List.map_cons, List.cons_append, run, step]
        rw [q1]
        rfl
    obtain ⟨s', e', q1, q2⟩ := gen us { s with saw := true } rfl
    refine ⟨s', e', ?_, q2⟩
    unfold run
    simp only [step, hs, Bool.false_eq_true, if_false]
    rw [if_neg (by rw [k1, k2]; exact he)]
    simp only
    rw [q1]
    rfl

example : (run (⟨⟨0, 0⟩, false⟩ : St Nat) [.ask, .set 3, .ask, .set 4, .cont, .ask]).map (·.2) = some [.begin, .answer false, .set 3 true, .begin, .set 4 true, .answer true, .begin, .answer false] := by decide

end Ref

namespace Latch

theorem run_cons {m : Int} {s s' : St} {a : Act Int} {l : List (Act Int)} {es : List (Event Int)} (h : run m s (a :: l) = some (s', es)) :
    ∃ s1 e1 e2, step m s a = some (s1, e1) ∧ run m s1 l = some (s', e2) ∧ es = e1 ++ e2 := by
  unfold run at h
  split at h
  · cases h
  · next s1 e1 hs =>
    split at h
    · cases h
    · next s2 e2 hr =>
      cases h
      exact ⟨s1, e1, e2, hs, hr, rfl⟩

theorem book (m : Int) (l : List (Act Int)) : ∀ (s s' : St) (es : List (Event Int)), run m s l = some (s', es) → (s.saw = true → s.p.changed = true) →
    Right s.p.changed es ∧ s'.p.changed = owed s.p.changed es ∧ yes es + (if s'.p.changed then 1 else 0) ≤ changes es + (if s.p.changed then 1 else 0) := by
  induction l with
  | nil => intro s s' es h _; cases h; exact ⟨trivial, rfl, by simp [yes, changes]⟩
  | cons a l ih =>
    intro s s' es h hw
    obtain ⟨s1, e1, e2, hs, hr, rfl⟩ := run_cons h
    obtain ⟨⟨va, ch⟩, sw⟩ := s
    cases a with
    | set v =>
      simp only [step, Latched.store, if_true] at hs
      by_cases hm : (if v ≥ va then v - va else va - v) ≥ m
      · rw [if_pos hm] at hs
        cases hs
        obtain ⟨k1, k2, k3⟩ := ih _ s' e2 hr (fun _ => rfl)
        refine ⟨by simp only [List.cons_append, List.nil_append, Right, Bool.or_true]; exact k1, by simp only [List.cons_append, List.nil_append, owed, Bool.or_true]; exact k2, ?_⟩
        simp only [List.cons_append, List.nil_append, yes, changes] at k3 ⊢
        simp only [if_true] at k3 ⊢
        omega
      · rw [if_neg hm] at hs
        cases hs
        obtain ⟨k1, k2, k3⟩ := ih _ s' e2 hr hw
        refine ⟨by simp only [List.cons_append, List.nil_append, Right, Bool.or_false]; exact k1, by simp only [List.cons_append, List.nil_append, owed, Bool.or_false]; exact k2, ?_⟩
        simpa [yes, changes] using k3
    | ask =>
      cases sw with
      | true => simp [step] at hs
      | false =>
        cases ch with
        | false =>
          simp only [step, Bool.false_eq_true, if_false, Option.some.injEq, Prod.mk.injEq] at hs
          obtain ⟨rfl, rfl⟩ := hs
          obtain ⟨k1, k2, k3⟩ := ih _ s' e2 hr hw
          exact ⟨⟨rfl, k1⟩, k2, by simpa [yes, changes] using k3⟩
        | true =>
          simp only [step, Bool.false_eq_true, if_false, if_true, Option.some.injEq, Prod.mk.injEq] at hs
          obtain ⟨rfl, rfl⟩ := hs
          obtain ⟨k1, k2, k3⟩ := ih _ s' e2 hr (fun _ => rfl)
          exact ⟨k1, k2, by simpa [yes, changes] using k3⟩
    | cont =>
      cases sw with
      | false => simp [step] at hs
      | true =>
        have e := hw rfl
        simp only at e
        subst e
        simp only [step, if_true, Option.some.injEq, Prod.mk.injEq] at hs
        obtain ⟨rfl, rfl⟩ := hs
        obtain ⟨k1, k2, k3⟩ := ih _ s' e2 hr (fun h => by cases h)
        refine ⟨⟨rfl, k1⟩, k2, ?_⟩
        simp only [List.cons_append, List.nil_append, yes, changes, Bool.false_eq_true, if_false, if_true] at k3 ⊢
        omega

/-- **C182**: a `LatchedParam` stored to by an interrupt, at any moments: every answer of `did_change()` is right: "changed" exactly if a store was accepted since the last answer "changed"; there are never more answers "changed" than
accepted stores. -/
theorem C182_latched (m : Int) (v : Int) (sched : List (Act Int)) (s : St) (es : List (Event Int)) (h : run m ⟨⟨v, false⟩, false⟩ sched = some (s, es)) :
    Right false es ∧ s.p.changed = owed false es ∧ yes es ≤ changes es := by
  obtain ⟨k1, k2, k3⟩ := book m sched _ s es h (fun h => by cases h)
  refine ⟨k1, k2, ?_⟩
  simp only [Bool.false_eq_true, if_false] at k3
  omega

example : (run 5 ⟨⟨0, false⟩, false⟩ [.ask, .set 3, .ask, .set 7, .ask, .set 20, .cont, .ask]).map (·.2) =
    some [.begin, .answer false, .set 3 false, .begin, .answer false, .set 7 true, .begin, .set 20 true, .answer true, .begin, .answer false] := by decide

/-- A call has begun and not answered. -/
def pending : Bool → List (Event Int) → Bool
  | p, [] => p
  | p, .set _ _ :: l => pending p l
  | _, .begin :: l => pending true l
  | _, .answer _ :: l => pending false l

theorem pending_append (p : Bool) (a b : List (Event Int)) : pending p (a ++ b) = pending (pending p a) b := by
  induction a generalizing p with
  | nil => rfl
  | cons e a ih => cases e <;> simp only [List.cons_append, pending, ih]

theorem saw_pending (m : Int) (l : List (Act Int)) : ∀ (s s' : St) (es : List (Event Int)), run m s l = some (s', es) → s'.saw = pending s.saw es := by
  induction l with
  | nil => intro s s' es h; cases h; rfl
  | cons a l ih =>
    intro s s' es h
    obtain ⟨s1, e1, e2, hs, hr, rfl⟩ := run_cons h
    rw [ih s1 s' e2 hr, pending_append]
    congr 1
    obtain ⟨⟨va, ch⟩, sw⟩ := s
    cases a with
    | set v =>
      simp only [step, Latched.store, if_true] at hs
      split at hs <;> cases hs <;> rfl
    | ask =>
      cases sw <;> cases ch <;> simp only [step, Bool.false_eq_true, if_false, if_true, Option.some.injEq, Prod.mk.injEq, reduceCtorEq] at hs
      all_goals obtain ⟨rfl, rfl⟩ := hs; rfl
    | cont =>
      cases sw <;> simp only [step, Bool.false_eq_true, if_false, if_true, Option.some.injEq, Prod.mk.injEq, reduceCtorEq] at hs
      obtain ⟨rfl, rfl⟩ := hs; rfl

/-- **C182**: and no call gets stuck: the interrupt can store at every moment; between calls of `did_change()` the next one can begin; a call that has begun and not
answered is answered "changed" by its next step. -/
theorem C182_progress (m : Int) (v : Int) (sched : List (Act Int)) (s : St) (es : List (Event Int)) (h : run m ⟨⟨v, false⟩, false⟩ sched = some (s, es)) :
    (∀ x, ∃ s' b, step m s (.set x) = some (s', [.set x b])) ∧
    (pending false es = false → ∃ s' e, step m s .ask = some (s', .begin :: e)) ∧
    (pending false es = true → ∃ s', step m s .cont = some (s', [.answer true])) := by
  have hp := saw_pending m sched _ s es h
  simp only at hp
  obtain ⟨⟨va, ch⟩, sw⟩ := s
  simp only at hp
  refine ⟨fun x => ?_, fun h0 => ?_, fun h1 => ?_⟩
  · simp only [step, Latched.store, if_true]
    split
    · exact ⟨_, _, rfl⟩
    · exact ⟨_, _, rfl⟩
  · rw [h0] at hp
    subst hp
    cases ch
    · exact ⟨_, _, rfl⟩
    · exact ⟨_, _, rfl⟩
  · rw [h1] at hp
    subst hp
    exact ⟨_, rfl⟩

example : (run 5 ⟨⟨0, false⟩, false⟩ [.set 7, .ask]).map (fun r => pending false r.2) = some true ∧
    (run 5 ⟨⟨0, false⟩, false⟩ [.set 7, .ask, .set 20, .cont]).map (fun r => pending false r.2) = some false := by decide

end Latch
end ParamIsr
