import Verif.Spec.OscIsr
import Mathlib.Tactic.Linarith
/-! # C248: oscillators, down counters and one-shots set by an interrupt -/
namespace OscIsr
open Oscs OscIsr.Spec

theorem run_spec (l : List Act) : ∀ (a b : Accum),
    (run (a, .idle) l = some (b, .idle) → b = after a (effective 0 l)) ∧
    (∀ p, run (a, .loaded p) l = some (b, .idle) → b = after { a with phase := p } (effective 1 l)) ∧
    (∀ p i, run (a, .both p i) l = some (b, .idle) → b = after { a with phase := (p + i) % W } (effective 2 l)) := by
  induction l with
  | nil =>
    intro a b
    refine ⟨?_, ?_, ?_⟩
    · intro h; simp only [run, Option.some.injEq, Prod.mk.injEq] at h; exact h.1.symm
    · intro p h; simp [run] at h
    · intro p i h; simp [run] at h
  | cons x l ih =>
    intro a b
    refine ⟨?_, ?_, ?_⟩
    · intro h
      cases x with
      | isr x => cases x <;> exact (ih _ b).1 h
      | update => exact (ih _ b).2.1 a.phase h
      | cont => simp [run, step] at h
    · intro p h
      cases x with
      | isr x => cases x <;> exact (ih (setA a _) b).2.1 p h
      | update => simp [run, step] at h
      | cont => exact (ih a b).2.2 p a.inc h
    · intro p i h
      cases x with
      | isr x => cases x <;> exact (ih (setA a _) b).2.2 p i h
      | update => simp [run, step] at h
      | cont => exact (ih _ b).1 h

/-- **C248, exactly**: PhaseAccum (RampOscillator, and TriangleOscillator, whose update() is the same) updated by the main program and set by an
interrupt at any moments: it is as if the calls had been made one after another, with every frequency, and with every phase but those set
during an update(), which are forgotten. -/
theorem C248_accum_exact (a b : Accum) (sched : List Act) (h : run (a, .idle) sched = some (b, .idle)) : b = after a (effective 0 sched) :=
  (run_spec sched a b).1 h

theorem effective_eq (l : List Act) : ∀ n, NoPhaseWithin n l → effective n l = everything n l := by
  induction l with
  | nil => intro n _; cases n <;> rfl
  | cons x l ih =>
    intro n h
    cases x with
    | isr x =>
      cases n with
      | zero => cases x <;> exact congrArg _ (ih 0 h)
      | succ n =>
        cases x with
        | phase p => exact absurd h (Nat.succ_ne_zero n)
        | inc i => exact congrArg _ (ih (n + 1) h)
    | update => cases n <;> exact ih 1 h
    | cont =>
      match n with
      | 0 => exact ih 0 h
      | 1 => exact congrArg _ (ih 2 h)
      | n + 2 => exact ih 0 h

/-- **C248** (partial): if no phase is set during an update(), nothing at all is lost. Missing: such phases (below). -/
theorem C248_accum_partial (a b : Accum) (sched : List Act) (h : run (a, .idle) sched = some (b, .idle)) (hn : NoPhaseWithin 0 sched) :
    b = after a (everything 0 sched) := by
  rw [← effective_eq sched 0 hn]
  exact C248_accum_exact a b sched h

/-- a frequency set during an update(), a phase outside -/
example : run (⟨5, 7⟩, .idle) [.isr (.phase 100), .update, .isr (.inc 1), .cont, .isr (.inc 3), .cont, .update, .cont, .cont] = some (⟨104, 3⟩, .idle) ∧
    NoPhaseWithin 0 [.isr (.phase 100), .update, .isr (.inc 1), .cont, .isr (.inc 3), .cont, .update, .cont, .cont] ∧
    after ⟨5, 7⟩ (everything 0 [.isr (.phase 100), .update, .isr (.inc 1), .cont, .isr (.inc 3), .cont, .update, .cont, .cont]) = ⟨104, 3⟩ := by
  refine ⟨by decide, ?_, by decide⟩
  simp [NoPhaseWithin]

/-- **C248 is violated**: set_phase() (a hard sync) during an update() has no effect at all. -/
theorem C248_phase_violated (a : Accum) (p : Nat) :
    run (a, .idle) [.update, .isr (.phase p), .cont, .cont] = run (a, .idle) [.update, .cont, .cont] ∧
    run (a, .idle) [.update, .cont, .isr (.phase p), .cont] = run (a, .idle) [.update, .cont, .cont] := ⟨rfl, rfl⟩

/-- **C248, exactly when** TriangleOscillator::val(), called while an interrupt updates or sets the phase, is right: with `p1` read for the comparison
and `p2` for the result, it is the value at `p2` exactly if both are in the same half of the period. -/
theorem C248_val_exact (p1 p2 inc : Nat) (h2 : p2 < W) :
    triVal p1 p2 = Tri.val ⟨p2, inc⟩ ↔ (p1 > 0xFFFFFFFF / 2 ↔ p2 > 0xFFFFFFFF / 2) := by
  unfold triVal Tri.val
  simp only [W] at *
  by_cases c1 : p1 > 4294967295 / 2 <;> by_cases c2 : p2 > 4294967295 / 2
  · rw [if_pos c1, if_pos c2]
    exact ⟨fun _ => ⟨fun _ => c2, fun _ => c1⟩, fun _ => rfl⟩
  · rw [if_pos c1, if_neg c2]
    refine ⟨fun h => ?_, fun h => absurd (h.1 c1) c2⟩
    omega
  · rw [if_neg c1, if_pos c2]
    refine ⟨fun h => ?_, fun h => absurd (h.2 c2) c1⟩
    omega
  · rw [if_neg c1, if_neg c2]
    exact ⟨fun _ => ⟨fun h => absurd h c1, fun h => absurd h c2⟩, fun _ => rfl⟩

/-- read on both sides of the peak: 0 instead of nearly the full scale -/
example : triVal 2147483647 2147483648 = 0 ∧ Tri.val ⟨2147483648, 1⟩ = 4294967295 := by decide

/-- **C248 is violated** at the peak: the phase passes the middle between the two reads, and val() returns 0 instead of nearly the maximum. -/
theorem C248_val_violated : triVal 0x7FFFFFFF 0x80000000 = 0 ∧ Tri.val ⟨0x7FFFFFFF, 1⟩ = 0xFFFFFFFE ∧ Tri.val ⟨0x80000000, 1⟩ = 0xFFFFFFFF := by decide

/-- only reset() calls -/
def Resets (l : List Set) : Prop := ∀ x ∈ l, x = .phase 0xFFFFFFFF

theorem isrs_resets (t : Down) (l : List Set) (h : Resets l) : isrs t l = if l = [] then t else t.reset := by
  have aux : ∀ (l : List Set) (t : Down), Resets l → isrs t.reset l = t.reset := by
    intro l
    induction l with
    | nil => intro t _; rfl
    | cons x l ih =>
      intro t h
      have e : x = .phase 0xFFFFFFFF := h x (List.mem_cons_self ..)
      subst e
      exact ih t fun y hy => h y (List.mem_cons_of_mem _ hy)
  cases l with
  | nil => rfl
  | cons x l =>
    have e : x = .phase 0xFFFFFFFF := h x (List.mem_cons_self ..)
    subst e
    rw [if_neg (by simp)]
    exact aux l t fun y hy => h y (List.mem_cons_of_mem _ hy)

/-- **C248** (partial): a DownCounter reset by an interrupt, at any moments of an update(): the result is that of the update() without the reset, or that
of the reset and then the update(). So it never runs backwards, but the reset may be forgotten. Missing: that it is not; and other frequencies
and phases (below). -/
theorem C248_down_partial (t : Down) (hi : 0 < t.inc) (hi2 : t.inc ≤ 0xFFFFFFFF) (hp : t.phase ≤ 0xFFFFFFFF) (a b c d e : List Set)
    (ha : Resets a) (hb : Resets b) (hc : Resets c) (hd : Resets d) (he : Resets e) :
    downUpdate a b c d e t = t.update ∨ downUpdate a b c d e t = t.reset.update := by
  obtain ⟨i, p⟩ := t
  dsimp only at *
  have hu : ∀ q, Down.update ⟨i, q⟩ = ⟨i, if q > i then q - i else 0⟩ := by
    intro q
    unfold Down.update
    simp only [if_neg (show ¬ i = 0 by omega)]
    split <;> rfl
  rw [hu p, show (⟨i, p⟩ : Down).reset.update = Down.update ⟨i, 4294967295⟩ from rfl, hu]
  unfold downUpdate
  simp only [isrs_resets _ _ ha, isrs_resets _ _ hb, isrs_resets _ _ hc, isrs_resets _ _ hd, isrs_resets _ _ he, Down.reset,
    if_neg (show ¬ i = 0 by omega), W]
  by_cases h1 : a = [] <;> by_cases h2 : b = [] <;> by_cases h3 : c = [] <;> by_cases h4 : d = [] <;> by_cases h5 : e = [] <;>
    by_cases hg : p > i <;> by_cases hm : 4294967295 > i <;>
    simp only [h1, h2, h3, h4, h5, hg, hm, if_true, if_false, Down.mk.injEq, true_and, or_true, true_or, or_self] <;> omega

/-- without interrupts it is the function modelled before; a reset before the load is effective, one after it is forgotten -/
example : downUpdate [] [] [] [] [] ⟨5, 10⟩ = Down.update ⟨5, 10⟩ ∧
    downUpdate [] [] [.phase 0xFFFFFFFF] [] [] ⟨5, 10⟩ = ⟨5, 0xFFFFFFFA⟩ ∧ downUpdate [] [] [] [.phase 0xFFFFFFFF] [] ⟨5, 10⟩ = ⟨5, 5⟩ := by decide

/-- **C248 is violated**: a frequency set between the comparison and the subtraction of DownCounter::update(), too high for what is left, makes the counter
jump up nearly to its maximum, where it should have ended. -/
theorem C248_down_violated (p i j : Nat) (hp : p ≤ 0xFFFFFFFF) (hi : 0 < i) (h1 : i < p) (h2 : p < j) (hj : j ≤ 0xFFFFFFFF) :
    downUpdate [] [] [.inc j] [] [] ⟨i, p⟩ = ⟨j, p + W - j⟩ ∧ p < p + W - j ∧ Down.update ⟨j, p⟩ = ⟨j, 0⟩ := by
  refine ⟨?_, by simp only [W]; omega, ?_⟩
  · unfold downUpdate
    simp only [isrs, List.foldl, setD, if_neg (show ¬ i = 0 by omega), if_pos h1, W, Down.mk.injEq, true_and]
    omega
  · unfold Down.update
    simp only [if_neg (show ¬ j = 0 by omega), if_neg (show ¬ p > j by omega)]

example : downUpdate [] [] [.inc 20] [] [] ⟨5, 10⟩ = ⟨20, 4294967286⟩ := by decide

/-- as far as anyone can see: the same width, or both over -/
def Close (w v : ℚ) : Prop := w = v ∨ (w ≤ 0 ∧ v ≤ 0)

theorem afterO_append (dec : ℚ → ℚ) (l m : List CallO) : ∀ w, afterO dec w (l ++ m) =
    ((afterO dec (afterO dec w l).1 m).1, (afterO dec w l).2 ++ (afterO dec (afterO dec w l).1 m).2) := by
  induction l with
  | nil => intro w; rfl
  | cons x l ih =>
    intro w
    cases x with
    | set u => exact ih u
    | update =>
      simp only [List.cons_append, afterO]
      split <;> simp only [ih, List.cons_append]

theorem afterO_sets (dec : ℚ → ℚ) (ws : List ℚ) : ∀ w, afterO dec w (ws.map .set) = (ws.getLast?.getD w, []) := by
  induction ws with
  | nil => intro w; rfl
  | cons u ws ih =>
    intro w
    show afterO dec u (ws.map .set) = _
    rw [ih u, List.getLast?_cons]
    cases h : ws.getLast? <;> simp [h]

theorem runO_spec (dec : ℚ → ℚ) (hd : ∀ w, w ≤ 0 → dec w ≤ 0) (l : List ActO) : ∀ (w w' : ℚ) (es : List EvO),
    (∀ v, runO dec (w, .idle) l = some ((w', .idle), es) → Close w v →
      Close w' (afterO dec v (effectiveO .out es)).1 ∧ answers es = (afterO dec v (effectiveO .out es)).2) ∧
    (∀ v ws, runO dec (w, .tested) l = some ((w', .idle), es) → v > 0 → ws.getLast?.getD v = w →
      Close w' (afterO dec v (effectiveO (.tested ws) es)).1 ∧ answers es = (afterO dec v (effectiveO (.tested ws) es)).2) ∧
    (∀ u v, runO dec (w, .loaded u) l = some ((w', .idle), es) → Close (dec u) v →
      Close w' (afterO dec v (effectiveO .loaded es)).1 ∧ answers es = true :: (afterO dec v (effectiveO .loaded es)).2) := by
  induction l with
  | nil =>
    intro w w' es
    refine ⟨?_, ?_, ?_⟩
    · intro v h hc
      simp only [runO, Option.some.injEq, Prod.mk.injEq] at h
      obtain ⟨⟨rfl, _⟩, rfl⟩ := h
      exact ⟨hc, rfl⟩
    · intro v ws h; simp [runO] at h
    · intro u v h; simp [runO] at h
  | cons a l ih =>
    intro w w' es
    have split : ∀ (s s' : ℚ × PcO) (e : List EvO), stepO dec s a = some (s', e) → runO dec s (a :: l) = some ((w', .idle), es) →
        ∃ es', es = e ++ es' ∧ runO dec s' l = some ((w', .idle), es') := by
      intro s s' e h1 h2
      unfold runO at h2
      rw [h1] at h2
      dsimp only at h2
      cases h3 : runO dec s' l with
      | none => rw [h3] at h2; cases h2
      | some r =>
        obtain ⟨r1, r2⟩ := r
        rw [h3] at h2
        simp only [Option.some.injEq, Prod.mk.injEq] at h2
        exact ⟨r2, h2.2.symm, by rw [h2.1]⟩
    refine ⟨?_, ?_, ?_⟩
    · intro v h hc
      cases a with
      | isr x =>
        obtain ⟨es', rfl, h'⟩ := split (w, .idle) (x, .idle) [.set x] rfl h
        exact (ih x w' es').1 x h' (.inl rfl)
      | update =>
        by_cases hw : w > 0
        · obtain ⟨es', rfl, h'⟩ := split (w, .idle) (w, .tested) [.test] (by simp [stepO, hw]) h
          have e : w = v := hc.resolve_right fun c => absurd c.1 (not_le.2 hw)
          exact (ih w w' es').2.1 v [] h' (e ▸ hw) e.symm
        · obtain ⟨es', rfl, h'⟩ := split (w, .idle) (w, .idle) [.ret false] (by simp [stepO, hw]) h
          have hv : ¬ v > 0 := by
            rcases hc with e | ⟨_, hv⟩
            · exact e ▸ hw
            · exact not_lt.2 hv
          have := (ih w w' es').1 v h' hc
          show Close w' (afterO dec v (.update :: effectiveO .out es')).1 ∧ false :: answers es' = (afterO dec v (.update :: effectiveO .out es')).2
          simp only [afterO, if_neg hv]
          exact ⟨this.1, by rw [this.2]⟩
      | cont => simp [runO, stepO] at h
    · intro v ws h hv hl
      cases a with
      | isr x =>
        obtain ⟨es', rfl, h'⟩ := split (w, .tested) (x, .tested) [.set x] rfl h
        exact (ih x w' es').2.1 v (ws ++ [x]) h' hv (by simp)
      | update => simp [runO, stepO] at h
      | cont =>
        obtain ⟨es', rfl, h'⟩ := split (w, .tested) (w, .loaded w) [.load] rfl h
        show Close w' (afterO dec v (_ ++ effectiveO .loaded es')).1 ∧ answers es' = (afterO dec v (_ ++ effectiveO .loaded es')).2
        rw [afterO_append]
        by_cases hc : ws.getLast?.any (fun w => decide (w ≤ 0)) = true
        · rw [if_pos hc]
          simp only [afterO, if_pos hv, afterO_sets]
          have hw : w ≤ 0 ∧ ws.getLast?.getD (dec v) = w := by
            cases hg : ws.getLast? with
            | none => rw [hg] at hc; simp at hc
            | some x =>
              rw [hg] at hc hl
              simp only [Option.any_some, decide_eq_true_eq, Option.getD_some] at hc hl
              exact ⟨hl ▸ hc, hl⟩
          rw [hw.2]
          have := (ih w w' es').2.2 w w h' (.inr ⟨hd w hw.1, hw.1⟩)
          exact ⟨this.1, by simpa using this.2⟩
        · rw [if_neg hc, afterO_append, afterO_sets, hl]
          have hw : w > 0 := by
            cases hg : ws.getLast? with
            | none => rw [hg] at hl; exact hl ▸ hv
            | some x =>
              rw [hg] at hc hl
              simp only [Option.any_some, decide_eq_true_eq, Option.getD_some] at hc hl
              exact hl ▸ not_le.1 hc
          simp only [afterO, if_pos hw]
          have := (ih w w' es').2.2 w (dec w) h' (.inl rfl)
          exact ⟨this.1, by simpa using this.2⟩
    · intro u v h hc
      cases a with
      | isr x =>
        obtain ⟨es', rfl, h'⟩ := split (w, .loaded u) (x, .loaded u) [.set x] rfl h
        exact (ih x w' es').2.2 u v h' hc
      | update => simp [runO, stepO] at h
      | cont =>
        obtain ⟨es', rfl, h'⟩ := split (w, .loaded u) (dec u, .idle) [.ret true] rfl h
        have := (ih (dec u) w' es').1 v h' hc
        exact ⟨this.1, by show true :: answers es' = _; rw [this.2]; rfl⟩

/-- **C248, exactly**: a OneShot updated by the main program and started or stopped by an interrupt, at any moments: the answers of update() are as if
the calls had been made one after another, with every start() and stop() but those between the load and the store of an update(), which are forgotten;
and the width at the end is the same (or both are over). `dec w` is what update() makes of the width: not positive if `w` is not. -/
theorem C248_oneshot_exact (dec : ℚ → ℚ) (hd : ∀ w, w ≤ 0 → dec w ≤ 0) (w w' : ℚ) (sched : List ActO) (es : List EvO)
    (h : runO dec (w, .idle) sched = some ((w', .idle), es)) :
    answers es = (afterO dec w (effectiveO .out es)).2 ∧ Close w' (afterO dec w (effectiveO .out es)).1 :=
  have r := (runO_spec dec hd sched w w' es).1 w h (.inl rfl)
  ⟨r.2, r.1⟩

/-- a pulse of two started during an update(): two answers of the old and the new pulse together -/
example : runO (· - 1) (1, .idle) [.update, .isr 2, .cont, .cont, .update, .cont, .cont, .update] =
    some ((0, .idle), [.test, .set 2, .load, .ret true, .test, .load, .ret true, .ret false]) ∧ ∀ w : ℚ, w ≤ 0 → w - 1 ≤ 0 := by
  refine ⟨by decide +kernel, fun w h => by linarith⟩

/-- **C248 is violated**: a pulse started between the load and the store of an update() never happens, and a stop() there does not stop. -/
theorem C248_oneshot_violated (dec : ℚ → ℚ) (w x : ℚ) (hw : w > 0) :
    ∃ es, runO dec (w, .idle) [.update, .cont, .isr x, .cont] = some ((dec w, .idle), es) ∧ es = [.test, .load, .set x, .ret true] ∧ lost .out es = true := by
  refine ⟨[.test, .load, .set x, .ret true], ?_, rfl, rfl⟩
  simp [runO, stepO, hw]

example : (1 : ℚ) > 0 := by decide +kernel

end OscIsr
