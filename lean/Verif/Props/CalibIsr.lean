import Verif.Model.CalibIsr
import Verif.Spec.CalibIsr
import Verif.Props.Calib
import Mathlib.Tactic.Ring
import Mathlib.Tactic.FieldSimp
import Mathlib.Tactic.Linarith
/-! # C257: recalibrating while the calibration is in use -/
namespace CalibIsr
open CalibIsr.Spec

/-- the stores of the calls lead to what the calls leave -/
theorem steps_final (c : Calibrator) (s o tl th ml mh : ℚ) :
    (setSteps c s o).getLast? = some (Calibrator.ofSlope s o) ∧
    (∀ d, Calibrator.calibrate tl th ml mh = .ok d → ∃ l, chanSteps c tl th ml mh = .ok l ∧ l.getLast? = some d ∧ l = setSteps c d.slope d.offset) ∧
    (Calibrator.calibrate tl th ml mh = .ub → chanSteps c tl th ml mh = .ub) := by
  refine ⟨rfl, ?_, ?_⟩
  · intro d h
    unfold Calibrator.calibrate at h
    unfold chanSteps
    split at h
    · cases h
    · next h1 =>
      rw [if_neg h1]
      dsimp only at h ⊢
      split at h
      · cases h
      · next h2 =>
        cases h
        rw [if_neg h2]
        exact ⟨_, rfl, rfl, rfl⟩
  · intro h
    unfold Calibrator.calibrate at h
    unfold chanSteps
    split at h
    · next h1 => rw [if_pos h1]
    · next h1 =>
      rw [if_neg h1]
      dsimp only at h ⊢
      split at h
      · next h2 => rw [if_pos h2]
      · cases h

theorem voct_final (v : Voct) (note : Nat) (m : ℚ) :
    ((recordSteps v note m).getLast?.getD v) = v.record note m ∧ (resetSteps v).getLast? = some v.reset := by
  refine ⟨?_, rfl⟩
  unfold recordSteps Voct.record
  by_cases h : note = 11
  · rw [if_pos h, if_pos h]; rfl
  · rw [if_neg h, if_neg h]
    unfold solveSteps Voct.solve
    dsimp only
    by_cases h2 : ((v.noteC0 note m).push note m).num ≥ 2
    · rw [if_pos h2, if_pos h2]
      by_cases hc : ((((v.noteC0 note m).push note m).pt0.1 : Int) - ((v.noteC0 note m).push note m).pt1.1 ≠ 0 ∧
          ((v.noteC0 note m).push note m).pt0.2 - ((v.noteC0 note m).push note m).pt1.2 ≠ 0)
      · simp only [if_pos hc]
        split <;> rfl
      · simp only [if_neg hc]
        split <;> rfl
    · rw [if_neg h2, if_neg h2]; rfl

/-- the mixed adjustment is the old or the new one, for every reading, exactly if one of the members does not change (or the slope in
use is zero) -/
theorem mixed_iff (s o s' o' : ℚ) : OldOrNew s o s' o' (fun raw => (raw - o) * s') ↔ s = s' ∨ o = o' ∨ s' = 0 := by
  constructor
  · intro h
    by_contra hn
    simp only [not_or] at hn
    obtain ⟨h1, h2, h3⟩ := hn
    rcases h (o + 1) with h | h
    · unfold line at h
      apply h1
      linarith
    · unfold line at h
      have : s' * (o - o') = 0 := by linarith
      rcases mul_eq_zero.mp this with h | h
      · exact h3 h
      · exact h2 (by linarith)
  · rintro (rfl | rfl | rfl) raw
    · left; unfold line; ring
    · right; unfold line; ring
    · right; unfold line; ring

/-- **C257**, `set_slope_offset()` interrupted, exactly: what `adjust()` gives in the interrupt is, at each moment, what the new
calibration gives, or that plus the new slope times the change of the offset. -/
theorem C257_adjust_exact (c : Calibrator) (s o : ℚ) (d : Calibrator) (hd : d ∈ setSteps c s o) (raw : ℚ) :
    (d = ⟨s, c.offset⟩ ∧ d.adjust raw = line s o raw + s * (o - c.offset)) ∨ (d = ⟨s, o⟩ ∧ d.adjust raw = line s o raw) := by
  rcases List.mem_cons.mp hd with rfl | hd
  · left
    refine ⟨rfl, ?_⟩
    unfold Calibrator.adjust line
    ring
  · rw [List.mem_singleton] at hd
    subst hd
    right
    refine ⟨rfl, ?_⟩
    unfold Calibrator.adjust line
    ring

/-- **C257**, exactly when it holds: an interrupt during `set_slope_offset()` adjusts every reading with the old or the new calibration
if and only if the slope or the offset stays the same (or the new slope is zero). -/
theorem C257_adjust_iff_partial (c : Calibrator) (s o : ℚ) :
    (∀ d ∈ setSteps c s o, OldOrNew c.slope c.offset s o d.adjust) ↔ c.slope = s ∨ c.offset = o ∨ s = 0 := by
  constructor
  · intro h
    exact (mixed_iff c.slope c.offset s o).mp (h ⟨s, c.offset⟩ (by simp [setSteps]))
  · intro h d hd
    rcases List.mem_cons.mp hd with rfl | hd
    · exact (mixed_iff c.slope c.offset s o).mpr h
    · rw [List.mem_singleton] at hd
      subst hd
      intro raw
      right
      unfold Calibrator.adjust line
      ring

example : ¬ ∀ d ∈ setSteps ⟨1, 0⟩ 2 3, OldOrNew 1 0 2 3 d.adjust := fun h => by
  have := (C257_adjust_iff_partial ⟨1, 0⟩ 2 3).mp h
  norm_num at this

example : ∀ d ∈ setSteps ⟨2, 0⟩ 2 3, OldOrNew 2 0 2 3 d.adjust := (C257_adjust_iff_partial ⟨2, 0⟩ 2 3).mpr (.inl rfl)

/-- **C257**, `reverse_calibrate()` in the interrupt, exactly: off by the change of the offset between the two stores, never otherwise. -/
theorem C257_reverse_exact (c : Calibrator) (s o : ℚ) (hs : s ≠ 0) (d : Calibrator) (hd : d ∈ setSteps c s o) (v : ℚ) :
    ∃ r, d.reverse v = .ok r ∧ (r = v / s + o ∨ r = v / s + o + (c.offset - o)) := by
  rcases List.mem_cons.mp hd with rfl | hd
  · exact ⟨_, if_neg hs, .inr (by ring)⟩
  · rw [List.mem_singleton] at hd
    subst hd
    exact ⟨_, if_neg hs, .inl rfl⟩

example : (⟨2, 3⟩ : Calibrator) ∈ setSteps ⟨1, 0⟩ 2 3 := by simp [setSteps]

/-- **C257**, the other way round: an interrupt that recalibrates in the middle of `adjust()`: old or new for every reading, whichever
member is read first, exactly if the slope or the offset stays the same (or the slope read is zero). -/
theorem C257_across_iff (b : Bool) (c d : Calibrator) :
    OldOrNew c.slope c.offset d.slope d.offset (adjustAcross b c d) ↔
      c.slope = d.slope ∨ c.offset = d.offset ∨ (if b then d.slope else c.slope) = 0 := by
  cases b with
  | true => exact mixed_iff c.slope c.offset d.slope d.offset
  | false =>
    have := mixed_iff d.slope d.offset c.slope c.offset
    have e : OldOrNew c.slope c.offset d.slope d.offset (adjustAcross false c d) ↔
        OldOrNew d.slope d.offset c.slope c.offset (fun raw => (raw - d.offset) * c.slope) := by
      constructor
      · intro h raw; exact (h raw).symm
      · intro h raw; exact (h raw).symm
    rw [e, this]
    simp [eq_comm]

example : OldOrNew 2 1 2 5 (adjustAcross true ⟨2, 1⟩ ⟨2, 5⟩) := (C257_across_iff true ⟨2, 1⟩ ⟨2, 5⟩).mpr (.inl rfl)

/-- **C257** across `reverse_calibrate()`: the slope of one calibration with the offset of the other. -/
theorem C257_reverse_across (b : Bool) (c d : Calibrator) (hc : c.slope ≠ 0) (hd : d.slope ≠ 0) (v : ℚ) :
    ∃ rc rd r, c.reverse v = .ok rc ∧ d.reverse v = .ok rd ∧ reverseAcross b c d v = .ok r ∧
      r = if b then rd + (c.offset - d.offset) else rc + (d.offset - c.offset) := by
  refine ⟨_, _, _, if_neg hc, if_neg hd, ?_, rfl⟩
  cases b with
  | true => simp only [reverseAcross, if_true]; rw [if_neg hd]; congr 1; ring
  | false => simp only [reverseAcross]; rw [if_neg (by simp), if_neg hc]; simp only [Bool.false_eq_true, if_false]; congr 1; ring

example := C257_reverse_across true ⟨2, 1⟩ ⟨4, 5⟩ (by norm_num) (by norm_num) 3

/-- **C257**, `calibrate_chan()` interrupted between its stores: at the measured points themselves, which the new calibration maps to
the targets, the interrupt is off by the slope times the change of the offset. -/
theorem C257_chan_exact (c : Calibrator) (tl th ml mh : ℚ) (hm : ml ≠ mh) (ht : tl ≠ th) :
    ∃ c1 c2, chanSteps c tl th ml mh = .ok [c1, c2] ∧ c2.adjust ml = tl ∧ c2.adjust mh = th ∧
      c1.adjust ml = tl + c2.slope * (c2.offset - c.offset) ∧ c1.adjust mh = th + c2.slope * (c2.offset - c.offset) := by
  obtain ⟨d, h1, h2, h3, -⟩ := Calibrator.C103_calibrate tl th ml mh hm ht
  obtain ⟨l, e1, -, e3⟩ := (steps_final c 0 0 tl th ml mh).2.1 d h1
  refine ⟨⟨d.slope, c.offset⟩, d, by rw [e1, e3]; rfl, h2, h3, ?_, ?_⟩
  · rw [← h2]; unfold Calibrator.adjust; ring
  · rw [← h3]; unfold Calibrator.adjust; ring

example := C257_chan_exact .init (-1) 2 (1 / 10) (4 / 10) (by norm_num) (by norm_num)

/-- **C257** fails as claimed: between the two stores of `set_slope_offset(2, 3)` on a fresh calibrator the reading 5 is adjusted to
10, which is neither the old 5 nor the new 4; and an interrupt that calls it in the middle of `adjust(5)` gives 10 or 2. -/
theorem C257_violated :
    (setSteps .init 2 3).map (·.adjust 5) = [10, 4] ∧ Calibrator.init.adjust 5 = 5 ∧
    adjustAcross true .init ⟨2, 3⟩ 5 = 10 ∧ adjustAcross false .init ⟨2, 3⟩ 5 = 2 := by decide +kernel

/-! ## VoctCalibrator -/

/-- with both data points on the line that is already known, solving for it changes nothing -/
theorem solveSteps_line (off slp : ℚ) (v : Voct) (b1 : v.offset = off) (b2 : v.slope = slp)
    (b3 : v.num ≥ 2 → v.pt0.2 = off + slp * v.pt0.1 ∧ v.pt1.2 = off + slp * v.pt1.1) :
    ∀ w ∈ solveSteps v, w.offset = off ∧ w.slope = slp := by
  intro w hw
  unfold solveSteps at hw
  by_cases hn2 : v.num ≥ 2
  · rw [if_pos hn2] at hw
    obtain ⟨p0, p1⟩ := b3 hn2
    dsimp only at hw
    have fin : ∀ u : Voct, u.offset = off → u.slope = slp → u.pt0 = v.pt0 → u.pt1 = v.pt1 →
        w ∈ (if u.measuredC0 = true then [u] else
          [u, { u with offset := (u.pt0.2 - u.slope * u.pt0.1 + (u.pt1.2 - u.slope * u.pt1.1)) / 2 }]) →
        w.offset = off ∧ w.slope = slp := by
      intro u c1 c2 c3 c4 hw
      split at hw
      · rw [List.mem_singleton] at hw
        rw [hw]
        exact ⟨c1, c2⟩
      · rcases List.mem_cons.mp hw with rfl | hw
        · exact ⟨c1, c2⟩
        · rw [List.mem_singleton] at hw
          rw [hw]
          refine ⟨?_, c2⟩
          dsimp only
          rw [c3, c4, c2, p0, p1]
          ring
    by_cases hc : ((v.pt0.1 : Int) - v.pt1.1 ≠ 0 ∧ v.pt0.2 - v.pt1.2 ≠ 0)
    · rw [if_pos hc] at hw
      refine fin { v with slope := (v.pt0.2 - v.pt1.2) / (((v.pt0.1 : Int) - v.pt1.1 : Int) : ℚ) } b1 ?_ rfl rfl hw
      show (v.pt0.2 - v.pt1.2) / (((v.pt0.1 : Int) - v.pt1.1 : Int) : ℚ) = slp
      have hne : (((v.pt0.1 : Int) - v.pt1.1 : Int) : ℚ) ≠ 0 := by exact_mod_cast hc.1
      rw [div_eq_iff hne, p0, p1]
      push_cast
      ring
    · rw [if_neg hc] at hw
      exact fin v b1 b2 rfl rfl hw
  · rw [if_neg hn2] at hw
    cases hw

/-- **C257**, `record_measurement()`: a measurement on the line that is already known changes nothing that an interrupt can read, at
any moment. -/
theorem C257_voct_same_line (off slp : ℚ) (v : Voct) (note : Nat) (m : ℚ) (ho : v.offset = off) (hs : v.slope = slp)
    (h0 : v.num ≥ 1 → v.pt0.2 = off + slp * v.pt0.1) (h1 : v.num ≥ 2 → v.pt1.2 = off + slp * v.pt1.1) (hm : m = off + slp * note) :
    ∀ w ∈ recordSteps v note m, w.offset = off ∧ w.slope = slp := by
  unfold recordSteps
  split
  · intro w hw; cases hw
  · have hn : (v.noteC0 note m).offset = off ∧ (v.noteC0 note m).slope = slp ∧ (v.noteC0 note m).pt0 = v.pt0 ∧
        (v.noteC0 note m).pt1 = v.pt1 ∧ (v.noteC0 note m).num = v.num := by
      unfold Voct.noteC0
      split
      · next h => refine ⟨by simp [hm, h], hs, rfl, rfl, rfl⟩
      · exact ⟨ho, hs, rfl, rfl, rfl⟩
    generalize v.noteC0 note m = v1 at hn
    obtain ⟨a1, a2, a3, a4, a5⟩ := hn
    have hp : (v1.push note m).offset = off ∧ (v1.push note m).slope = slp ∧
        ((v1.push note m).num ≥ 2 → (v1.push note m).pt0.2 = off + slp * (v1.push note m).pt0.1 ∧
          (v1.push note m).pt1.2 = off + slp * (v1.push note m).pt1.1) := by
      unfold Voct.push
      dsimp only
      by_cases h2 : v1.num ≥ 2
      · rw [if_pos h2]
        dsimp only
        rw [if_neg (by decide)]
        refine ⟨a1, a2, fun _ => ⟨?_, hm⟩⟩
        rw [a4]
        exact h1 (by omega)
      · rw [if_neg h2]
        by_cases h3 : v1.num = 0
        · rw [if_pos h3]
          refine ⟨a1, a2, fun h => ?_⟩
          simp at h
        · rw [if_neg h3]
          refine ⟨a1, a2, fun _ => ⟨?_, hm⟩⟩
          rw [a3]
          exact h0 (by omega)
    obtain ⟨b1, b2, b3⟩ := hp
    intro w hw
    dsimp only at hw
    rcases List.mem_cons.mp hw with rfl | hw
    · exact ⟨a1, a2⟩
    rcases List.mem_cons.mp hw with rfl | hw
    · exact ⟨b1, b2⟩
    exact solveSteps_line off slp _ b1 b2 b3 w hw

example : ∀ w ∈ recordSteps ((Voct.init.record 1 12).record 3 32) 4 42, w.offset = 2 ∧ w.slope = 10 :=
  C257_voct_same_line 2 10 _ 4 42 (by decide +kernel) (by decide +kernel) (by decide +kernel) (by decide +kernel) (by norm_num)

/-- **C257** fails for V/oct: while the third measurement changes the line from 2 + 10 n to 17 + 5 n, the interrupt reads the new
slope with the old offset, a line through neither pair of measurements; and while `reset()` runs, offset 0 with the old slope. -/
theorem C257_voct_violated :
    (recordSteps ((Voct.init.record 1 12).record 3 32) 5 42).map (fun w => (w.offset, w.slope)) = [(2, 10), (2, 10), (2, 5), (17, 5)] ∧
    (resetSteps ((Voct.init.record 1 12).record 3 32)).map (fun w => (w.offset, w.slope)) = [(0, 10), (0, 0), (0, 0), (0, 0)] := by
  decide +kernel

end CalibIsr
