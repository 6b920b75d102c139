import Verif.Model.RatMath
import Mathlib.Tactic.Linarith
import Mathlib.Tactic.FieldSimp
import Mathlib.Tactic.Ring
import Mathlib.Algebra.Order.Field.Basic
import Mathlib.Tactic.NormNum
/-! # Properties C86, C87, C126: mapping, interpolation and hysteresis, in exact arithmetic -/

namespace RatMath

/-- **C86**: map_value hits its end points ... -/
theorem C86_end_points (inMin inMax outMin outMax : ℚ) (h : inMin ≠ inMax) :
    mapValue inMin inMin inMax outMin outMax = outMin ∧ mapValue inMax inMin inMax outMin outMax = outMax := by
  have : inMax - inMin ≠ 0 := sub_ne_zero.mpr (Ne.symm h)
  unfold mapValue
  constructor <;> field_simp <;> ring

example := C86_end_points 2 5 0 1 (by norm_num)

/-- ... is affine: the fraction of the way through the output range is that through the input range ... -/
theorem C86_affine (x inMin inMax outMin outMax : ℚ) (h : inMin ≠ inMax) (t : ℚ) (hx : x = inMin + t * (inMax - inMin)) :
    mapValue x inMin inMax outMin outMax = outMin + t * (outMax - outMin) := by
  have : inMax - inMin ≠ 0 := sub_ne_zero.mpr (Ne.symm h)
  unfold mapValue
  subst hx; field_simp; ring

example := C86_affine 3 2 5 0 1 (by norm_num) (1 / 3) (by norm_num)

/-- ... strictly monotone for increasing ranges ... -/
theorem C86_monotone (x y inMin inMax outMin outMax : ℚ) (hi : inMin < inMax) (ho : outMin < outMax) (h : x < y) :
    mapValue x inMin inMax outMin outMax < mapValue y inMin inMax outMin outMax := by
  unfold mapValue
  have h1 : 0 < inMax - inMin := by linarith
  have h2 : 0 < outMax - outMin := by linarith
  have : (x - inMin) * (outMax - outMin) / (inMax - inMin) < (y - inMin) * (outMax - outMin) / (inMax - inMin) := by
    apply div_lt_div_of_pos_right _ h1
    exact mul_lt_mul_of_pos_right (by linarith) h2
  linarith

/-- ... inside the output range for an input inside the input range ... -/
theorem C86_range (x inMin inMax outMin outMax : ℚ) (hi : inMin < inMax) (h1 : inMin ≤ x) (h2 : x ≤ inMax) :
    (outMin ≤ outMax → outMin ≤ mapValue x inMin inMax outMin outMax ∧ mapValue x inMin inMax outMin outMax ≤ outMax) ∧
    (outMax ≤ outMin → outMax ≤ mapValue x inMin inMax outMin outMax ∧ mapValue x inMin inMax outMin outMax ≤ outMin) := by
  have hd : 0 < inMax - inMin := by linarith
  obtain ⟨t, ht⟩ : ∃ t, t = (x - inMin) / (inMax - inMin) := ⟨_, rfl⟩
  have hx : x = inMin + t * (inMax - inMin) := by rw [ht]; field_simp; ring
  have t0 : 0 ≤ t := by rw [ht]; exact div_nonneg (by linarith) (by linarith)
  have t1 : t ≤ 1 := by rw [ht, div_le_one hd]; linarith
  rw [C86_affine x inMin inMax outMin outMax (by linarith) t hx]
  constructor
  · intro ho
    constructor
    · nlinarith
    · nlinarith
  · intro ho
    constructor
    · nlinarith
    · nlinarith

/-- ... and undone by the map with the ranges exchanged. -/
theorem C86_inverse (x inMin inMax outMin outMax : ℚ) (hi : inMin ≠ inMax) (ho : outMin ≠ outMax) :
    mapValue (mapValue x inMin inMax outMin outMax) outMin outMax inMin inMax = x := by
  have h1 : inMax - inMin ≠ 0 := sub_ne_zero.mpr (Ne.symm hi)
  have h2 : outMax - outMin ≠ 0 := sub_ne_zero.mpr (Ne.symm ho)
  unfold mapValue
  field_simp
  ring

example : mapValue 5 0 10 100 200 = 150 ∧ mapValue (1 / 4) 0 1 1 (-1) = 1 / 2 := by unfold mapValue; norm_num

/-- **C86** (partial): on 32-bit signed integers, if the differences and the product are representable: x inside the input range gives a result inside the output range, also
for a decreasing output range, exactly the ends at the ends, and less than one away from the exact value. -/
theorem C86_int_partial (x inMin inMax outMin outMax : Int) (hi : inMin < inMax) (h1 : inMin ≤ x) (h2 : x ≤ inMax)
    (hd : inMax - inMin ≤ 2147483647) (ho1 : -2147483648 ≤ outMin ∧ outMin ≤ 2147483647) (ho2 : -2147483648 ≤ outMax ∧ outMax ≤ 2147483647)
    (hod : -2147483648 ≤ outMax - outMin ∧ outMax - outMin ≤ 2147483647)
    (hp : -2147483648 ≤ (x - inMin) * (outMax - outMin) ∧ (x - inMin) * (outMax - outMin) ≤ 2147483647) :
    ∃ r, mapValueI x inMin inMax outMin outMax = .ok r ∧ (outMin ≤ outMax → outMin ≤ r ∧ r ≤ outMax) ∧ (outMax ≤ outMin → outMax ≤ r ∧ r ≤ outMin) ∧
      (x = inMin → r = outMin) ∧ (x = inMax → r = outMax) ∧
      (r - outMin) * (inMax - inMin) - (inMax - inMin) < (x - inMin) * (outMax - outMin) ∧ (x - inMin) * (outMax - outMin) < (r - outMin) * (inMax - inMin) + (inMax - inMin) := by
  obtain ⟨a, ha⟩ : ∃ a, x - inMin = a := ⟨_, rfl⟩
  obtain ⟨b, hb⟩ : ∃ b, outMax - outMin = b := ⟨_, rfl⟩
  obtain ⟨d, hdd⟩ : ∃ d, inMax - inMin = d := ⟨_, rfl⟩
  rw [ha, hb] at hp
  have d0 : 0 < d := by omega
  have a0 : 0 ≤ a := by omega
  have ad : a ≤ d := by omega
  -- the quotient is between 0 and b, and less than one from the exact value
  have hq : (0 ≤ b → 0 ≤ (a * b).tdiv d ∧ (a * b).tdiv d ≤ b) ∧ (b ≤ 0 → b ≤ (a * b).tdiv d ∧ (a * b).tdiv d ≤ 0) ∧
      ((a * b).tdiv d * d - d < a * b ∧ a * b < (a * b).tdiv d * d + d) := by
    have hmod := Int.mul_tdiv_add_tmod (a * b) d
    have hlt := Int.tmod_lt_of_pos (a * b) d0
    have hgt : -d < (a * b).tmod d := by
      have := Int.lt_tmod_of_pos (a * b) d0; omega
    have hcomm : d * (a * b).tdiv d = (a * b).tdiv d * d := Int.mul_comm _ _
    refine ⟨?_, ?_, by omega, by omega⟩
    · intro hb0
      have hnn : 0 ≤ a * b := Int.mul_nonneg a0 hb0
      have hle : a * b ≤ d * b := Int.mul_le_mul_of_nonneg_right ad hb0
      refine ⟨Int.tdiv_nonneg hnn (by omega), ?_⟩
      rw [Int.tdiv_eq_ediv_of_nonneg hnn]
      exact Int.ediv_le_of_le_mul d0 (by rw [Int.mul_comm b d]; exact hle)
    · intro hb0
      have hnn : 0 ≤ a * (-b) := Int.mul_nonneg a0 (by omega)
      have hle : a * (-b) ≤ d * (-b) := Int.mul_le_mul_of_nonneg_right ad (by omega)
      have e : (a * b).tdiv d = -((a * (-b)).tdiv d) := by rw [Int.mul_neg, Int.neg_tdiv, Int.neg_neg]
      have g1 : 0 ≤ (a * (-b)).tdiv d := Int.tdiv_nonneg hnn (by omega)
      have g2 : (a * (-b)).tdiv d ≤ -b := by
        rw [Int.tdiv_eq_ediv_of_nonneg hnn]
        exact Int.ediv_le_of_le_mul d0 (by rw [Int.mul_comm (-b) d]; exact hle)
      rw [e]; omega
  obtain ⟨q, hqq⟩ : ∃ q, (a * b).tdiv d = q := ⟨_, rfl⟩
  rw [hqq] at hq
  have hqb : -2147483648 ≤ q ∧ q ≤ 2147483647 ∧ -2147483648 ≤ q + outMin ∧ q + outMin ≤ 2147483647 := by
    rcases Int.le_total 0 b with g | g
    · have := hq.1 g; omega
    · have := hq.2.1 g; omega
  have hr : mapValueI x inMin inMax outMin outMax = .ok (q + outMin) := by
    unfold mapValueI IntMath.i32 IntMath.fit
    rw [ha, hb, hdd, if_pos ⟨by omega, by omega⟩, R.bind_ok, if_pos ⟨by omega, by omega⟩, R.bind_ok, if_pos hp, R.bind_ok, if_pos ⟨by omega, by omega⟩, R.bind_ok,
      if_neg (by omega), hqq, if_pos ⟨hqb.1, hqb.2.1⟩, R.bind_ok, if_pos hqb.2.2]
  refine ⟨q + outMin, hr, ?_, ?_, ?_, ?_, ?_⟩
  · intro h; have := hq.1 (by omega); omega
  · intro h; have := hq.2.1 (by omega); omega
  · intro h
    have : a = 0 := by omega
    subst this
    rw [Int.zero_mul, Int.zero_tdiv] at hqq; omega
  · intro h
    have : a = d := by omega
    subst this
    rw [Int.mul_tdiv_cancel_left _ (by omega)] at hqq; omega
  · rw [show q + outMin - outMin = q by omega, hdd, ha, hb]; exact hq.2.2

/-- **C86, violated** on unsigned integers for a decreasing output range (the difference wraps), and on signed ones when the product overflows. -/
theorem C86_int_violated : mapValueU 5 0 10 10 0 = .ok 429496734 ∧ mapValueI 65536 0 65536 0 65536 = .ub := by
  decide

example : mapValueI 7 0 10 0 255 = .ok 178 ∧ mapValueI 7 0 10 255 0 = .ok 77 := by decide

/-- **C126**: interpolate and interpolate3 are the same function, are in1 at 0 and in2 at 1, and stay between the two for phases in between. -/
theorem C126_interpolate (in1 in2 phase : ℚ) : interpolate in1 in2 phase = interpolate3 in1 in2 phase ∧ interpolate in1 in2 0 = in1 ∧ interpolate in1 in2 1 = in2 ∧
    (0 ≤ phase → phase ≤ 1 → (in1 ≤ in2 → in1 ≤ interpolate in1 in2 phase ∧ interpolate in1 in2 phase ≤ in2) ∧
      (in2 ≤ in1 → in2 ≤ interpolate in1 in2 phase ∧ interpolate in1 in2 phase ≤ in1)) := by
  unfold interpolate interpolate3
  refine ⟨by ring, by ring, by ring, ?_⟩
  intro h0 h1
  constructor
  · intro h; constructor <;> nlinarith
  · intro h; constructor <;> nlinarith

example := (C126_interpolate 2 5 (1 / 3)).2.2.2 (by norm_num) (by norm_num)

theorem fAbs_nonneg (x : ℚ) : fAbs x = |x| := by
  unfold fAbs
  split
  · rename_i h; rw [abs_of_nonneg h]
  · rename_i h; rw [abs_of_neg (by linarith)]

/-- **C126**: faster_sine goes through the documented points (0, 0), (1/4, -1), (1/2, 0), (3/4, 1), (1, 0), is odd around 1/2 and stays in [-1, 1] on [0, 1]. -/
theorem C126_faster_sine (x : ℚ) : fasterSine 0 = 0 ∧ fasterSine (1 / 4) = -1 ∧ fasterSine (1 / 2) = 0 ∧ fasterSine (3 / 4) = 1 ∧ fasterSine 1 = 0 ∧
    fasterSine (1 / 2 + x) = -fasterSine (1 / 2 - x) ∧ (0 ≤ x → x ≤ 1 → -1 ≤ fasterSine x ∧ fasterSine x ≤ 1) := by
  refine ⟨by norm_num [fasterSine, fAbs], by norm_num [fasterSine, fAbs], by norm_num [fasterSine, fAbs], by norm_num [fasterSine, fAbs], by norm_num [fasterSine, fAbs], ?_, ?_⟩
  · simp only [fasterSine, fAbs_nonneg]
    rw [show (1 / 2 - x) * 2 - 1 = -(2 * x) by ring, show (1 / 2 + x) * 2 - 1 = 2 * x by ring, abs_neg]; ring
  · intro h0 h1
    simp only [fasterSine, fAbs_nonneg]
    obtain ⟨y, hy⟩ : ∃ y, x * 2 - 1 = y := ⟨_, rfl⟩
    rw [hy]
    rcases le_total 0 y with h | h
    · rw [abs_of_nonneg h]
      constructor
      · nlinarith [mul_nonneg h (show 0 ≤ 1 - y by linarith)]
      · nlinarith [sq_nonneg (2 * y - 1)]
    · rw [abs_of_nonpos h]
      constructor
      · nlinarith [sq_nonneg (2 * y + 1)]
      · nlinarith [mul_nonneg (show 0 ≤ -y by linarith) (show 0 ≤ 1 + y by linarith)]

example := (C126_faster_sine (1 / 3)).2.2.2.2.2.2 (by norm_num) (by norm_num)

/-- **C87** (partial): the output is 0 or 1; an output of 1 stays 1 exactly while the input exceeds turn_off; an output of 0 becomes 1 exactly if the input exceeds the
*middle* of the two thresholds. So above `on` the output becomes (or stays) 1, at or below `off` it becomes 0, and between `off` and the middle it is kept. -/
theorem C87_gate_partial (off on last x : ℚ) (h : off ≤ on) (hl : last = 0 ∨ last = 1) :
    (hysteresisGate off on last x = 0 ∨ hysteresisGate off on last x = 1) ∧
    (last = 1 → (hysteresisGate off on last x = 1 ↔ off < x)) ∧ (last = 0 → (hysteresisGate off on last x = 1 ↔ (off + on) / 2 < x)) ∧
    (on < x → hysteresisGate off on last x = 1) ∧ (x ≤ off → hysteresisGate off on last x = 0) ∧ (off < x → x ≤ (off + on) / 2 → hysteresisGate off on last x = last) := by
  have one : ∀ p : Prop, ∀ [Decidable p], ((if p then (1 : ℚ) else 0) = 1 ↔ p) := by intro p _; by_cases hp : p <;> simp [hp]
  have zero : ∀ p : Prop, ∀ [Decidable p], ((if p then (1 : ℚ) else 0) = 0 ↔ ¬ p) := by intro p _; by_cases hp : p <;> simp [hp]
  simp only [hysteresisGate]
  refine ⟨by split <;> simp, ?_, ?_, ?_, ?_, ?_⟩
  · rintro rfl; rw [one]; constructor <;> intro _ <;> linarith
  · rintro rfl; rw [one]; constructor <;> intro _ <;> linarith
  · intro hx; rw [one]; rcases hl with rfl | rfl <;> linarith
  · intro hx; rw [zero]; rcases hl with rfl | rfl <;> intro _ <;> linarith
  · intro h1 h2
    rcases hl with rfl | rfl
    · rw [zero]; intro _; linarith
    · rw [one]; linarith

/-- **C87, violated**: for all thresholds off < on there are inputs below `on` that turn the output on. -/
theorem C87_gate_violated (off on : ℚ) (h : off < on) : ∃ x, x < on ∧ hysteresisGate off on 0 x = 1 := by
  refine ⟨(off + 3 * on) / 4, by linarith, ?_⟩
  have := (C87_gate_partial off on 0 ((off + 3 * on) / 4) h.le (Or.inl rfl)).2.2.1 rfl
  rw [this]; linarith

/-- **C87**: hysteresis_feedback turns on above thresh and off at or below thresh - feedback_coef, and keeps its output in between. -/
theorem C87_feedback (coef thresh last x : ℚ) (h : 0 ≤ coef) (hl : last = 0 ∨ last = 1) :
    (thresh < x → hysteresisFeedback coef thresh last x = 1) ∧ (x ≤ thresh - coef → hysteresisFeedback coef thresh last x = 0) ∧
    (thresh - coef < x → x ≤ thresh → hysteresisFeedback coef thresh last x = last) := by
  have one : ∀ p : Prop, ∀ [Decidable p], ((if p then (1 : ℚ) else 0) = 1 ↔ p) := by intro p _; by_cases hp : p <;> simp [hp]
  have zero : ∀ p : Prop, ∀ [Decidable p], ((if p then (1 : ℚ) else 0) = 0 ↔ ¬ p) := by intro p _; by_cases hp : p <;> simp [hp]
  unfold hysteresisFeedback
  refine ⟨?_, ?_, ?_⟩
  · intro hx; rw [one]; rcases hl with rfl | rfl <;> linarith
  · intro hx; rw [zero]; rcases hl with rfl | rfl <;> intro _ <;> linarith
  · intro h1 h2
    rcases hl with rfl | rfl
    · rw [zero]; intro _; linarith
    · rw [one]; linarith

example : hysteresisGate (2 / 5) (3 / 5) 0 (11 / 20) = 1 ∧ hysteresisGate (2 / 5) (3 / 5) 1 (9 / 20) = 1 ∧ hysteresisFeedback (1 / 10) (1 / 2) 1 (9 / 20) = 1 := by
  norm_num [hysteresisGate, hysteresisFeedback]

end RatMath
