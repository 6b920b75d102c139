import Mathlib.Analysis.SpecialFunctions.Trigonometric.Bounds
import Mathlib.Analysis.Real.Pi.Bounds
import Mathlib.Analysis.Convex.SpecificFunctions.Deriv
import Verif.Props.MathFloat
/-! # Property C225: how close faster_sine is to a sine -/

namespace RatMath
open Real

/-- The parabola lies above the cosine ... -/
theorem cos_le_parabola (z : ℝ) (h : |z| ≤ 1 / 2) : Real.cos (π * z) ≤ 1 - 4 * z ^ 2 := by
  have hz0 := abs_nonneg z
  have hc : Real.cos (π * z) = 1 - 2 * Real.sin (π * |z| / 2) ^ 2 := by
    rw [show Real.cos (π * z) = Real.cos (π * |z|) by
      rcases abs_cases z with ⟨e, _⟩ | ⟨e, _⟩ <;> rw [e]
      rw [mul_neg, Real.cos_neg]]
    have e2 := Real.sin_sq_eq_half_sub (π * |z| / 2)
    rw [e2, show 2 * (π * |z| / 2) = π * |z| by ring]; ring
  have hs : Real.sqrt 2 * |z| ≤ Real.sin (π * |z| / 2) := by
    have hcon := (And.right strictConcaveOn_sin_Icc.concaveOn) (show (0 : ℝ) ∈ Set.Icc 0 π from ⟨le_refl _, Real.pi_pos.le⟩) (show π / 4 ∈ Set.Icc 0 π from ⟨by positivity, by linarith [Real.pi_pos]⟩)
      (show 0 ≤ 1 - 2 * |z| by linarith) (show 0 ≤ 2 * |z| by linarith) (by ring)
    simp only [smul_eq_mul, Real.sin_zero, mul_zero, zero_add, Real.sin_pi_div_four] at hcon
    rw [show 2 * |z| * (π / 4) = π * |z| / 2 by ring] at hcon
    linarith
  have h2 : (Real.sqrt 2 * |z|) ^ 2 ≤ Real.sin (π * |z| / 2) ^ 2 := pow_le_pow_left₀ (by positivity) hs 2
  rw [mul_pow, Real.sq_sqrt (by norm_num), sq_abs] at h2
  linarith

/-- ... but at most 0.06 above it. -/
theorem parabola_le_cos (z : ℝ) (h : |z| ≤ 1 / 2) : 1 - 4 * z ^ 2 - 6 / 100 ≤ Real.cos (π * z) := by
  have p1 := Real.pi_gt_d6
  have p2 := Real.pi_lt_d6
  obtain ⟨x, hx⟩ : ∃ x, π * z = x := ⟨_, rfl⟩
  obtain ⟨w, hw⟩ : ∃ w, x ^ 2 / 32 = w := ⟨_, rfl⟩
  have hz2 : z ^ 2 ≤ 1 / 4 := by rw [← sq_abs]; nlinarith [abs_nonneg z]
  have hz2' := sq_nonneg z
  have pp1 : (9.8696 : ℝ) ≤ π ^ 2 := by nlinarith
  have pp2 : π ^ 2 ≤ (9.8697 : ℝ) := by nlinarith
  have hwz : w = π ^ 2 * z ^ 2 / 32 := by rw [← hw, ← hx]; ring
  have w0 : 0 ≤ w := by rw [hwz]; positivity
  have w1 : w ≤ 0.0772 := by rw [hwz]; nlinarith
  have wz : 12.968 * w ≤ 4 * z ^ 2 := by rw [hwz]; nlinarith
  have c4 : 1 - w ≤ Real.cos (x / 4) := by
    have := Real.one_sub_sq_div_two_le_cos (x := x / 4)
    have e : (x / 4) ^ 2 / 2 = w := by rw [← hw]; ring
    linarith
  have c2 : 1 - 4 * w + 2 * w ^ 2 ≤ Real.cos (x / 2) := by
    have e := Real.cos_two_mul (x / 4)
    rw [show 2 * (x / 4) = x / 2 by ring] at e
    rw [e]
    have := pow_le_pow_left₀ (show 0 ≤ 1 - w by linarith) c4 2
    nlinarith
  have c1 : 2 * (1 - 4 * w + 2 * w ^ 2) ^ 2 - 1 ≤ Real.cos x := by
    have e := Real.cos_two_mul (x / 2)
    rw [show 2 * (x / 2) = x by ring] at e
    rw [e]
    have := pow_le_pow_left₀ (show 0 ≤ 1 - 4 * w + 2 * w ^ 2 by nlinarith) c2 2
    linarith
  rw [hx]
  have key : 0 ≤ (37.4528 - 32 * w) * (w - 0.0398) ^ 2 := mul_nonneg (by linarith) (sq_nonneg _)
  have w4 : 0 ≤ w ^ 4 := by positivity
  nlinarith

/-- Half a wave of the parabola against half a wave of the sine. -/
theorem half_wave (y : ℝ) (h0 : 0 ≤ y) (h1 : y ≤ 1) : Real.sin (π * y) ≤ 4 * (y - y * y) ∧ 4 * (y - y * y) ≤ Real.sin (π * y) + 6 / 100 := by
  have hz : |y - 1 / 2| ≤ 1 / 2 := by rw [abs_le]; constructor <;> linarith
  have a := cos_le_parabola _ hz
  have b := parabola_le_cos _ hz
  have e : Real.cos (π * (y - 1 / 2)) = Real.sin (π * y) := by
    rw [show π * (y - 1 / 2) = π * y - π / 2 by ring, Real.cos_sub_pi_div_two]
  rw [e] at a b
  constructor <;> nlinarith

/-- The sign of the wave: `-sin(2 pi x)` is `sin(pi (2 x - 1))`. -/
theorem shifted (x : ℝ) : -Real.sin (2 * π * x) = Real.sin (π * (x * 2 - 1)) := by
  rw [show π * (x * 2 - 1) = 2 * π * x - π by ring, Real.sin_sub_pi]

/-- **C225**: for every x from 0 to 1 faster_sine(x) is within 0.06 of -sin(2 pi x) and never closer to zero than it: on the first half below it, on the second half above it. -/
theorem C225_close (x : ℚ) (h0 : 0 ≤ x) (h1 : x ≤ 1) :
    |((fasterSine x : ℚ) : ℝ) - -Real.sin (2 * π * x)| ≤ 6 / 100 ∧ (x ≤ 1 / 2 → ((fasterSine x : ℚ) : ℝ) ≤ -Real.sin (2 * π * x)) ∧
    (1 / 2 ≤ x → -Real.sin (2 * π * x) ≤ ((fasterSine x : ℚ) : ℝ)) := by
  rw [shifted]
  have h0' : (0 : ℝ) ≤ x := by exact_mod_cast h0
  have h1' : (x : ℝ) ≤ 1 := by exact_mod_cast h1
  by_cases hh : x * 2 - 1 ≥ 0
  · have hh' : (0 : ℝ) ≤ x * 2 - 1 := by exact_mod_cast hh
    have e : ((fasterSine x : ℚ) : ℝ) = 4 * (((x : ℝ) * 2 - 1) - ((x : ℝ) * 2 - 1) * ((x : ℝ) * 2 - 1)) := by
      unfold fasterSine fAbs; simp only; rw [if_pos hh]; push_cast; ring
    have := half_wave ((x : ℝ) * 2 - 1) hh' (by linarith)
    rw [e]
    refine ⟨by rw [abs_le]; constructor <;> linarith [this.1, this.2], ?_, fun _ => this.1⟩
    intro hx
    have hx0 : x * 2 - 1 = 0 := by linarith
    have : (x : ℝ) * 2 - 1 = 0 := by exact_mod_cast hx0
    rw [this]; simp
  · have hh' : (x : ℝ) * 2 - 1 < 0 := by exact_mod_cast not_le.mp hh
    have e : ((fasterSine x : ℚ) : ℝ) = -(4 * ((1 - (x : ℝ) * 2) - (1 - (x : ℝ) * 2) * (1 - (x : ℝ) * 2))) := by
      unfold fasterSine fAbs; simp only; rw [if_neg hh]; push_cast; ring
    have := half_wave (1 - (x : ℝ) * 2) (by linarith) (by linarith)
    have es : Real.sin (π * ((x : ℝ) * 2 - 1)) = -Real.sin (π * (1 - (x : ℝ) * 2)) := by
      rw [← Real.sin_neg]; congr 1; ring
    rw [e, es]
    refine ⟨by rw [abs_le]; constructor <;> linarith [this.1, this.2], fun _ => by linarith [this.1], ?_⟩
    intro hx
    exfalso
    exact hh (by linarith)

/-- **C225**: one eighteenth is missed at x = 11/12, where the sine is a half. -/
theorem C225_reached : ((fasterSine (11 / 12) : ℚ) : ℝ) - -Real.sin (2 * π * (11 / 12 : ℚ)) = 1 / 18 := by
  rw [shifted]
  have e : π * (((11 / 12 : ℚ) : ℝ) * 2 - 1) = π - π / 6 := by push_cast; ring
  rw [e, Real.sin_pi_sub, Real.sin_pi_div_six]
  have : fasterSine (11 / 12) = 5 / 9 := by norm_num [fasterSine, fAbs]
  rw [this]; norm_num

example := C225_close (1 / 8) (by norm_num) (by norm_num)

end RatMath

namespace MathFloat
open Flt Real

/-- **C225**: in float arithmetic, for every float from 0 to 1. -/
theorem C225_float (rnd : ℚ → ℚ) (h : Nearest rnd) (x : ℚ) (hx : F32 x) (h0 : 0 ≤ x) (h1 : x ≤ 1) :
    |((fasterSine rnd x : ℚ) : ℝ) - -Real.sin (2 * π * x)| ≤ 6 / 100 + 3 / 2 ^ 23 := by
  have a := (RatMath.C225_close x h0 h1).1
  have b := (C154_faster_sine rnd h x hx h0 h1).2.2.2.2.1
  have b' : |((fasterSine rnd x : ℚ) : ℝ) - ((RatMath.fasterSine x : ℚ) : ℝ)| ≤ 3 / 2 ^ 23 := by
    rw [abs_le] at b ⊢
    have b1 : ((-(3 / 2 ^ 23) : ℚ) : ℝ) ≤ ((fasterSine rnd x - RatMath.fasterSine x : ℚ) : ℝ) := by exact_mod_cast b.1
    have b2 : ((fasterSine rnd x - RatMath.fasterSine x : ℚ) : ℝ) ≤ ((3 / 2 ^ 23 : ℚ) : ℝ) := by exact_mod_cast b.2
    push_cast at b1 b2
    exact ⟨b1, b2⟩
  rw [abs_le] at *
  constructor <;> linarith [a.1, a.2, b'.1, b'.2]

example (rnd : ℚ → ℚ) (h : Nearest rnd) := C225_float rnd h (1 / 8) ⟨1, -3, by norm_num⟩ (by norm_num) (by norm_num)

end MathFloat
