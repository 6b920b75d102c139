import Verif.Model.MathFloat
import Verif.Lemmas.FltLerp
import Verif.Props.RatMath
import Mathlib.Tactic.Positivity
/-! # Properties C153 to C156: map_value, interpolation, faster_sine, hysteresis and the signal analyser in binary32 -/

namespace MathFloat
open Flt

/-- **C153**: map_value takes the lower end of the input range to the lower end of the output range exactly. -/
theorem C153_map_start (rnd : ℚ → ℚ) (h : Nearest rnd) (inMin inMax outMin outMax : ℚ) (ho : F32 outMin) : mapValue rnd inMin inMin inMax outMin outMax = outMin := by
  unfold mapValue
  rw [sub_self, h.zero, zero_mul, h.zero, zero_div, h.zero, zero_add, h.fix ho]

example (rnd : ℚ → ℚ) (h : Nearest rnd) := C153_map_start rnd h 0 1 1 3 f32_one

/-- **C153**: map_value never reverses order: rounding does not make a larger input give a smaller output. -/
theorem C153_map_monotone (rnd : ℚ → ℚ) (h : Nearest rnd) (x y inMin inMax outMin outMax : ℚ) (hi1 : F32 inMin) (hi2 : F32 inMax) (hi : inMin < inMax) (ho : outMin ≤ outMax) (hxy : x ≤ y) :
    mapValue rnd x inMin inMax outMin outMax ≤ mapValue rnd y inMin inMax outMin outMax := by
  have d0 := h.sub_ne_zero hi1 hi2 hi
  have e0 : 0 ≤ rnd (outMax - outMin) := h.ge f32_zero (by linarith)
  unfold mapValue
  apply h.mono
  have : rnd (rnd (rnd (x - inMin) * rnd (outMax - outMin)) / rnd (inMax - inMin)) ≤ rnd (rnd (rnd (y - inMin) * rnd (outMax - outMin)) / rnd (inMax - inMin)) := by
    apply h.mono
    apply div_le_div_of_nonneg_right _ d0.le
    apply h.mono
    exact mul_le_mul_of_nonneg_right (h.mono (by linarith)) e0
  linarith

example (rnd : ℚ → ℚ) (h : Nearest rnd) := C153_map_monotone rnd h (1 / 3) (1 / 2) 0 1 1 3 f32_zero f32_one (by norm_num) (by norm_num) (by norm_num)

/-- The inputs from inMin up give outputs from outMin up. -/
theorem C153_map_above (rnd : ℚ → ℚ) (h : Nearest rnd) (x inMin inMax outMin outMax : ℚ) (hi1 : F32 inMin) (hi2 : F32 inMax) (hi : inMin < inMax) (hF : F32 outMin) (ho : outMin ≤ outMax) (hx : inMin ≤ x) :
    outMin ≤ mapValue rnd x inMin inMax outMin outMax := by
  have := C153_map_monotone rnd h inMin x inMin inMax outMin outMax hi1 hi2 hi ho hx
  rwa [C153_map_start rnd h inMin inMax outMin outMax hF] at this

example (rnd : ℚ → ℚ) (h : Nearest rnd) := C153_map_above rnd h (1 / 3) 0 1 1 3 f32_zero f32_one (by norm_num) f32_one (by norm_num) (by norm_num)

/-- **C153 violated**: the upper end of the input range may give more than the upper end of the output range: map_value(33.f, 0.f, 33.f, 0.f, 0.485f) is the float above 0.485f. -/
theorem C153_map_end_violated (rnd : ℚ → ℚ) (h : Nearest rnd) : F32 (16273900 / 33554432) ∧ mapValue rnd 33 0 33 0 (16273900 / 33554432) = 16273901 / 33554432 := by
  have hF : F32 (16273900 / 33554432) := ⟨16273900, -25, by norm_num, by norm_num, by norm_num⟩
  have h33 : rnd 33 = 33 := h.fix ⟨33, 0, by norm_num, by norm_num, by norm_num⟩
  refine ⟨hF, ?_⟩
  unfold mapValue
  simp only [sub_zero, add_zero]
  rw [h33, h.fix hF, h.fix (h.f32 _)]
  have e1 : rnd (33 * (16273900 / 33554432)) = 4195615 / 262144 := by
    rw [h.eq_of_close _ 8391230 (-19) (by norm_num) (by norm_num) (by norm_num [abs_of_nonneg]) (by norm_num [abs_of_nonneg, abs_of_neg])]; norm_num
  rw [e1, h.eq_of_close _ 16273901 (-25) (by norm_num) (by norm_num) (by norm_num [abs_of_nonneg]) (by norm_num [abs_of_nonneg, abs_of_neg])]; norm_num

/-- One rounded operation on a non-negative value of known relative error. -/
theorem rel_chain (rnd : ℚ → ℚ) (h : Nearest rnd) (y z δ η : ℚ) (hz : 0 ≤ z) (hδ1 : δ ≤ 1) (hη : 0 ≤ η) (hy : |y - z| ≤ z * δ + η) : |rnd y - z| ≤ z * (δ + 1 / 2 ^ 23) + (2 * η + 1 / 2 ^ 150) := by
  have h1 := h.rel y
  have h2 : |y| ≤ z * (1 + δ) + η := by
    have : |y| ≤ |y - z| + |z| := by have := abs_add_le (y - z) z; rwa [sub_add_cancel] at this
    rw [abs_of_nonneg hz] at this
    linarith
  have h3 : |rnd y - z| ≤ |rnd y - y| + |y - z| := abs_sub_le _ _ _
  have h4 : z * δ ≤ z := by nlinarith
  have h5 : |y| / 2 ^ 24 ≤ (2 * z + η) / 2 ^ 24 := by
    apply div_le_div_of_nonneg_right _ (by norm_num); linarith
  have h6 : (2 * z + η) / 2 ^ 24 = z * (1 / 2 ^ 23) + η / 2 ^ 24 := by ring
  have h7 : η / 2 ^ 24 ≤ η := by rw [div_le_iff₀ (by norm_num)]; nlinarith
  linarith

/-- **C153** (partial): for a float in the input range map_value is within rounding of the exact affine map. Missing: exactly in the output range (see the violation). -/
theorem C153_map_accuracy_partial (rnd : ℚ → ℚ) (h : Nearest rnd) (x inMin inMax outMin outMax : ℚ) (hx : F32 x) (hi1 : F32 inMin) (hi2 : F32 inMax) (ho1 : F32 outMin) (ho2 : F32 outMax)
    (hi : 1 / 2 ^ 60 ≤ inMax - inMin) (ho : outMin ≤ outMax) (h0 : inMin ≤ x) (h1 : x ≤ inMax) :
    |mapValue rnd x inMin inMax outMin outMax - RatMath.mapValue x inMin inMax outMin outMax| ≤ (12 * (outMax - outMin) + |outMin| + |outMax|) / 2 ^ 24 + 1 / 2 ^ 80 := by
  have hii : inMin < inMax := by have : (0 : ℚ) < 1 / 2 ^ 60 := by norm_num
                                 linarith
  have d0 := h.sub_ne_zero hi1 hi2 hii
  have D0 : 0 < inMax - inMin := by linarith
  unfold mapValue RatMath.mapValue
  have a1 := h.sub_rel hx hi1
  have a2 := h.sub_rel ho2 ho1
  have a3 := h.sub_rel hi2 hi1
  rw [abs_of_nonneg (show 0 ≤ x - inMin by linarith)] at a1
  rw [abs_of_nonneg (show 0 ≤ outMax - outMin by linarith)] at a2
  rw [abs_of_nonneg D0.le] at a3
  have A0 : 0 ≤ x - inMin := by linarith
  have W0 : 0 ≤ outMax - outMin := by linarith
  have A1 : x - inMin ≤ inMax - inMin := by linarith
  obtain ⟨A, hA⟩ : ∃ A, x - inMin = A := ⟨_, rfl⟩
  obtain ⟨W, hW⟩ : ∃ W, outMax - outMin = W := ⟨_, rfl⟩
  obtain ⟨D, hD⟩ : ∃ D, inMax - inMin = D := ⟨_, rfl⟩
  rw [hA] at a1 A0 A1
  rw [hA]
  rw [hW] at a2 W0
  rw [hW]
  rw [hD] at a3 D0 d0 A1 hi
  rw [hD]
  obtain ⟨a, ha⟩ : ∃ a, rnd A = a := ⟨_, rfl⟩
  obtain ⟨w, hw⟩ : ∃ w, rnd W = w := ⟨_, rfl⟩
  obtain ⟨d, hd⟩ : ∃ d, rnd D = d := ⟨_, rfl⟩
  have a0 : 0 ≤ a := by rw [← ha]; exact h.ge f32_zero A0
  have w0 : 0 ≤ w := by rw [← hw]; exact h.ge f32_zero W0
  rw [ha] at a1 ⊢
  rw [hw] at a2 ⊢
  rw [hd] at a3 d0 ⊢
  obtain ⟨a1l, a1u⟩ := abs_le.mp a1
  obtain ⟨a2l, a2u⟩ := abs_le.mp a2
  obtain ⟨a3l, a3u⟩ := abs_le.mp a3
  -- the product
  have p1 : |a * w - A * W| ≤ A * W * (3 / 2 ^ 24) + 0 := by
    have e : a * w - A * W = (a - A) * w + A * (w - W) := by ring
    rw [e]
    have t1 : |(a - A) * w| ≤ A / 2 ^ 24 * (W + W / 2 ^ 24) := by
      rw [abs_mul, abs_of_nonneg w0]
      exact mul_le_mul a1 (by linarith) w0 (by positivity)
    have t2 : |A * (w - W)| ≤ A * (W / 2 ^ 24) := by
      rw [abs_mul, abs_of_nonneg A0]
      exact mul_le_mul_of_nonneg_left a2 A0
    have t3 := abs_add_le ((a - A) * w) (A * (w - W))
    have t4 : 0 ≤ A * W := mul_nonneg A0 W0
    have t5 : A / 2 ^ 24 * (W + W / 2 ^ 24) + A * (W / 2 ^ 24) = A * W * ((1 / 2 ^ 24) * (1 + 1 / 2 ^ 24) + 1 / 2 ^ 24) := by ring
    have t6 : A * W * ((1 / 2 ^ 24) * (1 + 1 / 2 ^ 24) + 1 / 2 ^ 24) ≤ A * W * (3 / 2 ^ 24) := mul_le_mul_of_nonneg_left (by norm_num) t4
    linarith
  have p2 := rel_chain rnd h (a * w) (A * W) (3 / 2 ^ 24) 0 (mul_nonneg A0 W0) (by norm_num) (le_refl _) p1
  obtain ⟨p, hp⟩ : ∃ p, rnd (a * w) = p := ⟨_, rfl⟩
  rw [hp] at p2 ⊢
  -- the quotient
  have Q0 : 0 ≤ A * W / D := div_nonneg (mul_nonneg A0 W0) D0.le
  have QW : A * W / D ≤ W := by rw [div_le_iff₀ D0]; nlinarith
  have dl : D * (1 - 1 / 2 ^ 24) ≤ d := by linarith
  have q1 : |p / d - A * W / D| ≤ A * W / D * (8 / 2 ^ 24) + 1 / 2 ^ 88 := by
    have e : p / d - A * W / D = ((p - A * W) + A * W / D * (D - d)) / d := by field_simp; ring
    rw [e, abs_div, abs_of_pos d0, div_le_iff₀ d0]
    have s1 := abs_add_le (p - A * W) (A * W / D * (D - d))
    have s2 : |A * W / D * (D - d)| ≤ A * W / D * (D / 2 ^ 24) := by
      rw [abs_mul, abs_of_nonneg Q0, abs_sub_comm]
      exact mul_le_mul_of_nonneg_left a3 Q0
    have s3 : A * W = A * W / D * D := by field_simp
    obtain ⟨q, hq⟩ : ∃ q, A * W / D = q := ⟨_, rfl⟩
    rw [hq] at s1 s2 s3 Q0 ⊢
    rw [s3] at p2 s1 ⊢
    have qd : 0 ≤ q * D := mul_nonneg Q0 D0.le
    have s4 : q * D * (1 - 1 / 2 ^ 24) * (8 / 2 ^ 24) ≤ q * (8 / 2 ^ 24) * d := by
      have := mul_le_mul_of_nonneg_left dl (show 0 ≤ q * (8 / 2 ^ 24) by positivity)
      linarith
    have s5 : (1 : ℚ) / 2 ^ 150 ≤ 1 / 2 ^ 88 * d := by
      have : (1 : ℚ) / 2 ^ 88 * (1 / 2 ^ 60 * (1 - 1 / 2 ^ 24)) ≤ 1 / 2 ^ 88 * d := by
        apply mul_le_mul_of_nonneg_left _ (by norm_num)
        refine le_trans ?_ dl
        exact mul_le_mul_of_nonneg_right hi (by norm_num)
      refine le_trans ?_ this
      norm_num
    have s6 : q * D * (3 / 2 ^ 24 + 1 / 2 ^ 23) + q * D / 2 ^ 24 ≤ q * D * (1 - 1 / 2 ^ 24) * (8 / 2 ^ 24) := by
      have : q * D * (3 / 2 ^ 24 + 1 / 2 ^ 23) + q * D / 2 ^ 24 = q * D * (6 / 2 ^ 24) := by ring
      rw [this, mul_assoc (q * D)]
      exact mul_le_mul_of_nonneg_left (by norm_num) qd
    have s7 : q * (D / 2 ^ 24) = q * D / 2 ^ 24 := by ring
    rw [add_mul]
    linarith
  have q2 := rel_chain rnd h (p / d) (A * W / D) (8 / 2 ^ 24) (1 / 2 ^ 88) Q0 (by norm_num) (by norm_num) q1
  obtain ⟨q, hq⟩ : ∃ q, A * W / D = q := ⟨_, rfl⟩
  rw [hq] at q2 Q0 QW ⊢
  have hF := h.f32 (p / d)
  obtain ⟨r, hr⟩ : ∃ r, rnd (p / d) = r := ⟨_, rfl⟩
  rw [hr] at q2 hF ⊢
  have s := h.add_rel hF ho1
  have n1 : 2 * (1 / 2 ^ 88) + 1 / 2 ^ 150 ≤ (1 : ℚ) / 2 ^ 86 := by norm_num
  have t : |r - q| ≤ 10 * W / 2 ^ 24 + 1 / 2 ^ 86 := by
    have : q * (8 / 2 ^ 24 + 1 / 2 ^ 23) ≤ W * (10 / 2 ^ 24) := by
      have : (8 : ℚ) / 2 ^ 24 + 1 / 2 ^ 23 = 10 / 2 ^ 24 := by norm_num
      rw [this]
      exact mul_le_mul_of_nonneg_right QW (by norm_num)
    have : W * (10 / 2 ^ 24) = 10 * W / 2 ^ 24 := by ring
    linarith
  have u : |r + outMin| ≤ |outMin| + |outMax| + 2 * W + 1 / 2 ^ 80 := by
    have v1 : |q + outMin| ≤ |outMin| + |outMax| := by
      rw [abs_le]
      constructor
      · have := neg_abs_le outMin
        have := abs_nonneg outMax
        linarith
      · have := le_abs_self outMax
        have := abs_nonneg outMin
        linarith
    have v2 : |r + outMin| ≤ |r - q| + |q + outMin| := by
      have := abs_add_le (r - q) (q + outMin)
      rwa [show r - q + (q + outMin) = r + outMin by ring] at this
    have v3 : 10 * W / 2 ^ 24 ≤ 2 * W := by rw [div_le_iff₀ (by norm_num)]; nlinarith
    have v4 : (1 : ℚ) / 2 ^ 86 ≤ 1 / 2 ^ 80 := by norm_num
    linarith
  have w1 : |r + outMin| / 2 ^ 24 ≤ (|outMin| + |outMax| + 2 * W + 1 / 2 ^ 80) / 2 ^ 24 := div_le_div_of_nonneg_right u (by norm_num)
  have w2 : |rnd (r + outMin) - (q + outMin)| ≤ |rnd (r + outMin) - (r + outMin)| + |r - q| := by
    have := abs_add_le (rnd (r + outMin) - (r + outMin)) (r - q)
    rwa [show rnd (r + outMin) - (r + outMin) + (r - q) = rnd (r + outMin) - (q + outMin) by ring] at this
  have w3 : (|outMin| + |outMax| + 2 * W + 1 / 2 ^ 80) / 2 ^ 24 = (|outMin| + |outMax| + 2 * W) / 2 ^ 24 + 1 / 2 ^ 104 := by ring
  have w4 : (1 : ℚ) / 2 ^ 104 + 1 / 2 ^ 86 ≤ 1 / 2 ^ 80 := by norm_num
  have w5 : (12 * W + |outMin| + |outMax|) / 2 ^ 24 = (|outMin| + |outMax| + 2 * W) / 2 ^ 24 + 10 * W / 2 ^ 24 := by ring
  linarith

/-- 0 to 127 onto -1 to 1 at 64. -/
example : F32 64 ∧ F32 0 ∧ F32 127 ∧ F32 (-1) ∧ F32 1 ∧ (1 : ℚ) / 2 ^ 60 ≤ 127 - 0 := ⟨⟨64, 0, by norm_num, by norm_num, by norm_num⟩, f32_zero, ⟨127, 0, by norm_num, by norm_num, by norm_num⟩, f32_neg f32_one, f32_one, by norm_num⟩

/-- Between two values. -/
def Between (a b x : ℚ) : Prop := (a ≤ x ∧ x ≤ b) ∨ (b ≤ x ∧ x ≤ a)

/-- **C153**: interpolate3 gives the first value at phase 0 exactly and for every float phase below 1 a value between the two (no overshoot by rounding). -/
theorem C153_interpolate3 (rnd : ℚ → ℚ) (h : Nearest rnd) (a b p : ℚ) (ha : F32 a) (hb : F32 b) (hp : F32 p) (h0 : 0 ≤ p) (h1 : p < 1) : Between a b (interpolate3 rnd a b p) ∧ interpolate3 rnd a b 0 = a := by
  have hp1 := f32_lt_one hp h1
  unfold interpolate3
  refine ⟨?_, by rw [zero_mul, h.zero, add_zero, h.fix ha]⟩
  rcases le_total a b with hab | hab
  · left
    have s := h.scaled_le ha hb hab h0 hp1
    have d0 : 0 ≤ rnd (b - a) := h.ge f32_zero (by linarith)
    have t0 : 0 ≤ rnd (p * rnd (b - a)) := h.ge f32_zero (mul_nonneg h0 d0)
    exact ⟨h.ge ha (by linarith), h.le hb (by linarith)⟩
  · right
    have s := h.scaled_ge ha hb hab h0 hp1
    have d0 : rnd (b - a) ≤ 0 := h.le f32_zero (by linarith)
    have t0 : rnd (p * rnd (b - a)) ≤ 0 := h.le f32_zero (by nlinarith)
    exact ⟨h.ge hb (by linarith), h.le ha (by linarith)⟩

example (rnd : ℚ → ℚ) (h : Nearest rnd) := C153_interpolate3 rnd h 1 0 (1 / 2) f32_one f32_zero (by have := f32_div 1 (by norm_num) 1 (by norm_num); norm_num at this ⊢; exact this) (by norm_num) (by norm_num)

/-- **C153**: interpolate3 is monotone in the phase, for all phases. -/
theorem C153_interpolate3_monotone (rnd : ℚ → ℚ) (h : Nearest rnd) (a b p q : ℚ) (hab : a ≤ b) (hpq : p ≤ q) :
    interpolate3 rnd a b p ≤ interpolate3 rnd a b q ∧ interpolate3 rnd b a q ≤ interpolate3 rnd b a p := by
  have d0 : 0 ≤ rnd (b - a) := h.ge f32_zero (by linarith)
  have d1 : rnd (a - b) ≤ 0 := h.le f32_zero (by linarith)
  unfold interpolate3
  constructor
  · apply h.mono
    have : rnd (p * rnd (b - a)) ≤ rnd (q * rnd (b - a)) := h.mono (by nlinarith)
    linarith
  · apply h.mono
    have : rnd (q * rnd (a - b)) ≤ rnd (p * rnd (a - b)) := h.mono (by nlinarith)
    linarith

example (rnd : ℚ → ℚ) (h : Nearest rnd) := C153_interpolate3_monotone rnd h 1 3 (1 / 3) (1 / 2) (by norm_num) (by norm_num)

/-- **C153 violated**: at phase 1 interpolate3 need not give the second value and may overshoot it: from -1 to 1.5 / 2^24 it gives 2 / 2^24. -/
theorem C153_interpolate3_end_violated (rnd : ℚ → ℚ) (h : Nearest rnd) : F32 (3 / 2 ^ 25) ∧ interpolate3 rnd (-1) (3 / 2 ^ 25) 1 = 4 / 2 ^ 25 := by
  refine ⟨⟨3, -25, by norm_num, by norm_num, by norm_num⟩, ?_⟩
  unfold interpolate3
  have e1 : rnd (3 / 2 ^ 25 - -1) = 1 + 1 / 2 ^ 23 := by
    rw [h.eq_of_close _ 8388609 (-23) (by norm_num) (by norm_num) (by norm_num [abs_of_nonneg]) (by norm_num [abs_of_nonneg, abs_of_neg])]; norm_num
  rw [e1, one_mul, ← e1, h.fix (h.f32 _), e1, h.fix ⟨1, -23, by norm_num, by norm_num, by norm_num⟩]
  norm_num

/-- **C153**: interpolate gives the first value at phase 0 and the second at phase 1 exactly. -/
theorem C153_interpolate_ends (rnd : ℚ → ℚ) (h : Nearest rnd) (a b : ℚ) (ha : F32 a) (hb : F32 b) : interpolate rnd a b 0 = a ∧ interpolate rnd a b 1 = b := by
  unfold interpolate
  constructor
  · rw [sub_zero, h.fix f32_one, mul_one, mul_zero, h.zero, h.fix ha, add_zero, h.fix ha]
  · rw [sub_self, h.zero, mul_zero, h.zero, mul_one, h.fix hb, zero_add, h.fix hb]

example (rnd : ℚ → ℚ) (h : Nearest rnd) := C153_interpolate_ends rnd h 1 0 f32_one f32_zero

/-- **C153** (partial): interpolate and interpolate3 are within rounding of the exact blend, so of each other. Missing: equal, as the static_assert claims for one case. -/
theorem C153_agree_partial (rnd : ℚ → ℚ) (h : Nearest rnd) (a b p m : ℚ) (ha : F32 a) (hb : F32 b) (h0 : 0 ≤ p) (h1 : p ≤ 1) (hma : |a| ≤ m) (hmb : |b| ≤ m) :
    |interpolate rnd a b p - RatMath.interpolate a b p| ≤ 6 * m / 2 ^ 24 + 1 / 2 ^ 147 ∧ |interpolate3 rnd a b p - RatMath.interpolate a b p| ≤ 10 * m / 2 ^ 24 + 1 / 2 ^ 147 := by
  obtain ⟨a1, a2⟩ := abs_le.mp hma
  obtain ⟨b1, b2⟩ := abs_le.mp hmb
  have m0 : 0 ≤ m := le_trans (abs_nonneg a) hma
  unfold interpolate interpolate3 RatMath.interpolate
  constructor
  · have q0 : 0 ≤ rnd (1 - p) := h.ge f32_zero (by linarith)
    have q1 : rnd (1 - p) ≤ 1 := h.le f32_one (by linarith)
    have q2 := h.grid (1 - p) (-24) (by norm_num) (by rw [abs_of_nonneg (by linarith)]; norm_num; linarith)
    have n1 : (2 : ℚ) ^ (-24 : ℤ) / 2 = 1 / 2 ^ 25 := by norm_num
    rw [n1] at q2
    obtain ⟨q, hq⟩ : ∃ q, rnd (1 - p) = q := ⟨_, rfl⟩
    rw [hq] at q0 q1 q2 ⊢
    have A := h.rel (a * q)
    have B := h.rel (b * p)
    have Aq : |a * q| ≤ m := by rw [abs_mul, abs_of_nonneg q0]; nlinarith [abs_nonneg a]
    have Bp : |b * p| ≤ m * p := by rw [abs_mul, abs_of_nonneg h0]; exact mul_le_mul_of_nonneg_right hmb h0
    have Aq' : |a * q| ≤ m * q := by rw [abs_mul, abs_of_nonneg q0]; exact mul_le_mul_of_nonneg_right hma q0
    have S := h.add_rel (h.f32 (a * q)) (h.f32 (b * p))
    obtain ⟨x, hx⟩ : ∃ x, rnd (a * q) = x := ⟨_, rfl⟩
    obtain ⟨y, hy⟩ : ∃ y, rnd (b * p) = y := ⟨_, rfl⟩
    rw [hx] at A S ⊢
    rw [hy] at B S ⊢
    have C : |a * q - a * (1 - p)| ≤ m / 2 ^ 25 := by
      rw [← mul_sub, abs_mul]
      calc |a| * |q - (1 - p)| ≤ m * (1 / 2 ^ 25) := mul_le_mul hma q2 (abs_nonneg _) m0
        _ = _ := by ring
    have A' : |x - a * q| ≤ m / 2 ^ 24 + 1 / 2 ^ 150 := by
      have : |a * q| / 2 ^ 24 ≤ m / 2 ^ 24 := div_le_div_of_nonneg_right Aq (by norm_num)
      linarith
    have Bm : |b * p| ≤ m := by nlinarith
    have B' : |y - b * p| ≤ m / 2 ^ 24 + 1 / 2 ^ 150 := by
      have : |b * p| / 2 ^ 24 ≤ m / 2 ^ 24 := div_le_div_of_nonneg_right Bm (by norm_num)
      linarith
    have V : |a * (1 - p) + b * p| ≤ m := by
      rw [abs_le]; constructor <;> nlinarith
    have T : |x + y - (a * (1 - p) + b * p)| ≤ 5 / 2 * m / 2 ^ 24 + 1 / 2 ^ 149 := by
      rw [abs_le] at A' B' C ⊢
      have : m / 2 ^ 25 = 1 / 2 * m / 2 ^ 24 := by ring
      have : (1 : ℚ) / 2 ^ 149 = 1 / 2 ^ 150 + 1 / 2 ^ 150 := by norm_num
      constructor <;> linarith [A'.1, A'.2, B'.1, B'.2, C.1, C.2]
    have U : |x + y| ≤ 2 * m + 1 := by
      have t := abs_add_le (x + y - (a * (1 - p) + b * p)) (a * (1 - p) + b * p)
      rw [sub_add_cancel] at t
      have : 5 / 2 * m / 2 ^ 24 ≤ m := by rw [div_le_iff₀ (by norm_num)]; nlinarith
      have : (1 : ℚ) / 2 ^ 149 ≤ 1 := by norm_num
      linarith
    have U2 : |x + y| ≤ 2 * m + 1 / 2 ^ 149 := by
      have t := abs_add_le (x + y - (a * (1 - p) + b * p)) (a * (1 - p) + b * p)
      rw [sub_add_cancel] at t
      have : 5 / 2 * m / 2 ^ 24 ≤ m := by rw [div_le_iff₀ (by norm_num)]; nlinarith
      linarith
    have U3 : |x + y| / 2 ^ 24 ≤ (2 * m + 1 / 2 ^ 149) / 2 ^ 24 := div_le_div_of_nonneg_right U2 (by norm_num)
    have t := abs_add_le (rnd (x + y) - (x + y)) (x + y - (a * (1 - p) + b * p))
    rw [show rnd (x + y) - (x + y) + (x + y - (a * (1 - p) + b * p)) = rnd (x + y) - (a * (1 - p) + b * p) by ring] at t
    have e1 : (2 * m + 1 / 2 ^ 149) / 2 ^ 24 = 2 * m / 2 ^ 24 + 1 / 2 ^ 173 := by ring
    have e2 : (1 : ℚ) / 2 ^ 173 + 1 / 2 ^ 149 ≤ 1 / 2 ^ 147 := by norm_num
    have e3 : 2 * m / 2 ^ 24 + 5 / 2 * m / 2 ^ 24 ≤ 6 * m / 2 ^ 24 := by
      rw [← add_div]; apply div_le_div_of_nonneg_right _ (by norm_num); linarith
    linarith
  · have D := h.sub_rel hb ha
    have D1 : |b - a| ≤ 2 * m := by rw [abs_le]; constructor <;> linarith
    have D2 : |b - a| / 2 ^ 24 ≤ 2 * m / 2 ^ 24 := div_le_div_of_nonneg_right D1 (by norm_num)
    obtain ⟨d, hd⟩ : ∃ d, rnd (b - a) = d := ⟨_, rfl⟩
    rw [hd] at D ⊢
    have P := h.rel (p * d)
    have d2 : |d| ≤ 3 * m := by
      have t := abs_add_le (d - (b - a)) (b - a)
      rw [sub_add_cancel] at t
      have : 2 * m / 2 ^ 24 ≤ m := by rw [div_le_iff₀ (by norm_num)]; nlinarith
      linarith
    have pd : |p * d| ≤ 3 * m := by rw [abs_mul, abs_of_nonneg h0]; nlinarith [abs_nonneg d]
    have pd2 : |p * d| / 2 ^ 24 ≤ 3 * m / 2 ^ 24 := div_le_div_of_nonneg_right pd (by norm_num)
    have C : |p * d - p * (b - a)| ≤ 2 * m / 2 ^ 24 := by
      rw [← mul_sub, abs_mul, abs_of_nonneg h0]
      have : p * |d - (b - a)| ≤ |d - (b - a)| := by nlinarith [abs_nonneg (d - (b - a))]
      linarith
    have S := h.add_rel ha (h.f32 (p * d))
    obtain ⟨x, hx⟩ : ∃ x, rnd (p * d) = x := ⟨_, rfl⟩
    rw [hx] at P S ⊢
    have V : |a * (1 - p) + b * p| ≤ m := by
      rw [abs_le]; constructor <;> nlinarith
    have T : |a + x - (a * (1 - p) + b * p)| ≤ 5 * m / 2 ^ 24 + 1 / 2 ^ 150 := by
      rw [show a + x - (a * (1 - p) + b * p) = (x - p * d) + (p * d - p * (b - a)) by ring]
      have t := abs_add_le (x - p * d) (p * d - p * (b - a))
      have : 5 * m / 2 ^ 24 = 3 * m / 2 ^ 24 + 2 * m / 2 ^ 24 := by ring
      linarith
    have U : |a + x| ≤ 2 * m + 1 / 2 ^ 150 := by
      have t := abs_add_le (a + x - (a * (1 - p) + b * p)) (a * (1 - p) + b * p)
      rw [sub_add_cancel] at t
      have : 5 * m / 2 ^ 24 ≤ m := by rw [div_le_iff₀ (by norm_num)]; nlinarith
      linarith
    have U3 : |a + x| / 2 ^ 24 ≤ (2 * m + 1 / 2 ^ 150) / 2 ^ 24 := div_le_div_of_nonneg_right U (by norm_num)
    have t := abs_add_le (rnd (a + x) - (a + x)) (a + x - (a * (1 - p) + b * p))
    rw [show rnd (a + x) - (a + x) + (a + x - (a * (1 - p) + b * p)) = rnd (a + x) - (a * (1 - p) + b * p) by ring] at t
    have e1 : (2 * m + 1 / 2 ^ 150) / 2 ^ 24 = 2 * m / 2 ^ 24 + 1 / 2 ^ 174 := by ring
    have e2 : (1 : ℚ) / 2 ^ 174 + 1 / 2 ^ 150 ≤ 1 / 2 ^ 147 := by norm_num
    have e3 : 2 * m / 2 ^ 24 + 5 * m / 2 ^ 24 ≤ 10 * m / 2 ^ 24 := by
      rw [← add_div]; apply div_le_div_of_nonneg_right _ (by norm_num); linarith
    linarith

example (rnd : ℚ → ℚ) (h : Nearest rnd) := C153_agree_partial rnd h 1 0 (1 / 3) 1 f32_one f32_zero (by norm_num) (by norm_num) (by norm_num) (by norm_num)

/-- **C153 violated**: interpolate(3.f, 3.f, 0.04f) is not 3, so interpolate leaves the range of its arguments and differs from interpolate3, which gives 3. -/
theorem C153_interpolate_violated (rnd : ℚ → ℚ) (h : Nearest rnd) : F32 (5368709 / 134217728) ∧ interpolate rnd 3 3 (5368709 / 134217728) = 3 - 1 / 4194304 ∧ interpolate3 rnd 3 3 (5368709 / 134217728) = 3 := by
  have h3 : F32 3 := ⟨3, 0, by norm_num, by norm_num, by norm_num⟩
  refine ⟨⟨5368709, -27, by norm_num, by norm_num, by norm_num⟩, ?_, ?_⟩
  · unfold interpolate
    have e1 : rnd (1 - 5368709 / 134217728) = 16106127 / 16777216 := by
      rw [h.eq_of_close _ 16106127 (-24) (by norm_num) (by norm_num) (by norm_num [abs_of_nonneg]) (by norm_num [abs_of_nonneg, abs_of_neg])]; norm_num
    have e2 : rnd (3 * (16106127 / 16777216)) = 12079595 / 4194304 := by
      rw [h.eq_of_close _ 12079595 (-22) (by norm_num) (by norm_num) (by norm_num [abs_of_nonneg]) (by norm_num [abs_of_nonneg, abs_of_neg])]; norm_num
    have e3 : rnd (3 * (5368709 / 134217728)) = 16106127 / 134217728 := by
      rw [h.eq_of_close _ 16106127 (-27) (by norm_num) (by norm_num) (by norm_num [abs_of_nonneg]) (by norm_num [abs_of_nonneg, abs_of_neg])]; norm_num
    rw [e1, e2, e3, h.eq_of_close _ 12582911 (-22) (by norm_num) (by norm_num) (by norm_num [abs_of_nonneg]) (by norm_num [abs_of_nonneg, abs_of_neg])]; norm_num
  · unfold interpolate3
    rw [sub_self, h.zero, mul_zero, h.zero, add_zero, h.fix h3]

/-- **C153** (partial): randomNumber<float> never falls below the minimum, never decreases in what rand() returns, and where RAND_MAX is 2^31 - 1 is at most `min + (max - min)` in float arithmetic, so at most the maximum when min = 0. -/
theorem C153_random_partial (rnd : ℚ → ℚ) (h : Nearest rnd) (randMax r s : Nat) (hr : 0 < randMax) (hrs : r ≤ s) (hs : s ≤ randMax) (lo hi : ℚ) (hl : F32 lo) (hlh : lo ≤ hi) :
    lo ≤ randomFloat rnd randMax r lo hi ∧ randomFloat rnd randMax r lo hi ≤ randomFloat rnd randMax s lo hi ∧ (randMax = 2147483647 → randomFloat rnd randMax r lo hi ≤ rnd (lo + rnd (hi - lo))) ∧
      (randMax = 2147483647 → F32 hi → lo = 0 → randomFloat rnd randMax r lo hi ≤ hi) := by
  have w0 : 0 ≤ rnd (hi - lo) := h.ge f32_zero (by linarith)
  have m0 : 0 < rnd randMax := by
    have : (1 : ℚ) ≤ rnd randMax := h.ge f32_one (by exact_mod_cast hr)
    linarith
  have r0 : 0 ≤ rnd r := h.ge f32_zero (Nat.cast_nonneg r)
  have rs : rnd r ≤ rnd s := h.mono (by exact_mod_cast hrs)
  have sm : rnd s ≤ rnd randMax := h.mono (by exact_mod_cast hs)
  have mono : randomFloat rnd randMax r lo hi ≤ randomFloat rnd randMax s lo hi := by
    unfold randomFloat
    apply h.mono
    have : rnd (rnd (rnd r * rnd (hi - lo)) / rnd randMax) ≤ rnd (rnd (rnd s * rnd (hi - lo)) / rnd randMax) := by
      apply h.mono
      apply div_le_div_of_nonneg_right _ m0.le
      apply h.mono
      exact mul_le_mul_of_nonneg_right rs w0
    linarith
  have upper : randMax = 2147483647 → randomFloat rnd randMax r lo hi ≤ rnd (lo + rnd (hi - lo)) := by
    intro hM
    have hM2 : rnd randMax = 2 ^ 31 := by
      rw [hM]
      push_cast
      rw [h.eq_of_close _ 16777216 7 (by norm_num) (by norm_num) (by norm_num [abs_of_nonneg]) (by norm_num [abs_of_nonneg, abs_of_neg])]; norm_num
    unfold randomFloat
    apply h.mono
    rw [add_comm]
    have : rnd (rnd (rnd r * rnd (hi - lo)) / rnd randMax) ≤ rnd (hi - lo) := by
      apply h.le (h.f32 _)
      rw [div_le_iff₀ m0, hM2]
      apply h.le (f32_scale (h.f32 _) 31)
      rw [← hM2, mul_comm]
      exact mul_le_mul_of_nonneg_left (le_trans rs sm) w0
    linarith
  refine ⟨?_, mono, upper, ?_⟩
  · unfold randomFloat
    apply h.ge hl
    have : 0 ≤ rnd (rnd (rnd r * rnd (hi - lo)) / rnd randMax) := h.ge f32_zero (div_nonneg (h.ge f32_zero (mul_nonneg r0 w0)) m0.le)
    linarith
  · intro hM hF hl0
    have := upper hM
    subst hl0
    rwa [zero_add, sub_zero, h.fix hF, h.fix hF] at this

example (rnd : ℚ → ℚ) (h : Nearest rnd) := C153_random_partial rnd h 2147483647 5 1000 (by norm_num) (by norm_num) (by norm_num) 0 (1 / 3) f32_zero (by norm_num)

/-- **C153 violated**: with RAND_MAX = 2^31 - 1 the largest random number between -1 and 1.5 / 2^24 is 2 / 2^24. -/
theorem C153_random_violated (rnd : ℚ → ℚ) (h : Nearest rnd) : randomFloat rnd 2147483647 2147483647 (-1) (3 / 2 ^ 25) = 4 / 2 ^ 25 := by
  unfold randomFloat
  have e1 : rnd (3 / 2 ^ 25 - -1) = 1 + 1 / 2 ^ 23 := by
    rw [h.eq_of_close _ 8388609 (-23) (by norm_num) (by norm_num) (by norm_num [abs_of_nonneg]) (by norm_num [abs_of_nonneg, abs_of_neg])]; norm_num
  have hM2 : rnd ((2147483647 : ℕ) : ℚ) = 2 ^ 31 := by
    push_cast
    rw [h.eq_of_close _ 16777216 7 (by norm_num) (by norm_num) (by norm_num [abs_of_nonneg]) (by norm_num [abs_of_nonneg, abs_of_neg])]; norm_num
  have e2 : rnd (2 ^ 31 * rnd (3 / 2 ^ 25 - -1)) = rnd (3 / 2 ^ 25 - -1) * 2 ^ 31 := by
    rw [mul_comm]; exact h.fix (f32_scale (h.f32 _) 31)
  rw [hM2, e2, mul_div_assoc, div_self (by norm_num), mul_one, h.fix (h.f32 _), e1, h.fix ⟨1, -23, by norm_num, by norm_num, by norm_num⟩]
  norm_num

/-! ## faster_sine -/

theorem half_down {x : ℚ} (hx : F32 x) (h0 : 1 / 4 ≤ x) (h1 : x ≤ 1) : F32 (x - 1 / 4) := by
  rcases le_or_gt (1 / 2) x with hc | hc
  · obtain ⟨n, hn⟩ := f32_multiple hx (-24) (by rw [abs_of_nonneg (by linarith)]; norm_num; linarith)
    have e : (2 : ℚ) ^ (-24 : ℤ) = 1 / 2 ^ 24 := by norm_num
    rw [e] at hn
    have n1 : (n : ℚ) ≤ 2 ^ 24 := by norm_num at hn ⊢; linarith
    have n0 : (2 ^ 23 : ℚ) ≤ n := by norm_num at hn ⊢; linarith
    have n1' : n ≤ 2 ^ 24 := by exact_mod_cast n1
    have n0' : 2 ^ 23 ≤ n := by exact_mod_cast n0
    refine ⟨n - 2 ^ 22, -24, by rw [abs_of_nonneg (by omega)]; omega, by norm_num, ?_⟩
    rw [hn, e]; push_cast; ring
  · obtain ⟨n, hn⟩ := f32_multiple hx (-25) (by rw [abs_of_nonneg (by linarith)]; norm_num; linarith)
    have e : (2 : ℚ) ^ (-25 : ℤ) = 1 / 2 ^ 25 := by norm_num
    rw [e] at hn
    have n1 : (n : ℚ) ≤ 2 ^ 24 := by norm_num at hn ⊢; linarith
    have n0 : (2 ^ 23 : ℚ) ≤ n := by norm_num at hn h0 ⊢; linarith
    have n1' : n ≤ 2 ^ 24 := by exact_mod_cast n1
    have n0' : 2 ^ 23 ≤ n := by exact_mod_cast n0
    refine ⟨n - 2 ^ 23, -25, by rw [abs_of_nonneg (by omega)]; omega, by norm_num, ?_⟩
    rw [hn, e]; push_cast; ring

/-- The parabola for a non-negative float up to 1. -/
theorem parabola (rnd : ℚ → ℚ) (h : Nearest rnd) (y : ℚ) (hy : F32 y) (h0 : 0 ≤ y) (h1 : y ≤ 1) :
    0 ≤ rnd (y - rnd (y * y)) ∧ rnd (y - rnd (y * y)) ≤ 1 / 4 ∧ |rnd (y - rnd (y * y)) - (y - y * y)| ≤ 5 / 2 ^ 27 := by
  have yy : y * y ≤ y := by nlinarith
  have q1 : rnd (y * y) ≤ y := h.le hy yy
  have f4 : F32 (1 / 4) := ⟨1, -2, by norm_num, by norm_num, by norm_num⟩
  have q0 : 0 ≤ rnd (y * y) := h.ge f32_zero (by positivity)
  have up : y - rnd (y * y) ≤ 1 / 4 := by
    rcases le_or_gt (1 / 4) y with hc | hc
    · have : y - 1 / 4 ≤ rnd (y * y) := h.ge (half_down hy hc h1) (by nlinarith [sq_nonneg (y - 1 / 2)])
      linarith
    · linarith
  refine ⟨h.ge f32_zero (by linarith), h.le f4 up, ?_⟩
  have e1 := h.grid (y * y) (-24) (by norm_num) (by rw [abs_of_nonneg (by positivity)]; norm_num; linarith)
  have e2 := h.grid (y - rnd (y * y)) (-26) (by norm_num) (by rw [abs_of_nonneg (by linarith)]; norm_num; linarith)
  have n1 : (2 : ℚ) ^ (-24 : ℤ) / 2 = 4 / 2 ^ 27 := by norm_num
  have n2 : (2 : ℚ) ^ (-26 : ℤ) / 2 = 1 / 2 ^ 27 := by norm_num
  rw [n1] at e1
  rw [n2] at e2
  rw [abs_le] at e1 e2 ⊢
  constructor <;> linarith [e1.1, e1.2, e2.1, e2.2]

/-- **C154**: for every float from 0 to 1 faster_sine is in [-1, 1], exact at the five documented points, not positive on the first half, not negative on the second, and within 3 / 2^23 of the exact parabola. -/
theorem C154_faster_sine (rnd : ℚ → ℚ) (h : Nearest rnd) (x : ℚ) (hx : F32 x) (h0 : 0 ≤ x) (h1 : x ≤ 1) :
    -1 ≤ fasterSine rnd x ∧ fasterSine rnd x ≤ 1 ∧ (x ≤ 1 / 2 → fasterSine rnd x ≤ 0) ∧ (1 / 2 ≤ x → 0 ≤ fasterSine rnd x) ∧ |fasterSine rnd x - RatMath.fasterSine x| ≤ 3 / 2 ^ 23 ∧
      fasterSine rnd 0 = 0 ∧ fasterSine rnd (1 / 4) = -1 ∧ fasterSine rnd (1 / 2) = 0 ∧ fasterSine rnd (3 / 4) = 1 ∧ fasterSine rnd 1 = 0 := by
  have fx : ∀ (m : ℤ) (k : ℕ), |m| < 2 ^ 24 → k ≤ 149 → rnd (m / 2 ^ k) = m / 2 ^ k := fun m k hm hk => h.fix (f32_div m hm k hk)
  have c0 := h.zero
  have c1 : rnd 1 = 1 := h.fix f32_one
  have c2 : rnd 2 = 2 := by have := fx 2 0 (by norm_num) (by norm_num); norm_num at this; exact this
  have cm1 : rnd (-1) = -1 := h.fix (f32_neg f32_one)
  have ch : rnd (1 / 2) = 1 / 2 := by have := fx 1 1 (by norm_num) (by norm_num); norm_num at this ⊢; exact this
  have cmh : rnd (-(1 / 2)) = -(1 / 2) := by have := fx (-1) 1 (by norm_num) (by norm_num); norm_num at this ⊢; exact this
  have cq : rnd (1 / 4) = 1 / 4 := by have := fx 1 2 (by norm_num) (by norm_num); norm_num at this ⊢; exact this
  have cmq : rnd (-(1 / 4)) = -(1 / 4) := by have := fx (-1) 2 (by norm_num) (by norm_num); norm_num at this ⊢; exact this
  have c32 : rnd (3 / 2) = 3 / 2 := by have := fx 3 1 (by norm_num) (by norm_num); norm_num at this ⊢; exact this
  have hx2 : rnd (x * 2) = x * 2 := by have := f32_scale hx 1; rw [pow_one] at this; exact h.fix this
  have gen : -1 ≤ fasterSine rnd x ∧ fasterSine rnd x ≤ 1 ∧ (x ≤ 1 / 2 → fasterSine rnd x ≤ 0) ∧ (1 / 2 ≤ x → 0 ≤ fasterSine rnd x) ∧ |fasterSine rnd x - RatMath.fasterSine x| ≤ 3 / 2 ^ 23 := by
    unfold fasterSine RatMath.fasterSine
    simp only
    rw [hx2]
    have y0 : -1 ≤ rnd (x * 2 - 1) := h.ge (f32_neg f32_one) (by linarith)
    have y1 : rnd (x * 2 - 1) ≤ 1 := h.le f32_one (by linarith)
    have ye := h.grid (x * 2 - 1) (-24) (by norm_num) (by rw [abs_le]; norm_num; constructor <;> linarith)
    have n1 : (2 : ℚ) ^ (-24 : ℤ) / 2 = 1 / 2 ^ 25 := by norm_num
    rw [n1] at ye
    have yF := h.f32 (x * 2 - 1)
    have ys1 : x ≤ 1 / 2 → rnd (x * 2 - 1) ≤ 0 := fun hc => h.le f32_zero (by linarith)
    have ys2 : 1 / 2 ≤ x → 0 ≤ rnd (x * 2 - 1) := fun hc => h.ge f32_zero (by linarith)
    obtain ⟨z, hz⟩ : ∃ z, x * 2 - 1 = z := ⟨_, rfl⟩
    have z0 : -1 ≤ z := by linarith
    have z1 : z ≤ 1 := by linarith
    rw [hz] at y0 y1 ye yF ys1 ys2 ⊢
    obtain ⟨y, hy⟩ : ∃ y, rnd z = y := ⟨_, rfl⟩
    rw [hy] at y0 y1 ye yF ys1 ys2 ⊢
    have lip : |(y - y * |y|) - (z - z * |z|)| ≤ |y - z| := by
      rcases le_total 0 y with hy0 | hy0 <;> rcases le_total 0 z with hz0 | hz0
      · rw [abs_of_nonneg hy0, abs_of_nonneg hz0, show y - y * y - (z - z * z) = (y - z) * (1 - y - z) by ring, abs_mul]
        have : |1 - y - z| ≤ 1 := by rw [abs_le]; constructor <;> linarith
        nlinarith [abs_nonneg (y - z)]
      · rw [abs_of_nonneg hy0, abs_of_nonpos hz0, abs_of_nonneg (show 0 ≤ y - z by linarith), abs_le]
        constructor <;> nlinarith
      · rw [abs_of_nonpos hy0, abs_of_nonneg hz0, abs_of_nonpos (show y - z ≤ 0 by linarith), abs_le]
        constructor <;> nlinarith
      · rw [abs_of_nonpos hy0, abs_of_nonpos hz0, show y - y * -y - (z - z * -z) = (y - z) * (1 + y + z) by ring, abs_mul]
        have : |1 + y + z| ≤ 1 := by rw [abs_le]; constructor <;> linarith
        nlinarith [abs_nonneg (y - z)]
    have sc : ∀ u, rnd (4 * rnd u) = 4 * rnd u := by
      intro u
      have := f32_scale (h.f32 u) 2
      rw [mul_comm] at this
      norm_num at this
      exact h.fix this
    rw [sc, RatMath.fAbs_nonneg, RatMath.fAbs_nonneg]
    have fin : ∀ r : ℚ, |r - (y - y * |y|)| ≤ 5 / 2 ^ 27 → |4 * r - 4 * (z - z * |z|)| ≤ 3 / 2 ^ 23 := by
      intro r hr
      have t := abs_sub_le r (y - y * |y|) (z - z * |z|)
      rw [← mul_sub, abs_mul, abs_of_pos (by norm_num : (0 : ℚ) < 4)]
      have : |r - (z - z * |z|)| ≤ 5 / 2 ^ 27 + 1 / 2 ^ 25 := by linarith
      norm_num at this ⊢
      linarith
    rcases le_total 0 y with hy0 | hy0
    · rw [abs_of_nonneg hy0] at fin ⊢
      obtain ⟨p1, p2, p3⟩ := parabola rnd h y yF hy0 y1
      refine ⟨by linarith, by linarith, fun hc => ?_, fun _ => by linarith, fin _ p3⟩
      have : y = 0 := le_antisymm (ys1 hc) hy0
      rw [this]; simp [h.zero]
    · rw [abs_of_nonpos hy0] at fin ⊢
      obtain ⟨p1, p2, p3⟩ := parabola _ h.neg (-y) (f32_neg yF) (by linarith) (by linarith)
      have e : -rnd (-(-y - -rnd (-(-y * -y)))) = -rnd (y - rnd (y * -y)) := by
        congr 2
        rw [show -(-y * -y) = y * -y by ring]; ring
      rw [e] at p1 p2 p3
      refine ⟨by linarith, by linarith, fun _ => by linarith, fun hc => ?_, fin _ ?_⟩
      · have : y = 0 := le_antisymm hy0 (ys2 hc)
        rw [this]; simp [h.zero]
      · rw [← abs_neg, show -(rnd (y - rnd (y * -y)) - (y - y * -y)) = -rnd (y - rnd (y * -y)) - (-y - -y * -y) by ring]
        exact p3
  refine ⟨gen.1, gen.2.1, gen.2.2.1, gen.2.2.2.1, gen.2.2.2.2, ?_, ?_, ?_, ?_, ?_⟩
  · unfold fasterSine RatMath.fAbs
    norm_num [c0, c1, cm1]
  · unfold fasterSine RatMath.fAbs
    norm_num [c0, c1, cm1, ch, cmh, cq, cmq]
  · unfold fasterSine RatMath.fAbs
    norm_num [c0, c1]
  · unfold fasterSine RatMath.fAbs
    norm_num [c0, c1, c32, ch, cq]
  · unfold fasterSine RatMath.fAbs
    norm_num [c0, c1, c2]

/-! ## Hysteresis -/

/-- **C155**: hysteresis_gate returns 0 or 1; from 0 it turns on exactly when the input exceeds the float nearest the middle of the thresholds (up to halving a subnormal number); a larger input never gives a smaller output;
and with the on threshold not below the off threshold, an input that turns the gate on also keeps it on. -/
theorem C155_gate (rnd : ℚ → ℚ) (h : Nearest rnd) (off on last x y : ℚ) (hx : F32 x) (hoo : off ≤ on) (hxy : x ≤ y) :
    (hysteresisGate rnd off on last x = 0 ∨ hysteresisGate rnd off on last x = 1) ∧
    (hysteresisGate rnd off on 0 x = 1 ↔ rnd (rnd (on + off) * (1 / 2)) < x) ∧
    hysteresisGate rnd off on last x ≤ hysteresisGate rnd off on last y ∧ hysteresisGate rnd off on 0 x ≤ hysteresisGate rnd off on 1 x := by
  unfold hysteresisGate
  simp only [mul_zero, mul_one, h.zero, add_zero, h.fix hx]
  have a0 : 0 ≤ rnd (rnd (on - off) * (1 / 2)) := h.ge f32_zero (mul_nonneg (h.ge f32_zero (by linarith)) (by norm_num))
  refine ⟨?_, ?_, ?_, ?_⟩
  · split
    · exact Or.inr rfl
    · exact Or.inl rfl
  · split
    · rename_i hc
      exact ⟨fun _ => hc, fun _ => rfl⟩
    · rename_i hc
      exact ⟨fun he => absurd he (by norm_num), fun hl => absurd hl hc⟩
  · have : rnd (x + rnd (rnd (rnd (on - off) * (1 / 2)) * last)) ≤ rnd (y + rnd (rnd (rnd (on - off) * (1 / 2)) * last)) := h.mono (by linarith)
    split <;> split <;> first | (exfalso; linarith) | norm_num
  · have : x ≤ rnd (x + rnd (rnd (rnd (on - off) * (1 / 2)))) := by
      apply h.ge hx
      have := h.fix (h.f32 (rnd (on - off) * (1 / 2)))
      rw [this]; linarith
    split <;> split <;> first | (exfalso; linarith) | norm_num

/-- **C155**: for thresholds and inputs in [0, 1] an open gate opens above the middle of the thresholds and a closed one closes below the off threshold, up to 2^-22. -/
theorem C155_thresholds (rnd : ℚ → ℚ) (h : Nearest rnd) (off on x : ℚ) (h0 : 0 ≤ off) (hoo : off ≤ on) (h1 : on ≤ 1) (hx : F32 x) (hx0 : 0 ≤ x) (hx1 : x ≤ 1) :
    ((on + off) / 2 + 1 / 2 ^ 22 < x → hysteresisGate rnd off on 0 x = 1) ∧ (x < (on + off) / 2 - 1 / 2 ^ 22 → hysteresisGate rnd off on 0 x = 0) ∧
    (off + 1 / 2 ^ 22 < x → hysteresisGate rnd off on 1 x = 1) ∧ (x < off - 1 / 2 ^ 22 → hysteresisGate rnd off on 1 x = 0) := by
  have n23 : (2 : ℚ) ^ (-23 : ℤ) / 2 = 1 / 2 ^ 24 := by norm_num
  have n24 : (2 : ℚ) ^ (-24 : ℤ) / 2 = 1 / 2 ^ 25 := by norm_num
  have s1 := h.grid (on + off) (-23) (by norm_num) (by rw [abs_of_nonneg (by linarith)]; norm_num; linarith)
  have s0 : 0 ≤ rnd (on + off) := h.ge f32_zero (by linarith)
  have s2 : rnd (on + off) ≤ 2 := h.le ⟨2, 0, by norm_num, by norm_num, by norm_num⟩ (by linarith)
  have t1 := h.grid (rnd (on + off) * (1 / 2)) (-24) (by norm_num) (by rw [abs_of_nonneg (by linarith)]; norm_num; linarith)
  have d1 := h.grid (on - off) (-24) (by norm_num) (by rw [abs_of_nonneg (by linarith)]; norm_num; linarith)
  have d0 : 0 ≤ rnd (on - off) := h.ge f32_zero (by linarith)
  have d2 : rnd (on - off) ≤ 1 := h.le f32_one (by linarith)
  have a1 := h.grid (rnd (on - off) * (1 / 2)) (-24) (by norm_num) (by rw [abs_of_nonneg (by linarith)]; norm_num; linarith)
  have a0 : 0 ≤ rnd (rnd (on - off) * (1 / 2)) := h.ge f32_zero (by linarith)
  have a2 : rnd (rnd (on - off) * (1 / 2)) ≤ 1 := h.le f32_one (by linarith)
  have ff := h.fix (h.f32 (rnd (on - off) * (1 / 2)))
  unfold hysteresisGate
  simp only [mul_zero, mul_one, h.zero, add_zero, h.fix hx, ff]
  obtain ⟨T, hT⟩ : ∃ T, rnd (rnd (on + off) * (1 / 2)) = T := ⟨_, rfl⟩
  obtain ⟨A, hA⟩ : ∃ A, rnd (rnd (on - off) * (1 / 2)) = A := ⟨_, rfl⟩
  rw [hT] at t1 ⊢
  rw [hA] at a1 a0 a2 ⊢
  have e1 := h.grid (x + A) (-23) (by norm_num) (by rw [abs_of_nonneg (by linarith)]; norm_num; linarith)
  rw [n23] at s1 e1
  rw [n24] at t1 d1 a1
  rw [abs_le] at s1 t1 d1 a1 e1
  have m1 : (1 : ℚ) / 2 ^ 24 = 1 / 16777216 := by norm_num
  have m2 : (1 : ℚ) / 2 ^ 25 = 1 / 33554432 := by norm_num
  have m3 : (1 : ℚ) / 2 ^ 22 = 1 / 4194304 := by norm_num
  rw [m1] at s1 e1
  rw [m2] at t1 d1 a1
  rw [m3]
  refine ⟨fun hc => if_pos ?_, fun hc => if_neg ?_, fun hc => if_pos ?_, fun hc => if_neg ?_⟩
  · rw [gt_iff_lt]; linarith [s1.1, s1.2, t1.1, t1.2]
  · rw [gt_iff_lt, not_lt]; linarith [s1.1, s1.2, t1.1, t1.2]
  · rw [gt_iff_lt]; linarith [s1.1, s1.2, t1.1, t1.2, d1.1, d1.2, a1.1, a1.2, e1.1, e1.2]
  · rw [gt_iff_lt, not_lt]; linarith [s1.1, s1.2, t1.1, t1.2, d1.1, d1.2, a1.1, a1.2, e1.1, e1.2]

/-- Thresholds 0.25 and 0.75, input 0.5625: turns the gate on. -/
example : (0 : ℚ) ≤ 1 / 4 ∧ (1 / 4 : ℚ) ≤ 3 / 4 ∧ F32 (9 / 16) ∧ ((3 / 4 : ℚ) + 1 / 4) / 2 + 1 / 2 ^ 22 < 9 / 16 := ⟨by norm_num, by norm_num, ⟨9, -4, by norm_num, by norm_num, by norm_num⟩, by norm_num⟩

/-- **C155**: a signal that stays above the off threshold and below the middle of the thresholds (by 2^-22) never changes the gate, however it wobbles. -/
theorem C155_no_chatter (rnd : ℚ → ℚ) (h : Nearest rnd) (off on last : ℚ) (h0 : 0 ≤ off) (hoo : off ≤ on) (h1 : on ≤ 1) (hl : last = 0 ∨ last = 1) (xs : List ℚ)
    (hxs : ∀ x ∈ xs, F32 x ∧ x ≤ 1 ∧ off + 1 / 2 ^ 22 < x ∧ x < (on + off) / 2 - 1 / 2 ^ 22) : xs.foldl (hysteresisGate rnd off on) last = last := by
  induction xs with
  | nil => rfl
  | cons x xs ih =>
    obtain ⟨hF, hx1, ha, hb⟩ := hxs x (List.mem_cons_self)
    have t0 : (0 : ℚ) < 1 / 2 ^ 22 := by norm_num
    obtain ⟨_, t2, t3, _⟩ := C155_thresholds rnd h off on x h0 hoo h1 hF (by linarith) hx1
    rw [List.foldl_cons]
    have : hysteresisGate rnd off on last x = last := by
      rcases hl with rfl | rfl
      · exact t2 hb
      · exact t3 ha
    rw [this]
    exact ih (fun y hy => hxs y (List.mem_cons_of_mem _ hy))

example (rnd : ℚ → ℚ) (h : Nearest rnd) := C155_no_chatter rnd h 0 1 1 (by norm_num) (by norm_num) (by norm_num) (.inr rfl) [1 / 4, 3 / 8] (by
  intro x hx
  simp at hx
  rcases hx with rfl | rfl
  · refine ⟨?_, by norm_num, by norm_num, by norm_num⟩
    have := f32_div 1 (by norm_num) 2 (by norm_num); norm_num at this ⊢; exact this
  · refine ⟨?_, by norm_num, by norm_num, by norm_num⟩
    have := f32_div 3 (by norm_num) 3 (by norm_num); norm_num at this ⊢; exact this)

/-- **C155**: hysteresis_feedback returns 0 or 1; from 0 it turns on exactly above the threshold; it stays on only if the input plus the coefficient exceeds the threshold, and does so if it exceeds it by 2^-24; it is monotone. -/
theorem C155_feedback (rnd : ℚ → ℚ) (h : Nearest rnd) (coef thresh last x y : ℚ) (hc : F32 coef) (hc0 : 0 ≤ coef) (hc1 : coef ≤ 1) (ht : F32 thresh) (hx : F32 x) (hx0 : 0 ≤ x) (hx1 : x ≤ 1) (hxy : x ≤ y) :
    (hysteresisFeedback rnd coef thresh last x = 0 ∨ hysteresisFeedback rnd coef thresh last x = 1) ∧ (hysteresisFeedback rnd coef thresh 0 x = 1 ↔ thresh < x) ∧
    (hysteresisFeedback rnd coef thresh 1 x = 1 → thresh < x + coef) ∧ (thresh + 1 / 2 ^ 24 < x + coef → hysteresisFeedback rnd coef thresh 1 x = 1) ∧
    hysteresisFeedback rnd coef thresh last x ≤ hysteresisFeedback rnd coef thresh last y ∧ hysteresisFeedback rnd coef thresh 0 x ≤ hysteresisFeedback rnd coef thresh 1 x := by
  unfold hysteresisFeedback
  simp only [zero_mul, one_mul, h.zero, add_zero, h.fix hx, h.fix hc]
  have g := h.grid (x + coef) (-23) (by norm_num) (by rw [abs_of_nonneg (by linarith)]; norm_num; linarith)
  have n23 : (2 : ℚ) ^ (-23 : ℤ) / 2 = 1 / 2 ^ 24 := by norm_num
  rw [n23] at g
  refine ⟨?_, ?_, ?_, ?_, ?_, ?_⟩
  · split
    · exact Or.inr rfl
    · exact Or.inl rfl
  · split
    · rename_i hh
      exact ⟨fun _ => hh, fun _ => rfl⟩
    · rename_i hh
      exact ⟨fun he => absurd he (by norm_num), fun hl => absurd hl hh⟩
  · split
    · rename_i hh
      intro _
      by_contra hn
      exact absurd (h.le ht (not_lt.mp hn)) (not_le.mpr hh)
    · intro he
      exact absurd he (by norm_num)
  · intro hh
    rw [if_pos]
    rw [gt_iff_lt]; linarith [(abs_le.mp g).1]
  · have : rnd (x + rnd (last * coef)) ≤ rnd (y + rnd (last * coef)) := h.mono (by linarith)
    split <;> split <;> first | (exfalso; linarith) | norm_num
  · have : x ≤ rnd (x + coef) := h.ge hx (by linarith)
    split <;> split <;> first | (exfalso; linarith) | norm_num

example (rnd : ℚ → ℚ) (h : Nearest rnd) := C155_feedback rnd h 1 0 1 (1 / 2) 1 f32_one (by norm_num) (by norm_num) f32_zero (by have := f32_div 1 (by norm_num) 1 (by norm_num); norm_num at this ⊢; exact this) (by norm_num) (by norm_num) (by norm_num)

/-! ## The signal analyser -/

theorem update_eq (rnd : ℚ → ℚ) (s : Analyzed) (v : ℚ) : update rnd s v = ⟨Min.min s.min v, Max.max s.max v, rnd (s.iir + rnd (s.coef * rnd (v - s.iir))), rnd (s.iir + rnd (s.coef * rnd (v - s.iir))), s.coef⟩ := by
  unfold update
  by_cases h1 : v < s.min <;> by_cases h2 : v > s.max <;> simp only [h1, h2, if_true, if_false]
  · rw [min_eq_right h1.le, max_eq_right h2.le]
  · rw [min_eq_right h1.le, max_eq_left (not_lt.mp h2)]
  · rw [min_eq_left (not_lt.mp h1), max_eq_right h2.le]
  · rw [min_eq_left (not_lt.mp h1), max_eq_left (not_lt.mp h2)]

/-- One update moves the average to a point between the old average and the sample. -/
theorem step_between (rnd : ℚ → ℚ) (h : Nearest rnd) (s v c : ℚ) (hs : F32 s) (hv : F32 v) (hc : F32 c) (h0 : 0 ≤ c) (h1 : c < 1) : Between s v (rnd (s + rnd (c * rnd (v - s)))) := (C153_interpolate3 rnd h s v c hs hv hc h0 h1).1

/-- **C156**: after reset_to(v), with a float coefficient in [0, 1), the average is always between min and max, whatever the samples; rounding never carries it outside. -/
theorem C156_avg_within (rnd : ℚ → ℚ) (h : Nearest rnd) (s : Analyzed) (hc : F32 s.coef) (h0 : 0 ≤ s.coef) (h1 : s.coef < 1) (v : ℚ) (hv : F32 v) (xs : List ℚ) (hxs : ∀ x ∈ xs, F32 x) (t : Analyzed) (ht : t = xs.foldl (update rnd) (s.resetTo v)) :
    t.min ≤ t.avg ∧ t.avg ≤ t.max ∧ (∀ x ∈ v :: xs, t.min ≤ x ∧ x ≤ t.max) ∧ t.min ∈ v :: xs ∧ t.max ∈ v :: xs := by
  have key : ∀ (xs : List ℚ) (s : Analyzed) (seen : List ℚ), (∀ x ∈ xs, F32 x) → F32 s.coef → 0 ≤ s.coef → s.coef < 1 → F32 s.iir → s.avg = s.iir → s.min ≤ s.iir → s.iir ≤ s.max → (∀ x ∈ seen, s.min ≤ x ∧ x ≤ s.max) → s.min ∈ seen → s.max ∈ seen →
      ∃ t, t = xs.foldl (update rnd) s ∧ t.min ≤ t.avg ∧ t.avg ≤ t.max ∧ (∀ x ∈ seen ++ xs, t.min ≤ x ∧ x ≤ t.max) ∧ t.min ∈ seen ++ xs ∧ t.max ∈ seen ++ xs := by
    intro xs
    induction xs with
    | nil => intro s seen _ _ _ _ _ e a b c d f; exact ⟨s, rfl, by rw [e]; exact a, by rw [e]; exact b, by simpa using c, by simpa using d, by simpa using f⟩
    | cons x xs ih =>
      intro s seen hF c0 c1 c2 hi e a b c d f
      have hx := hF x List.mem_cons_self
      have bt := step_between rnd h s.iir x s.coef hi hx c0 c1 c2
      obtain ⟨i', hi'⟩ : ∃ i', rnd (s.iir + rnd (s.coef * rnd (x - s.iir))) = i' := ⟨_, rfl⟩
      have hiF : F32 i' := by rw [← hi']; exact h.f32 _
      rw [hi'] at bt
      rw [List.foldl_cons, update_eq, hi']
      have := ih ⟨Min.min s.min x, Max.max s.max x, i', i', s.coef⟩ (seen ++ [x]) (fun y hy => hF y (List.mem_cons_of_mem _ hy)) c0 c1 c2 hiF rfl
        (by show Min.min s.min x ≤ i'
            rcases bt with ⟨p, q⟩ | ⟨p, q⟩
            · exact le_trans (min_le_left _ _) (le_trans a p)
            · exact le_trans (min_le_right _ _) p)
        (by show i' ≤ Max.max s.max x
            rcases bt with ⟨p, q⟩ | ⟨p, q⟩
            · exact le_trans q (le_max_right _ _)
            · exact le_trans q (le_trans b (le_max_left _ _)))
        (by intro y hy
            rcases List.mem_append.mp hy with hy | hy
            · exact ⟨le_trans (min_le_left _ _) (c y hy).1, le_trans (c y hy).2 (le_max_left _ _)⟩
            · rw [List.mem_singleton] at hy
              subst hy
              exact ⟨min_le_right _ _, le_max_right _ _⟩)
        (by show Min.min s.min x ∈ _
            rcases min_choice s.min x with e | e <;> rw [e] <;> simp [d])
        (by show Max.max s.max x ∈ _
            rcases max_choice s.max x with e | e <;> rw [e] <;> simp [f])
      rwa [List.append_assoc, List.singleton_append] at this
  obtain ⟨t', e, r⟩ := key xs (s.resetTo v) [v] hxs hc h0 h1 hv rfl (le_refl _) (le_refl _) (by intro x hx; rw [List.mem_singleton] at hx; subst hx; exact ⟨le_refl _, le_refl _⟩) (by simp [Analyzed.resetTo]) (by simp [Analyzed.resetTo])
  rw [ht, ← e]
  exact r

/-- **C156**: AnalyzedSignal<k> with k at least 2 has a float coefficient in [0, 1), 1 / k up to rounding. -/
theorem C156_coef (rnd : ℚ → ℚ) (h : Nearest rnd) (k : Nat) (hk : 2 ≤ k) (hk2 : k < 2 ^ 24) : F32 (initInt rnd k).coef ∧ 0 ≤ (initInt rnd k).coef ∧ (initInt rnd k).coef < 1 ∧ |(initInt rnd k).coef - 1 / k| ≤ 1 / k / 2 ^ 24 ∧
    (initInt rnd k).min = fltMax ∧ (initInt rnd k).max = fltMin ∧ (initInt rnd k).avg = 0 ∧ (initInt rnd k).iir = 0 := by
  have k2 : (2 : ℚ) ≤ k := by exact_mod_cast hk
  have k3 : (k : ℚ) < 2 ^ 24 := by exact_mod_cast hk2
  have e : rnd (k : ℚ) = k := h.fix (by
    have := f32_int k (by rw [abs_of_nonneg (by positivity)]; exact_mod_cast hk2)
    exact_mod_cast this)
  unfold initInt Analyzed.init
  simp only [e]
  have q0 : (0 : ℚ) < 1 / k := by positivity
  have q1 : (1 : ℚ) / k ≤ 1 / 2 := one_div_le_one_div_of_le (by norm_num) k2
  have q2 : (1 : ℚ) / 2 ^ 24 ≤ 1 / k := one_div_le_one_div_of_le (by linarith) k3.le
  refine ⟨h.f32 _, h.ge f32_zero q0.le, ?_, ?_, by trivial, by trivial, by trivial, by trivial⟩
  · have : rnd (1 / k) ≤ 1 / 2 := h.le ⟨1, -1, by norm_num, by norm_num, by norm_num⟩ q1
    linarith
  · have := h.rel_normal (1 / k) (by rw [abs_of_pos q0]; refine le_trans ?_ q2; norm_num)
    rwa [abs_of_pos q0] at this

example : 2 ≤ 512 ∧ 512 < 2 ^ 24 := by norm_num

/-- **C156 violated**: AnalyzedSignal<1> (coefficient 1) can leave the range of its samples: after reset_to(-1) a sample of 1.5 / 2^24 gives the average 2 / 2^24. -/
theorem C156_outside_violated (rnd : ℚ → ℚ) (h : Nearest rnd) (t : Analyzed) (ht : t = update rnd ((initInt rnd 1).resetTo (-1)) (3 / 2 ^ 25)) : t.max = 3 / 2 ^ 25 ∧ t.avg = 4 / 2 ^ 25 := by
  have c : (initInt rnd 1).coef = 1 := by
    unfold initInt Analyzed.init
    simp only [Nat.cast_one, h.fix f32_one, div_one]
  have := (C153_interpolate3_end_violated rnd h).2
  unfold interpolate3 at this
  subst ht
  rw [update_eq]
  unfold Analyzed.resetTo
  simp only [c]
  exact ⟨max_eq_right (by norm_num), this⟩

/-- **C156 violated** (convergence): the average of a constant signal need not reach it: with AnalyzedSignal<2048> it may stay 2^-15 below a constant 1 for ever, because the step is rounded away. -/
theorem C156_stalls_violated (rnd : ℚ → ℚ) (h : Nearest rnd) (n : Nat) : ((fun s => update rnd s 1)^[n] ((initInt rnd 2048).resetTo (1 - 1 / 2 ^ 15))).avg = 1 - 1 / 2 ^ 15 := by
  have hF : F32 (1 - 1 / 2 ^ 15 : ℚ) := ⟨2 ^ 15 - 1, -15, by norm_num, by norm_num, by norm_num⟩
  have c : (initInt rnd 2048).coef = 1 / 2048 := by
    have h1 : rnd (2048 : ℚ) = 2048 := h.fix ⟨2048, 0, by norm_num, by norm_num, by norm_num⟩
    have h2 : rnd (1 / 2048 : ℚ) = 1 / 2048 := h.fix ⟨1, -11, by norm_num, by norm_num, by norm_num⟩
    unfold initInt Analyzed.init
    simp only [Nat.cast_ofNat, h1, h2]
  have st : rnd ((1 - 1 / 2 ^ 15) + rnd ((1 / 2048) * rnd (1 - (1 - 1 / 2 ^ 15)))) = 1 - 1 / 2 ^ 15 := by
    have h1 : rnd (1 - (1 - 1 / 2 ^ 15) : ℚ) = 1 / 2 ^ 15 := by
      rw [show (1 - (1 - 1 / 2 ^ 15) : ℚ) = 1 / 2 ^ 15 by norm_num]
      exact h.fix ⟨1, -15, by norm_num, by norm_num, by norm_num⟩
    have h2 : rnd (1 / 2048 * (1 / 2 ^ 15) : ℚ) = 1 / 2 ^ 26 := by
      rw [show (1 / 2048 * (1 / 2 ^ 15) : ℚ) = 1 / 2 ^ 26 by norm_num]
      exact h.fix ⟨1, -26, by norm_num, by norm_num, by norm_num⟩
    rw [h1, h2, h.eq_of_close _ 16776704 (-24) (by norm_num) (by norm_num) (by norm_num [abs_of_nonneg]) (by norm_num [abs_of_nonneg, abs_of_neg])]; norm_num
  have inv : ∀ n, ((fun s => update rnd s 1)^[n] ((initInt rnd 2048).resetTo (1 - 1 / 2 ^ 15))).avg = 1 - 1 / 2 ^ 15 ∧ ((fun s => update rnd s 1)^[n] ((initInt rnd 2048).resetTo (1 - 1 / 2 ^ 15))).iir = 1 - 1 / 2 ^ 15 ∧
      ((fun s => update rnd s 1)^[n] ((initInt rnd 2048).resetTo (1 - 1 / 2 ^ 15))).coef = 1 / 2048 := by
    intro n
    induction n with
    | zero => exact ⟨rfl, rfl, c⟩
    | succ n ih =>
      obtain ⟨_, i2, i3⟩ := ih
      rw [Function.iterate_succ_apply']
      rw [update_eq]
      simp only [i2, i3, st]
      exact ⟨by trivial, by trivial, by trivial⟩
  exact (inv n).1

/-- **C156** (partial): for a constant signal the average moves towards it without passing it, and the distance shrinks by the factor 1 - coefficient per update up to rounding. Missing: it vanishes (see the violation). -/
theorem C156_approaches_partial (rnd : ℚ → ℚ) (h : Nearest rnd) (s : Analyzed) (x : ℚ) (hx : F32 x) (hs : F32 s.iir) (hc : F32 s.coef) (h0 : 0 ≤ s.coef) (h1 : s.coef < 1) (m : ℚ) (hm1 : |s.iir| ≤ m) (hm2 : |x| ≤ m) :
    |(update rnd s x).avg - x| ≤ |s.iir - x| ∧ |(update rnd s x).avg - x| ≤ (1 - s.coef) * |s.iir - x| + 10 * m / 2 ^ 24 + 1 / 2 ^ 147 := by
  have bt := step_between rnd h s.iir x s.coef hs hx hc h0 h1
  have ac := (C153_agree_partial rnd h s.iir x s.coef m hs hx h0 h1.le hm1 hm2).2
  rw [update_eq]
  simp only
  unfold interpolate3 RatMath.interpolate at ac
  obtain ⟨i', hi'⟩ : ∃ i', rnd (s.iir + rnd (s.coef * rnd (x - s.iir))) = i' := ⟨_, rfl⟩
  rw [hi'] at bt ac ⊢
  constructor
  · rcases bt with ⟨p, q⟩ | ⟨p, q⟩
    · rw [abs_of_nonpos (by linarith), abs_of_nonpos (by linarith)]; linarith
    · rw [abs_of_nonneg (by linarith), abs_of_nonneg (by linarith)]; linarith
  · have t := abs_sub_le i' (s.iir * (1 - s.coef) + x * s.coef) x
    have e : |s.iir * (1 - s.coef) + x * s.coef - x| = (1 - s.coef) * |s.iir - x| := by
      rw [show s.iir * (1 - s.coef) + x * s.coef - x = (1 - s.coef) * (s.iir - x) by ring, abs_mul, abs_of_nonneg (show 0 ≤ 1 - s.coef by linarith)]
    linarith

example (rnd : ℚ → ℚ) (h : Nearest rnd) := C156_approaches_partial rnd h ⟨0, 0, 0, 0, 0⟩ 1 f32_one f32_zero f32_zero (by norm_num) (by norm_num) 1 (by norm_num) (by norm_num)

end MathFloat
