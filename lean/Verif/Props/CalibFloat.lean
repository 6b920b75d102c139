import Verif.Model.CalibFloat
import Verif.Lemmas.FltLerp
/-! # Property C148: Calibrator in binary32 -/

namespace CalibFloat
open Flt

/-- **C148**: adjust never decreases (slope ≥ 0) or never increases (slope ≤ 0) with the raw value, rounding included. -/
theorem C148_monotone (rnd : ℚ → ℚ) (h : Nearest rnd) (c : Calibrator) (x y : ℚ) (hxy : x ≤ y) :
    (0 ≤ c.slope → adjust rnd c x ≤ adjust rnd c y) ∧ (c.slope ≤ 0 → adjust rnd c y ≤ adjust rnd c x) := by
  have := h.mono (sub_le_sub_right hxy c.offset)
  unfold adjust
  exact ⟨fun hs => h.mono (mul_le_mul_of_nonneg_right this hs), fun hs => h.mono (mul_le_mul_of_nonpos_right this hs)⟩

example (rnd : ℚ → ℚ) (h : Nearest rnd) := (C148_monotone rnd h ⟨3 / 2, 1 / 8⟩ (1 / 3) 2 (by norm_num)).1 (by norm_num)

/-- **C148** (partial): in binary32, reverse_calibrate undoes adjust up to (4 |x - offset| + 2 |x|) 2^-24 (more only if the slope or the values are tiny). Missing: exact equality. -/
theorem C148_reverse_adjust_partial (rnd : ℚ → ℚ) (h : Nearest rnd) (c : Calibrator) (hs : c.slope ≠ 0) (ho : F32 c.offset) (x : ℚ) (hx : F32 x) :
    ∃ r, reverse rnd c (adjust rnd c x) = .ok r ∧ |r - x| ≤ (4 * |x - c.offset| + 2 * |x|) / 2 ^ 24 + (1 / |c.slope| + 1) / 2 ^ 148 := by
  obtain ⟨s, o⟩ := c
  simp only [] at hs ho ⊢
  unfold reverse adjust
  rw [if_neg hs]
  refine ⟨_, rfl, ?_⟩
  simp only []
  have hsa : 0 < |s| := abs_pos.mpr hs
  have s1 := h.sub_rel hx ho
  generalize hd : rnd (x - o) = d at *
  have s2 := h.rel (d * s)
  have s3 := h.rel (rnd (d * s) / s)
  have s4 := h.add_rel (h.f32 (rnd (d * s) / s)) ho
  generalize rnd (d * s) = y at *
  generalize rnd (y / s) = z at *
  have hi0 : 0 < 1 / |s| := by positivity
  have t2 : |y / s - d| ≤ |d| / 2 ^ 24 + 1 / |s| / 2 ^ 150 := by
    have e : y / s - d = (y - d * s) / s := by field_simp
    rw [e, abs_div, div_le_iff₀ hsa]
    refine le_trans s2 (le_of_eq ?_)
    rw [abs_mul]; field_simp
  have hd1 : |d| ≤ |x - o| + |x - o| / 2 ^ 24 := by
    have := abs_add_le (d - (x - o)) (x - o)
    rw [sub_add_cancel] at this; linarith
  have hys : |y / s| ≤ |d| + (|d| / 2 ^ 24 + 1 / |s| / 2 ^ 150) := by
    have := abs_add_le (y / s - d) d
    rw [sub_add_cancel] at this; linarith
  have hz : |z + o - x| ≤ |z - y / s| + |y / s - d| + |d - (x - o)| := by
    have e : z + o - x = (z - y / s) + ((y / s - d) + (d - (x - o))) := by ring
    rw [e]
    have a1 := abs_add_le (z - y / s) ((y / s - d) + (d - (x - o)))
    have a2 := abs_add_le (y / s - d) (d - (x - o))
    linarith
  have hzo : |z + o| ≤ |z + o - x| + |x| := by
    have := abs_add_le (z + o - x) x
    rw [sub_add_cancel] at this; exact this
  have := abs_sub_le (rnd (z + o)) (z + o) x
  generalize 1 / |s| = q at *
  have hw := abs_nonneg (x - o)
  have hx0 := abs_nonneg x
  generalize |x - o| = w at *
  generalize |x| = X at *
  norm_num at *
  linarith

/-- **C148** (partial): and adjust undoes reverse_calibrate up to (5 |v| + 2 |offset * slope|) 2^-24. Missing: exact equality. -/
theorem C148_adjust_reverse_partial (rnd : ℚ → ℚ) (h : Nearest rnd) (c : Calibrator) (hs : c.slope ≠ 0) (ho : F32 c.offset) (v : ℚ) :
    ∃ r, reverse rnd c v = .ok r ∧ |adjust rnd c r - v| ≤ (5 * |v| + 2 * |c.offset * c.slope|) / 2 ^ 24 + (|c.slope| + 1) / 2 ^ 148 := by
  obtain ⟨s, o⟩ := c
  simp only [] at hs ho ⊢
  unfold reverse adjust
  rw [if_neg hs]
  refine ⟨_, rfl, ?_⟩
  simp only []
  have hsa : 0 < |s| := abs_pos.mpr hs
  have s1 := h.rel (v / s)
  have s2 := h.add_rel (h.f32 (v / s)) ho
  have s3 := h.sub_rel (h.f32 (rnd (v / s) + o)) ho
  have s4 := h.rel (rnd (rnd (rnd (v / s) + o) - o) * s)
  generalize rnd (v / s) = q at *
  generalize rnd (q + o) = y at *
  generalize rnd (y - o) = d at *
  -- multiply everything by s
  have m : ∀ a b : ℚ, |a| ≤ b → |a * s| ≤ b * |s| := fun a b hab => by rw [abs_mul]; exact mul_le_mul_of_nonneg_right hab hsa.le
  have t1 := m _ _ s1
  have t2 := m _ _ s2
  have t3 := m _ _ s3
  have e1 : (q - v / s) * s = q * s - v := by field_simp
  have e2 : |v / s| * |s| = |v| := by rw [← abs_mul]; congr 1; field_simp
  rw [e1] at t1
  have t1' : |q * s - v| ≤ |v| / 2 ^ 24 + |s| / 2 ^ 150 := by
    refine le_trans t1 (le_of_eq ?_)
    rw [add_mul, div_mul_eq_mul_div, e2]; ring
  have t2' : |(y - (q + o)) * s| ≤ |(q + o) * s| / 2 ^ 24 := by
    refine le_trans t2 (le_of_eq ?_)
    rw [abs_mul (q + o)]; ring
  have t3' : |(d - (y - o)) * s| ≤ |(y - o) * s| / 2 ^ 24 := by
    refine le_trans t3 (le_of_eq ?_)
    rw [abs_mul (y - o)]; ring
  have hq : |q * s| ≤ |v| + (|v| / 2 ^ 24 + |s| / 2 ^ 150) := by
    have := abs_add_le (q * s - v) v
    rw [sub_add_cancel] at this; linarith
  have hqo : |(q + o) * s| ≤ |q * s| + |o * s| := by rw [add_mul]; exact abs_add_le _ _
  have hyo : |(y - o) * s| ≤ |(y - (q + o)) * s| + |q * s| := by
    rw [show (y - o) * s = (y - (q + o)) * s + q * s by ring]; exact abs_add_le _ _
  have hds : |d * s - v| ≤ |(d - (y - o)) * s| + (|(y - (q + o)) * s| + |q * s - v|) := by
    rw [show d * s - v = (d - (y - o)) * s + ((y - (q + o)) * s + (q * s - v)) by ring]
    have a1 := abs_add_le ((d - (y - o)) * s) ((y - (q + o)) * s + (q * s - v))
    have a2 := abs_add_le ((y - (q + o)) * s) (q * s - v)
    linarith
  have hd2 : |d * s| ≤ |d * s - v| + |v| := by
    have := abs_add_le (d * s - v) v
    rw [sub_add_cancel] at this; exact this
  have := abs_sub_le (rnd (d * s)) (d * s) v
  have n1 := abs_nonneg v
  have n2 := abs_nonneg (o * s)
  generalize |v| = V at *
  generalize |o * s| = O at *
  generalize |s| = S at *
  norm_num at *
  linarith

example (rnd : ℚ → ℚ) (h : Nearest rnd) := C148_adjust_reverse_partial rnd h ⟨3 / 2, 1⟩ (by norm_num) f32_one (1 / 3)

/-- **C148**: the two round trips asserted at compile time (slope 1.05f, offset -.003f, value 9.32f) are exact, under every round-to-nearest rule. -/
theorem C148_asserts (rnd : ℚ → ℚ) (h : Nearest rnd) (c : Calibrator) (hc : c = ⟨rnd (105 / 100), rnd (-3 / 1000)⟩) :
    reverse rnd c (adjust rnd c (rnd (932 / 100))) = .ok (rnd (932 / 100)) ∧ ∃ r, reverse rnd c (rnd (932 / 100)) = .ok r ∧ adjust rnd c r = rnd (932 / 100) := by
  have ev : ∀ (x : ℚ) (m e : ℤ), |m| ≤ 2 ^ 24 → -149 ≤ e → (2 : ℚ) ^ (e + 23) ≤ |x| → |m * (2 : ℚ) ^ e - x| < 2 ^ e / 2 → rnd x = m * (2 : ℚ) ^ e := fun x m e a b c d => h.eq_of_close x m e a b c d
  have c1 : rnd (105 / 100) = 4404019 / 4194304 := by rw [ev _ 8808038 (-23) (by norm_num) (by norm_num) (by rw [abs_of_pos (by norm_num)]; norm_num) (by norm_num [abs_lt])]; norm_num
  have c2 : rnd (-3 / 1000) = -6442451 / 2147483648 := by rw [ev _ (-12884902) (-32) (by norm_num) (by norm_num) (by rw [abs_of_neg (by norm_num)]; norm_num) (by norm_num [abs_lt])]; norm_num
  have c3 : rnd (932 / 100) = 1221591 / 131072 := by rw [ev _ 9772728 (-20) (by norm_num) (by norm_num) (by rw [abs_of_pos (by norm_num)]; norm_num) (by norm_num [abs_lt])]; norm_num
  have a1 : rnd (1221591 / 131072 - -6442451 / 2147483648) = 4887937 / 524288 := by rw [ev _ 9775874 (-20) (by norm_num) (by norm_num) (by rw [abs_of_pos (by norm_num)]; norm_num) (by norm_num [abs_lt])]; norm_num
  have a2 : rnd (4887937 / 524288 * (4404019 / 4194304)) = 10264667 / 1048576 := by rw [ev _ 10264667 (-20) (by norm_num) (by norm_num) (by rw [abs_of_pos (by norm_num)]; norm_num) (by norm_num [abs_lt])]; norm_num
  have a3 : rnd (10264667 / 1048576 / (4404019 / 4194304)) = 4887937 / 524288 := by rw [ev _ 9775874 (-20) (by norm_num) (by norm_num) (by rw [abs_of_pos (by norm_num)]; norm_num) (by norm_num [abs_lt])]; norm_num
  have a4 : rnd (4887937 / 524288 + -6442451 / 2147483648) = 1221591 / 131072 := by rw [ev _ 9772728 (-20) (by norm_num) (by norm_num) (by rw [abs_of_pos (by norm_num)]; norm_num) (by norm_num [abs_lt])]; norm_num
  have b1 : rnd (1221591 / 131072 / (4404019 / 4194304)) = 290855 / 32768 := by rw [ev _ 9307360 (-20) (by norm_num) (by norm_num) (by rw [abs_of_pos (by norm_num)]; norm_num) (by norm_num [abs_lt])]; norm_num
  have b2 : rnd (290855 / 32768 + -6442451 / 2147483648) = 4652107 / 524288 := by rw [ev _ 9304214 (-20) (by norm_num) (by norm_num) (by rw [abs_of_pos (by norm_num)]; norm_num) (by norm_num [abs_lt])]; norm_num
  have b3 : rnd (4652107 / 524288 - -6442451 / 2147483648) = 290855 / 32768 := by rw [ev _ 9307360 (-20) (by norm_num) (by norm_num) (by rw [abs_of_pos (by norm_num)]; norm_num) (by norm_num [abs_lt])]; norm_num
  have b4 : rnd (290855 / 32768 * (4404019 / 4194304)) = 1221591 / 131072 := by rw [ev _ 9772728 (-20) (by norm_num) (by norm_num) (by rw [abs_of_pos (by norm_num)]; norm_num) (by norm_num [abs_lt])]; norm_num
  rw [hc, c1, c2, c3]
  unfold reverse adjust
  simp only []
  constructor
  · rw [if_neg (by norm_num), a1, a2, a3, a4]
  · rw [if_neg (by norm_num), b1, b2]
    refine ⟨_, rfl, ?_⟩
    rw [b3, b4]

/-- **C148, violated**: with the same calibrator the round trip of 3.9f (8178893 / 2^21) is not exact, in either direction. -/
theorem C148_roundtrip_violated (rnd : ℚ → ℚ) (h : Nearest rnd) (c : Calibrator) (hc : c = ⟨rnd (105 / 100), rnd (-3 / 1000)⟩) (x : ℚ) (hx : x = rnd (39 / 10)) :
    x = 8178893 / 2097152 ∧ reverse rnd c (adjust rnd c x) = .ok (16357785 / 4194304) ∧ ∃ r, reverse rnd c x = .ok r ∧ adjust rnd c r = 16357787 / 4194304 := by
  have ev : ∀ (x : ℚ) (m e : ℤ), |m| ≤ 2 ^ 24 → -149 ≤ e → (2 : ℚ) ^ (e + 23) ≤ |x| → |m * (2 : ℚ) ^ e - x| < 2 ^ e / 2 → rnd x = m * (2 : ℚ) ^ e := fun x m e a b c d => h.eq_of_close x m e a b c d
  have c1 : rnd (105 / 100) = 4404019 / 4194304 := by rw [ev _ 8808038 (-23) (by norm_num) (by norm_num) (by rw [abs_of_pos (by norm_num)]; norm_num) (by norm_num [abs_lt])]; norm_num
  have c2 : rnd (-3 / 1000) = -6442451 / 2147483648 := by rw [ev _ (-12884902) (-32) (by norm_num) (by norm_num) (by rw [abs_of_neg (by norm_num)]; norm_num) (by norm_num [abs_lt])]; norm_num
  have c3 : rnd (39 / 10) = 8178893 / 2097152 := by rw [ev _ 16357786 (-22) (by norm_num) (by norm_num) (by rw [abs_of_pos (by norm_num)]; norm_num) (by norm_num [abs_lt])]; norm_num
  have a1 : rnd (8178893 / 2097152 - -6442451 / 2147483648) = 16370369 / 4194304 := by rw [ev _ 16370369 (-22) (by norm_num) (by norm_num) (by rw [abs_of_pos (by norm_num)]; norm_num) (by norm_num [abs_lt])]; norm_num
  have a2 : rnd (16370369 / 4194304 * (4404019 / 4194304)) = 8594443 / 2097152 := by rw [ev _ 8594443 (-21) (by norm_num) (by norm_num) (by rw [abs_of_pos (by norm_num)]; norm_num) (by norm_num [abs_lt])]; norm_num
  have a3 : rnd (8594443 / 2097152 / (4404019 / 4194304)) = 255787 / 65536 := by rw [ev _ 16370368 (-22) (by norm_num) (by norm_num) (by rw [abs_of_pos (by norm_num)]; norm_num) (by norm_num [abs_lt])]; norm_num
  have a4 : rnd (255787 / 65536 + -6442451 / 2147483648) = 16357785 / 4194304 := by rw [ev _ 16357785 (-22) (by norm_num) (by norm_num) (by rw [abs_of_pos (by norm_num)]; norm_num) (by norm_num [abs_lt])]; norm_num
  have b1 : rnd (8178893 / 2097152 / (4404019 / 4194304)) = 15578845 / 4194304 := by rw [ev _ 15578845 (-22) (by norm_num) (by norm_num) (by rw [abs_of_pos (by norm_num)]; norm_num) (by norm_num [abs_lt])]; norm_num
  have b2 : rnd (15578845 / 4194304 + -6442451 / 2147483648) = 7783131 / 2097152 := by rw [ev _ 15566262 (-22) (by norm_num) (by norm_num) (by rw [abs_of_pos (by norm_num)]; norm_num) (by norm_num [abs_lt])]; norm_num
  have b3 : rnd (7783131 / 2097152 - -6442451 / 2147483648) = 15578845 / 4194304 := by rw [ev _ 15578845 (-22) (by norm_num) (by norm_num) (by rw [abs_of_pos (by norm_num)]; norm_num) (by norm_num [abs_lt])]; norm_num
  have b4 : rnd (15578845 / 4194304 * (4404019 / 4194304)) = 16357787 / 4194304 := by rw [ev _ 16357787 (-22) (by norm_num) (by norm_num) (by rw [abs_of_pos (by norm_num)]; norm_num) (by norm_num [abs_lt])]; norm_num
  rw [hx, hc, c1, c2, c3]
  unfold reverse adjust
  simp only []
  refine ⟨trivial, ?_, ?_⟩
  · rw [if_neg (by norm_num), a1, a2, a3, a4]
  · rw [if_neg (by norm_num), b1, b2]
    refine ⟨_, rfl, ?_⟩
    rw [b3, b4]

/-- **C148**: in binary32, calibrate_chan with different floats as targets and as measurements, whose slope does not round to zero, gives a calibrator that adjusts both measurements to their targets up to (12 T + 2 |slope * low measurement|) 2^-24,
T bounding the targets (plus a term for tiny numbers). -/
theorem C148_calibrate (rnd : ℚ → ℚ) (h : Nearest rnd) (tL tH mL mH : ℚ) (htL : F32 tL) (htH : F32 tH) (hmL : F32 mL) (hmH : F32 mH) (hm : mL ≠ mH) (s : ℚ) (hs : s = rnd (rnd (tH - tL) / rnd (mH - mL))) (hs0 : s ≠ 0) (T : ℚ) (hT1 : |tL| ≤ T)
    (hT2 : |tH| ≤ T) (err : ℚ) (herr : err = (12 * T + 2 * |s * mL|) / 2 ^ 24 + (|s| + |mH - mL| + 1) / 2 ^ 147) :
    ∃ c, calibrate rnd tL tH mL mH = .ok c ∧ c.slope = s ∧ |adjust rnd c mL - tL| ≤ err ∧ |adjust rnd c mH - tH| ≤ err := by
  have hr : rnd (mH - mL) ≠ 0 := by
    rcases lt_or_gt_of_ne hm with hlt | hlt
    · exact ne_of_gt (h.sub_ne_zero hmL hmH hlt)
    · have := h.neg.sub_ne_zero hmH hmL hlt
      simp only [neg_sub] at this
      exact ne_of_lt (by linarith)
  unfold calibrate
  rw [if_neg hr]
  simp only [← hs]
  rw [if_neg hs0]
  refine ⟨_, rfl, rfl, ?_⟩
  unfold adjust
  simp only []
  have hsa : 0 < |s| := abs_pos.mpr hs0
  -- the slope
  have s1 := h.sub_rel htH htL
  have s2 := h.sub_rel hmH hmL
  have s3 := h.rel (rnd (tH - tL) / rnd (mH - mL))
  rw [← hs] at s3
  generalize rnd (tH - tL) = rT at *
  generalize rnd (mH - mL) = rM at *
  have hrM : 0 < |rM| := abs_pos.mpr hr
  have u1 : |s * rM - rT| ≤ |rT| / 2 ^ 24 + |rM| / 2 ^ 150 := by
    have e : s * rM - rT = (s - rT / rM) * rM := by field_simp
    rw [e, abs_mul]
    refine le_trans (mul_le_mul_of_nonneg_right s3 hrM.le) (le_of_eq ?_)
    rw [add_mul, div_mul_eq_mul_div, ← abs_mul, div_mul_cancel₀ _ hr]; ring
  have u2 : |s * (mH - mL) - s * rM| ≤ |s * (mH - mL)| / 2 ^ 24 := by
    rw [← mul_sub, abs_mul, abs_mul, abs_sub_comm]
    have := mul_le_mul_of_nonneg_left s2 hsa.le
    linarith
  have hrT : |rT| ≤ |tH - tL| + |tH - tL| / 2 ^ 24 := by
    have := abs_add_le (rT - (tH - tL)) (tH - tL)
    rw [sub_add_cancel] at this; linarith
  have hrM2 : |rM| ≤ |mH - mL| + |mH - mL| / 2 ^ 24 := by
    have := abs_add_le (rM - (mH - mL)) (mH - mL)
    rw [sub_add_cancel] at this; linarith
  have u3 : |s * (mH - mL) - (tH - tL)| ≤ |s * (mH - mL) - s * rM| + (|s * rM - rT| + |rT - (tH - tL)|) := by
    have a1 := abs_sub_le (s * (mH - mL)) (s * rM) (tH - tL)
    have a2 := abs_sub_le (s * rM) rT (tH - tL)
    linarith
  have u4 : |s * (mH - mL)| ≤ |s * (mH - mL) - (tH - tL)| + |tH - tL| := by
    have := abs_add_le (s * (mH - mL) - (tH - tL)) (tH - tL)
    rw [sub_add_cancel] at this; exact this
  have hTT : |tH - tL| ≤ 2 * T := by
    have := abs_sub tH tL
    linarith
  have n1 := abs_nonneg (mH - mL)
  have n2 := abs_nonneg (tH - tL)
  have n3 := abs_nonneg (s * (mH - mL))
  have slopeErr : |s * (mH - mL) - (tH - tL)| ≤ 31 / 10 * |tH - tL| / 2 ^ 24 + |mH - mL| / 2 ^ 149 := by
    linarith
  -- the offset
  have v1 := h.rel (tL / s)
  have v2 := h.sub_rel hmL (h.f32 (tL / s))
  have hoF := h.f32 (mL - rnd (tL / s))
  generalize rnd (tL / s) = q at *
  generalize rnd (mL - q) = o at *
  have m : ∀ a b : ℚ, |a| ≤ b → |a * s| ≤ b * |s| := fun a b hab => by rw [abs_mul]; exact mul_le_mul_of_nonneg_right hab hsa.le
  have e1 : (q - tL / s) * s = q * s - tL := by field_simp
  have e2 : |tL / s| * |s| = |tL| := by rw [← abs_mul]; congr 1; field_simp
  have w1 : |q * s - tL| ≤ |tL| / 2 ^ 24 + |s| / 2 ^ 150 := by
    rw [← e1]
    refine le_trans (m _ _ v1) (le_of_eq ?_)
    rw [add_mul, div_mul_eq_mul_div, e2]; ring
  have w2 : |(o - (mL - q)) * s| ≤ |(mL - q) * s| / 2 ^ 24 := by
    refine le_trans (m _ _ v2) (le_of_eq ?_)
    rw [abs_mul (mL - q)]; ring
  have w3 : |(mL - q) * s| ≤ |s * mL| + |q * s| := by
    rw [show (mL - q) * s = s * mL - q * s by ring]; exact abs_sub _ _
  have w4 : |q * s| ≤ |q * s - tL| + |tL| := by
    have := abs_add_le (q * s - tL) tL
    rw [sub_add_cancel] at this; exact this
  have w5 : |(mL - o) * s - tL| ≤ |q * s - tL| + |(o - (mL - q)) * s| := by
    rw [show (mL - o) * s - tL = (q * s - tL) - (o - (mL - q)) * s by ring]; exact abs_sub _ _
  have offErr : |(mL - o) * s - tL| ≤ (21 / 10 * T + 11 / 10 * |s * mL|) / 2 ^ 24 + |s| / 2 ^ 149 := by
    have := abs_nonneg tL
    have := abs_nonneg (s * mL)
    linarith
  have n4 := abs_nonneg (s * mL)
  have fin : ∀ mm t : ℚ, F32 mm → |t| ≤ T → ∀ E : ℚ, |(mm - o) * s - t| ≤ E → |rnd (rnd (mm - o) * s) - t| ≤ 21 / 10 * (T + E) / 2 ^ 24 + 1 / 2 ^ 150 + E := by
    intro mm t hmm ht E hE
    have x1 := h.sub_rel hmm hoF
    have x2 := h.rel (rnd (mm - o) * s)
    generalize rnd (mm - o) = d at *
    have x3 : |(d - (mm - o)) * s| ≤ |(mm - o) * s| / 2 ^ 24 := by
      refine le_trans (m _ _ x1) (le_of_eq ?_)
      rw [abs_mul (mm - o)]; ring
    have x4 : |(mm - o) * s| ≤ E + T := by
      have := abs_add_le ((mm - o) * s - t) t
      rw [sub_add_cancel] at this; linarith
    have x5 : |d * s| ≤ |(d - (mm - o)) * s| + |(mm - o) * s| := by
      rw [show d * s = (d - (mm - o)) * s + (mm - o) * s by ring]; exact abs_add_le _ _
    have x6 : |rnd (d * s) - t| ≤ |rnd (d * s) - d * s| + (|(d - (mm - o)) * s| + |(mm - o) * s - t|) := by
      have a1 := abs_sub_le (rnd (d * s)) (d * s) t
      have a2 := abs_add_le ((d - (mm - o)) * s) ((mm - o) * s - t)
      rw [show (d - (mm - o)) * s + ((mm - o) * s - t) = d * s - t by ring] at a2
      linarith
    have n5 := abs_nonneg ((mm - o) * s)
    linarith
  have hT0 : 0 ≤ T := le_trans (abs_nonneg _) hT1
  constructor
  · have := fin mL tL hmL hT1 _ offErr
    rw [herr]
    linarith
  · have hE : |(mH - o) * s - tH| ≤ (21 / 10 * T + 11 / 10 * |s * mL|) / 2 ^ 24 + |s| / 2 ^ 149 + (31 / 10 * (2 * T) / 2 ^ 24 + |mH - mL| / 2 ^ 149) := by
      have := abs_add_le ((mL - o) * s - tL) (s * (mH - mL) - (tH - tL))
      rw [show (mL - o) * s - tL + (s * (mH - mL) - (tH - tL)) = (mH - o) * s - tH by ring] at this
      linarith
    have := fin mH tH hmH hT2 _ hE
    rw [herr]
    linarith

-- targets 2 and 4 V measured as 1 and 2: slope 2
example (rnd : ℚ → ℚ) (h : Nearest rnd) : ∃ c, calibrate rnd 2 4 1 2 = .ok c ∧ |adjust rnd c 1 - 2| ≤ 1 / 2 ^ 18 ∧ |adjust rnd c 2 - 4| ≤ 1 / 2 ^ 18 := by
  have f : ∀ n : ℤ, |n| < 2 ^ 24 → F32 n := fun n hn => f32_int n hn
  have f1 : F32 (1 : ℚ) := f32_one
  have f2 : F32 (2 : ℚ) := by exact_mod_cast f 2 (by norm_num)
  have f4 : F32 (4 : ℚ) := by exact_mod_cast f 4 (by norm_num)
  have e : rnd (rnd (4 - 2) / rnd (2 - 1)) = 2 := by norm_num [h.fix f1, h.fix f2]
  obtain ⟨c, hc, _, h1, h2⟩ := C148_calibrate rnd h 2 4 1 2 f2 f4 f1 f2 (by norm_num) 2 e.symm (by norm_num) 4 (by norm_num) (by norm_num) _ rfl
  refine ⟨c, hc, ?_, ?_⟩
  · norm_num at h1 ⊢; linarith
  · norm_num at h2 ⊢; linarith
example (rnd : ℚ → ℚ) (h : Nearest rnd) : ∃ r, reverse rnd ⟨3, 1⟩ (adjust rnd ⟨3, 1⟩ 5) = .ok r ∧ |r - 5| ≤ 1 / 2 ^ 18 := by
  obtain ⟨r, e, hb⟩ := C148_reverse_adjust_partial rnd h ⟨3, 1⟩ (by norm_num) f32_one 5 (by exact_mod_cast f32_int 5 (by norm_num))
  exact ⟨r, e, by norm_num at hb ⊢; linarith⟩

end CalibFloat
