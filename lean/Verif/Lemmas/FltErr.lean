import Verif.Flt
/-! # Errors of rounding to binary32 -/

namespace Flt

theorem two_zpow_pos (e : ℤ) : (0 : ℚ) < 2 ^ e := zpow_pos (by norm_num) e

/-- A multiple of 2^e of at most 2^24 units is a float. -/
theorem f32_grid (n e : ℤ) (hn : |n| ≤ 2 ^ 24) (he : -149 ≤ e) : F32 (n * (2 : ℚ) ^ e) := by
  rcases eq_or_lt_of_le hn with h | h
  · rcases abs_choice n with h' | h'
    · refine ⟨1, e + 24, by norm_num, by omega, ?_⟩
      have : n = 2 ^ 24 := by omega
      rw [this, zpow_add₀ (by norm_num)]
      push_cast
      ring
    · refine ⟨-1, e + 24, by norm_num, by omega, ?_⟩
      have : n = -2 ^ 24 := by omega
      rw [this, zpow_add₀ (by norm_num)]
      push_cast
      ring
  · exact ⟨n, e, h, he, rfl⟩

/-- Rounding gives a float `y = m * 2^e` of full precision if it is less than half a unit away and not below the binade. -/
theorem Nearest.eq_of_close {rnd : ℚ → ℚ} (h : Nearest rnd) (x : ℚ) (m e : ℤ) (hm : |m| ≤ 2 ^ 24) (he : -149 ≤ e) (hx : (2 : ℚ) ^ (e + 23) ≤ |x|) (hc : |m * (2 : ℚ) ^ e - x| < 2 ^ e / 2) : rnd x = m * (2 : ℚ) ^ e := by
  have hp := two_zpow_pos e
  have hn := h.nearest x _ (f32_grid m e hm he)
  by_cases hz : (2 : ℚ) ^ (e + 23) ≤ |rnd x|
  · obtain ⟨n, hn'⟩ := f32_multiple (h.f32 x) e hz
    have h1 : |rnd x - m * (2 : ℚ) ^ e| < 2 ^ e := by
      have : rnd x - m * (2 : ℚ) ^ e = (rnd x - x) - (m * (2 : ℚ) ^ e - x) := by ring
      rw [this]
      have := abs_sub (rnd x - x) (m * (2 : ℚ) ^ e - x)
      linarith
    rw [hn', ← sub_mul, abs_mul, abs_of_pos hp] at h1
    have h2 : |((n - m : ℤ) : ℚ)| < 1 := by
      push_cast
      by_contra hc'
      rw [not_lt] at hc'
      nlinarith
    have h3 : |n - m| < 1 := by exact_mod_cast h2
    have : n = m := by have := abs_lt.mp h3; omega
    rw [hn', this]
  · exfalso
    rw [not_le] at hz
    have hF : F32 ((2 : ℚ) ^ (e + 23)) := f32_zpow _ (by omega)
    rcases le_total 0 x with hx0 | hx0
    · rw [abs_of_nonneg hx0] at hx
      have := h.ge hF hx
      have := le_abs_self (rnd x)
      linarith
    · rw [abs_of_nonpos hx0] at hx
      have := h.le (f32_neg hF) (by linarith : x ≤ -(2 : ℚ) ^ (e + 23))
      have := neg_abs_le (rnd x)
      linarith

/-- Rounding to a grid of spacing 2^e, e at least -149, as long as the magnitude is at most 2^(e+24). -/
theorem Nearest.grid {rnd : ℚ → ℚ} (h : Nearest rnd) (x : ℚ) (e : ℤ) (he : -149 ≤ e) (hx : |x| ≤ 2 ^ (e + 24)) : |rnd x - x| ≤ 2 ^ e / 2 := by
  have hp := two_zpow_pos e
  obtain ⟨n, hn⟩ : ∃ n : ℤ, n = round (x / 2 ^ e) := ⟨_, rfl⟩
  have hr : |x / 2 ^ e - n| ≤ 1 / 2 := by rw [hn]; exact abs_sub_round _
  have hy : |x / 2 ^ e| ≤ 2 ^ 24 := by
    rw [abs_div, abs_of_pos hp, div_le_iff₀ hp]
    rw [zpow_add₀ (by norm_num)] at hx
    rw [mul_comm]
    exact_mod_cast hx
  have hn1 : |n| ≤ 2 ^ 24 := by
    rw [abs_le] at hr hy
    have h1 : (n : ℚ) < 2 ^ 24 + 1 := by linarith [hr.1, hy.2]
    have h2 : -(2 ^ 24 + 1) < (n : ℚ) := by linarith [hr.2, hy.1]
    have h1' : n < 2 ^ 24 + 1 := by exact_mod_cast h1
    have h2' : -(2 ^ 24 + 1) < n := by exact_mod_cast h2
    rw [abs_le]; omega
  refine (h.nearest x _ (f32_grid n e hn1 he)).trans ?_
  have e1 : n * (2 : ℚ) ^ e - x = -(x / 2 ^ e - n) * 2 ^ e := by field_simp; ring
  rw [e1, abs_mul, abs_neg, abs_of_pos hp]
  nlinarith

/-- The relative error of rounding is at most 2^-24, apart from underflow. -/
theorem Nearest.rel {rnd : ℚ → ℚ} (h : Nearest rnd) (x : ℚ) : |rnd x - x| ≤ |x| / 2 ^ 24 + 1 / 2 ^ 150 := by
  by_cases hs : |x| ≤ 2 ^ (-125 : ℤ)
  · have := h.grid x (-149) (by norm_num) (by norm_num at hs ⊢; exact hs)
    have h2 : (2 : ℚ) ^ (-149 : ℤ) / 2 = 1 / 2 ^ 150 := by norm_num
    have : 0 ≤ |x| / 2 ^ 24 := by positivity
    linarith
  · rw [not_le] at hs
    have hx0 : 0 < |x| := (two_zpow_pos _).trans hs
    obtain ⟨k, hk0, hk1⟩ := exists_mem_Ico_zpow hx0 (by norm_num : (1 : ℚ) < 2)
    have hk : -126 < k := by
      by_contra hc
      have : (2 : ℚ) ^ (k + 1) ≤ 2 ^ (-125 : ℤ) := zpow_le_zpow_right₀ (by norm_num) (by omega)
      linarith
    have := h.grid x (k - 23) (by omega) (by rw [show k - 23 + 24 = k + 1 by ring]; exact hk1.le)
    have e1 : (2 : ℚ) ^ (k - 23) / 2 = 2 ^ k / 2 ^ 24 := by
      rw [zpow_sub₀ (by norm_num)]
      rw [show (2 : ℚ) ^ (23 : ℤ) = 2 ^ 23 by norm_cast]
      ring
    rw [e1] at this
    have : (2 : ℚ) ^ k / 2 ^ 24 ≤ |x| / 2 ^ 24 := by gcongr
    have : (0 : ℚ) ≤ 1 / 2 ^ 150 := by positivity
    linarith

/-- Every float is a multiple of 2^-149. -/
theorem f32_units {x : ℚ} (h : F32 x) : ∃ n : ℤ, x = n * (2 : ℚ) ^ (-149 : ℤ) := by
  obtain ⟨m, e, _, he, rfl⟩ := h
  refine ⟨m * 2 ^ (e + 149).toNat, ?_⟩
  push_cast
  rw [mul_assoc, ← zpow_natCast (2 : ℚ) (e + 149).toNat, Int.toNat_of_nonneg (by omega), ← zpow_add₀ (by norm_num)]
  congr 2
  ring

/-- Adding two floats has a relative error of at most 2^-24, also for tiny numbers. -/
theorem Nearest.add_rel {rnd : ℚ → ℚ} (h : Nearest rnd) {x y : ℚ} (hx : F32 x) (hy : F32 y) : |rnd (x + y) - (x + y)| ≤ |x + y| / 2 ^ 24 := by
  obtain ⟨a, ha⟩ := f32_units hx
  obtain ⟨b, hb⟩ := f32_units hy
  have e0 : x + y = ((a + b : ℤ) : ℚ) * (2 : ℚ) ^ (-149 : ℤ) := by rw [ha, hb]; push_cast; ring
  by_cases hs : |a + b| ≤ 2 ^ 24
  · rw [h.fix (by rw [e0]; exact f32_grid _ _ hs (by norm_num)), sub_self, abs_zero]
    positivity
  · rw [not_le] at hs
    have hp := two_zpow_pos (-149)
    have hbig : (2 : ℚ) ^ (-125 : ℤ) < |x + y| := by
      rw [e0, abs_mul, abs_of_pos hp]
      have h1 : (2 : ℚ) ^ 24 < |((a + b : ℤ) : ℚ)| := by exact_mod_cast hs
      calc (2 : ℚ) ^ (-125 : ℤ) = 2 ^ 24 * 2 ^ (-149 : ℤ) := by norm_num
        _ < _ := mul_lt_mul_of_pos_right h1 hp
    obtain ⟨k, hk0, hk1⟩ := exists_mem_Ico_zpow ((two_zpow_pos _).trans hbig) (by norm_num : (1 : ℚ) < 2)
    have hk : -126 < k := by
      by_contra hc
      have : (2 : ℚ) ^ (k + 1) ≤ 2 ^ (-125 : ℤ) := zpow_le_zpow_right₀ (by norm_num) (by omega)
      linarith
    have := h.grid (x + y) (k - 23) (by omega) (by rw [show k - 23 + 24 = k + 1 by ring]; exact hk1.le)
    have e1 : (2 : ℚ) ^ (k - 23) / 2 = 2 ^ k / 2 ^ 24 := by
      rw [zpow_sub₀ (by norm_num), show (2 : ℚ) ^ (23 : ℤ) = 2 ^ 23 by norm_cast]
      ring
    rw [e1] at this
    have : (2 : ℚ) ^ k / 2 ^ 24 ≤ |x + y| / 2 ^ 24 := by gcongr
    linarith

theorem Nearest.sub_rel {rnd : ℚ → ℚ} (h : Nearest rnd) {x y : ℚ} (hx : F32 x) (hy : F32 y) : |rnd (x - y) - (x - y)| ≤ |x - y| / 2 ^ 24 := by
  have := h.add_rel hx (f32_neg hy)
  rwa [← sub_eq_add_neg] at this

/-- The relative error of rounding a number in the normal range is at most 2^-24. -/
theorem Nearest.rel_normal {rnd : ℚ → ℚ} (h : Nearest rnd) (x : ℚ) (hx : (2 : ℚ) ^ (-126 : ℤ) ≤ |x|) : |rnd x - x| ≤ |x| / 2 ^ 24 := by
  have hx0 : 0 < |x| := lt_of_lt_of_le (two_zpow_pos _) hx
  obtain ⟨k, hk0, hk1⟩ := exists_mem_Ico_zpow hx0 (by norm_num : (1 : ℚ) < 2)
  have hk : -126 ≤ k := by
    by_contra hc
    have : (2 : ℚ) ^ (k + 1) ≤ 2 ^ (-126 : ℤ) := zpow_le_zpow_right₀ (by norm_num) (by omega)
    linarith
  have := h.grid x (k - 23) (by omega) (by rw [show k - 23 + 24 = k + 1 by ring]; exact hk1.le)
  have e1 : (2 : ℚ) ^ (k - 23) / 2 = 2 ^ k / 2 ^ 24 := by
    rw [zpow_sub₀ (by norm_num), show (2 : ℚ) ^ (23 : ℤ) = 2 ^ 23 by norm_cast]
    ring
  rw [e1] at this
  have : (2 : ℚ) ^ k / 2 ^ 24 ≤ |x| / 2 ^ 24 := by gcongr
  linarith

/-- Rounding a natural number has a relative error of at most 2^-24. -/
theorem Nearest.rel_nat {rnd : ℚ → ℚ} (h : Nearest rnd) (n : ℕ) : |rnd n - n| ≤ n / 2 ^ 24 := by
  rcases Nat.eq_zero_or_pos n with rfl | hn
  · rw [Nat.cast_zero, h.fix f32_zero]; norm_num
  · have h1 : (1 : ℚ) ≤ n := by exact_mod_cast hn
    have := h.rel_normal n (by rw [abs_of_nonneg (by linarith)]; norm_num; linarith)
    rwa [abs_of_nonneg (by linarith : (0 : ℚ) ≤ n)] at this

theorem Nearest.zero {rnd : ℚ → ℚ} (h : Nearest rnd) : rnd 0 = 0 := h.fix f32_zero

end Flt
