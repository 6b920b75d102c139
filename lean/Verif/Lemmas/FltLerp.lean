import Verif.Lemmas.FltErr
import Mathlib.Tactic.LinearCombination
/-! # Facts about binary32 used by interpolation -/

namespace Flt

/-- A float above the smallest normal number has another float less than 2^-23 (relative) below it. -/
theorem exists_below {d : ℚ} (hd : F32 d) (h : (2 : ℚ) ^ (-126 : ℤ) < d) : ∃ f, F32 f ∧ f < d ∧ d - d / 2 ^ 23 < f := by
  have hd0 : 0 < d := lt_trans (two_zpow_pos _) h
  obtain ⟨k, hk1, hk2⟩ := exists_mem_Ioc_zpow (x := d) (y := (2 : ℚ)) hd0 (by norm_num)
  have hk : -126 ≤ k := by
    by_contra hc
    have : (2 : ℚ) ^ (k + 1) ≤ 2 ^ (-126 : ℤ) := zpow_le_zpow_right₀ (by norm_num) (by omega)
    linarith
  obtain ⟨n, hn⟩ := f32_multiple hd (k - 23) (by rw [abs_of_pos hd0, show k - 23 + 23 = k by ring]; exact hk1.le)
  have hp := two_zpow_pos (k - 23)
  have e1 : (2 : ℚ) ^ k = 2 ^ 23 * 2 ^ (k - 23) := by
    rw [show k = 23 + (k - 23) by ring, zpow_add₀ (by norm_num), show (23 + (k - 23) - 23) = k - 23 by ring]; norm_num
  have e2 : (2 : ℚ) ^ (k + 1) = 2 ^ 24 * 2 ^ (k - 23) := by
    rw [show k + 1 = 24 + (k - 23) by ring, zpow_add₀ (by norm_num)]; norm_num
  have h1 : (2 ^ 23 : ℚ) < n := by
    rw [hn, e1] at hk1; exact lt_of_mul_lt_mul_right hk1 hp.le
  have h2 : (n : ℚ) ≤ 2 ^ 24 := by
    rw [hn, e2] at hk2; exact le_of_mul_le_mul_right hk2 hp
  have h1' : (2 ^ 23 : ℤ) < n := by exact_mod_cast h1
  have h2' : n ≤ (2 ^ 24 : ℤ) := by exact_mod_cast h2
  refine ⟨((n - 1 : ℤ) : ℚ) * 2 ^ (k - 23), f32_grid _ _ (by rw [abs_of_pos (by omega)]; omega) (by omega), ?_, ?_⟩
  · rw [hn]; push_cast; nlinarith
  · have : (2 : ℚ) ^ (k - 23) < d / 2 ^ 23 := by rw [lt_div_iff₀ (by norm_num)]; rw [e1] at hk1; linarith
    push_cast
    rw [sub_mul, one_mul, ← hn]; linarith

/-- A difference of floats that rounds up is at least as large as any fraction (at most 1 - 2^-24) of its rounded value, rounded. -/
theorem Nearest.scaled_le {rnd : ℚ → ℚ} (h : Nearest rnd) {a b p : ℚ} (ha : F32 a) (hb : F32 b) (hab : a ≤ b) (hp0 : 0 ≤ p) (hp : p ≤ 1 - 1 / 2 ^ 24) : rnd (p * rnd (b - a)) ≤ b - a := by
  have hd0 : 0 ≤ rnd (b - a) := h.ge f32_zero (by linarith)
  have hy : rnd (p * rnd (b - a)) ≤ rnd (b - a) := h.le (h.f32 _) (by nlinarith)
  by_contra hc
  rw [not_le] at hc
  have htd : b - a < rnd (b - a) := lt_of_lt_of_le hc hy
  -- the rounded product is the rounded difference
  have heq : rnd (p * rnd (b - a)) = rnd (b - a) := by
    refine le_antisymm hy ?_
    have := h.nearest (b - a) _ (h.f32 (p * rnd (b - a)))
    rw [abs_of_pos (by linarith), abs_of_pos (by linarith)] at this
    linarith
  by_cases hs : (2 : ℚ) ^ (-126 : ℤ) < rnd (b - a)
  · obtain ⟨f, hf, hf1, hf2⟩ := exists_below (h.f32 _) hs
    have hn := h.nearest (p * rnd (b - a)) f hf
    rw [heq] at hn
    have hpd : p * rnd (b - a) ≤ rnd (b - a) - rnd (b - a) / 2 ^ 24 := by nlinarith
    have hpos : 0 ≤ rnd (b - a) - p * rnd (b - a) := by nlinarith
    rw [abs_of_nonneg hpos] at hn
    rcases abs_cases (f - p * rnd (b - a)) with ⟨e, _⟩ | ⟨e, _⟩ <;> rw [e] at hn
    · linarith
    · linarith
  · rw [not_lt] at hs
    obtain ⟨m, hm⟩ := f32_units ha
    obtain ⟨n, hn⟩ := f32_units hb
    have hu := two_zpow_pos (-149)
    have e : b - a = ((n - m : ℤ) : ℚ) * 2 ^ (-149 : ℤ) := by rw [hm, hn]; push_cast; ring
    have hF : F32 (b - a) := by
      rw [e]
      apply f32_grid _ _ _ (by norm_num)
      have h1 : ((n - m : ℤ) : ℚ) * 2 ^ (-149 : ℤ) ≤ 2 ^ 24 * 2 ^ (-149 : ℤ) := by
        rw [← e]
        refine le_trans (le_trans htd.le hs) ?_
        norm_num
      have h2 : (0 : ℚ) ≤ ((n - m : ℤ) : ℚ) * 2 ^ (-149 : ℤ) := by rw [← e]; linarith
      have h3 : ((n - m : ℤ) : ℚ) ≤ 2 ^ 24 := le_of_mul_le_mul_right h1 hu
      have h4 : (0 : ℚ) ≤ ((n - m : ℤ) : ℚ) := nonneg_of_mul_nonneg_left h2 hu
      have h3' : n - m ≤ 2 ^ 24 := by exact_mod_cast h3
      have h4' : 0 ≤ n - m := by exact_mod_cast h4
      rw [abs_of_nonneg h4']; exact h3'
    rw [h.fix hF] at htd
    exact lt_irrefl _ htd

theorem Nearest.neg {rnd : ℚ → ℚ} (h : Nearest rnd) : Nearest (fun x => -rnd (-x)) := by
  refine ⟨fun x => f32_neg (h.f32 _), fun x y hy => ?_⟩
  have := h.nearest (-x) (-y) (f32_neg hy)
  rw [show -rnd (-x) - x = -(rnd (-x) - -x) by ring, abs_neg]
  rwa [show -y - -x = -(y - x) by ring, abs_neg] at this

theorem Nearest.scaled_ge {rnd : ℚ → ℚ} (h : Nearest rnd) {a b p : ℚ} (ha : F32 a) (hb : F32 b) (hab : b ≤ a) (hp0 : 0 ≤ p) (hp : p ≤ 1 - 1 / 2 ^ 24) : b - a ≤ rnd (p * rnd (b - a)) := by
  have := h.neg.scaled_le hb ha hab hp0 hp
  simp only [neg_sub, mul_neg, neg_neg] at this
  linarith

/-- The largest float below 1. -/
theorem f32_lt_one {x : ℚ} (hx : F32 x) (h : x < 1) : x ≤ 1 - 1 / 2 ^ 24 := by
  by_cases hs : (2 : ℚ) ^ (-1 : ℤ) ≤ |x|
  · by_cases h0 : 0 ≤ x
    · obtain ⟨n, hn⟩ := f32_multiple hx (-24) (by norm_num at hs ⊢; exact hs)
      have e : (2 : ℚ) ^ (-24 : ℤ) = 1 / 2 ^ 24 := by norm_num
      rw [e] at hn
      have h1 : (n : ℚ) < 2 ^ 24 := by
        rw [hn] at h
        rw [mul_one_div, div_lt_one (by norm_num)] at h
        exact h
      have h1' : n < (2 ^ 24 : ℤ) := by exact_mod_cast h1
      have h2 : (n : ℚ) ≤ 2 ^ 24 - 1 := by
        have : n ≤ (2 ^ 24 - 1 : ℤ) := by omega
        exact_mod_cast this
      rw [hn, mul_one_div, div_le_iff₀ (by norm_num)]
      norm_num at h2 ⊢; linarith
    · have : (1 : ℚ) / 2 ^ 24 ≤ 1 := by norm_num
      linarith
  · rw [not_le] at hs
    have := le_abs_self x
    norm_num at hs ⊢
    linarith

/-- The fractional part of a float is a float. -/
theorem f32_frac {x : ℚ} (hx : F32 x) (k : ℕ) (h0 : (k : ℚ) ≤ x) (h1 : x < k + 1) : F32 (x - k) := by
  obtain ⟨m, e, hm, he, rfl⟩ := hx
  have hp := two_zpow_pos e
  by_cases hc : 0 ≤ e
  · have e1 : (2 : ℚ) ^ e = ((2 ^ e.toNat : ℤ) : ℚ) := by
      have := Int.toNat_of_nonneg hc
      push_cast
      rw [← zpow_natCast, this]
    rw [e1] at h0 h1 ⊢
    have a1 : ((k : ℤ) : ℚ) ≤ ((m * 2 ^ e.toNat : ℤ) : ℚ) := by push_cast at h0 ⊢; exact h0
    have a2 : ((m * 2 ^ e.toNat : ℤ) : ℚ) < ((k + 1 : ℤ) : ℚ) := by push_cast at h1 ⊢; exact h1
    have b1 : (k : ℤ) ≤ m * 2 ^ e.toNat := by exact_mod_cast a1
    have b2 : m * 2 ^ e.toNat < (k + 1 : ℤ) := by exact_mod_cast a2
    have b3 : m * 2 ^ e.toNat = (k : ℤ) := by omega
    have : (m : ℚ) * ((2 ^ e.toNat : ℤ) : ℚ) - k = 0 := by
      have := congrArg (Int.cast (R := ℚ)) b3
      push_cast at this ⊢
      rw [this]; ring
    rw [this]; exact f32_zero
  · rw [not_le] at hc
    have e1 : (2 : ℚ) ^ e * 2 ^ (-e).toNat = 1 := by
      rw [← zpow_natCast, Int.toNat_of_nonneg (by omega), ← zpow_add₀ (by norm_num)]; simp
    have e2 : (m : ℚ) * 2 ^ e - k = ((m - k * 2 ^ (-e).toNat : ℤ) : ℚ) * 2 ^ e := by
      push_cast
      linear_combination (k : ℚ) * e1
    have hk : (0 : ℚ) ≤ k := Nat.cast_nonneg _
    refine ⟨m - k * 2 ^ (-e).toNat, e, ?_, he, e2⟩
    have h2 : (0 : ℚ) ≤ ((m - k * 2 ^ (-e).toNat : ℤ) : ℚ) := nonneg_of_mul_nonneg_left (by rw [← e2]; linarith) hp
    have h2' : (0 : ℤ) ≤ m - k * 2 ^ (-e).toNat := by exact_mod_cast h2
    have h3 : (0 : ℤ) ≤ k * 2 ^ (-e).toNat := by positivity
    rw [abs_of_nonneg h2']
    have := le_abs_self m
    omega

/-- The rounded difference of different floats is not zero. -/
theorem Nearest.sub_ne_zero {rnd : ℚ → ℚ} (h : Nearest rnd) {a b : ℚ} (ha : F32 a) (hb : F32 b) (hab : a < b) : 0 < rnd (b - a) := by
  have h1 := h.sub_rel hb ha
  rw [abs_of_pos (sub_pos.mpr hab)] at h1
  have h2 := (abs_le.mp h1).1
  have : (b - a) / 2 ^ 24 < b - a := by
    have : 0 < b - a := sub_pos.mpr hab
    rw [div_lt_iff₀ (by norm_num)]
    norm_num; linarith
  linarith

end Flt
