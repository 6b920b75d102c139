import Mathlib.Algebra.Order.Field.Rat
import Mathlib.Data.Rat.Floor
import Mathlib.Algebra.Order.Archimedean.Basic
import Mathlib.Algebra.Order.Round
import Mathlib.Tactic.Linarith
import Mathlib.Tactic.Positivity
import Mathlib.Tactic.NormNum
import Mathlib.Tactic.Ring
import Mathlib.Tactic.FieldSimp
/-!
# Rounded arithmetic

IEEE binary32 without infinities and NaN: the finite values are the multiples `m * 2^e` with `|m| < 2^24` and `e ≥ -149` (the upper limit of the exponent is left out; where it matters theorems bound the values). An operation gives the
exact result rounded to a nearest such value. Nothing is assumed about how ties are broken.
-/

namespace Flt

/-- A finite binary32 value (exponent unbounded above). -/
def F32 (x : ℚ) : Prop := ∃ m e : ℤ, |m| < 2 ^ 24 ∧ -149 ≤ e ∧ x = m * (2 : ℚ) ^ e

/-- `rnd` rounds to nearest. -/
structure Nearest (rnd : ℚ → ℚ) : Prop where
  f32 : ∀ x, F32 (rnd x)
  nearest : ∀ x y, F32 y → |rnd x - x| ≤ |y - x|

theorem Nearest.fix {rnd : ℚ → ℚ} (h : Nearest rnd) {x : ℚ} (hx : F32 x) : rnd x = x := by
  have := h.nearest x x hx
  rw [sub_self, abs_zero] at this
  have := abs_eq_zero.mp (le_antisymm this (abs_nonneg _))
  linarith

theorem Nearest.mono {rnd : ℚ → ℚ} (h : Nearest rnd) {x y : ℚ} (hxy : x ≤ y) : rnd x ≤ rnd y := by
  by_contra hc
  rw [not_le] at hc
  rcases eq_or_lt_of_le hxy with rfl | hlt
  · exact lt_irrefl _ hc
  · have h1 := h.nearest x (rnd y) (h.f32 y)
    have h2 := h.nearest y (rnd x) (h.f32 x)
    rw [← sq_le_sq] at h1 h2
    nlinarith [mul_pos (sub_pos.mpr hlt) (sub_pos.mpr hc)]

/-- Rounding keeps a bound that is a float. -/
theorem Nearest.le {rnd : ℚ → ℚ} (h : Nearest rnd) {x y : ℚ} (hy : F32 y) (hxy : x ≤ y) : rnd x ≤ y := by
  rw [← h.fix hy]; exact h.mono hxy

theorem Nearest.ge {rnd : ℚ → ℚ} (h : Nearest rnd) {x y : ℚ} (hy : F32 y) (hxy : y ≤ x) : y ≤ rnd x := by
  rw [← h.fix hy]; exact h.mono hxy

theorem f32_int (m : ℤ) (h : |m| < 2 ^ 24) : F32 m := ⟨m, 0, h, by norm_num, by simp⟩

theorem f32_zero : F32 0 := ⟨0, 0, by norm_num, by norm_num, by simp⟩
theorem f32_one : F32 1 := ⟨1, 0, by norm_num, by norm_num, by simp⟩

theorem f32_neg {x : ℚ} (h : F32 x) : F32 (-x) := by
  obtain ⟨m, e, h1, h2, h3⟩ := h
  exact ⟨-m, e, by rwa [abs_neg], h2, by rw [h3]; push_cast; ring⟩

/-- Scaling up by a power of two is exact. -/
theorem f32_scale {x : ℚ} (h : F32 x) (k : Nat) : F32 (x * 2 ^ k) := by
  obtain ⟨m, e, h1, h2, h3⟩ := h
  refine ⟨m, e + k, h1, by omega, ?_⟩
  rw [h3, mul_assoc, ← zpow_natCast (2 : ℚ) k, ← zpow_add₀ (by norm_num)]

theorem f32_pow2 (k : Nat) : F32 (2 ^ k) := by
  have := f32_scale f32_one k
  rwa [one_mul] at this

/-- An integer of at most 24 bits divided by a power of two (at most 2^149) is exact. -/
theorem f32_div (m : ℤ) (h : |m| < 2 ^ 24) (k : Nat) (hk : k ≤ 149) : F32 (m / 2 ^ k) := by
  refine ⟨m, -(k : ℤ), h, by omega, ?_⟩
  rw [zpow_neg, zpow_natCast, div_eq_mul_inv]

/-- A power of two, also with negative exponent. -/
theorem f32_zpow (e : ℤ) (h : -149 ≤ e) : F32 ((2 : ℚ) ^ e) := ⟨1, e, by norm_num, h, by simp⟩

/-- Every F32 value of magnitude at least 2^(e+23) is a multiple of 2^e. -/
theorem f32_multiple {x : ℚ} (h : F32 x) (e : ℤ) (hx : (2 : ℚ) ^ (e + 23) ≤ |x|) : ∃ n : ℤ, x = n * (2 : ℚ) ^ e := by
  obtain ⟨m, k, h1, _, h3⟩ := h
  have hk : e ≤ k := by
    by_contra hc
    have hle : k ≤ e - 1 := by omega
    have h4 : |x| < (2 : ℚ) ^ (k + 24) := by
      rw [h3, abs_mul, abs_of_pos (show (0 : ℚ) < 2 ^ k from zpow_pos (by norm_num) _), zpow_add₀ (by norm_num : (2 : ℚ) ≠ 0)]
      have hm : ((|m| : ℤ) : ℚ) < 2 ^ 24 := by exact_mod_cast h1
      rw [Int.cast_abs] at hm
      have h2k : (0 : ℚ) < 2 ^ k := zpow_pos (by norm_num) _
      calc |(m : ℚ)| * 2 ^ k < 2 ^ 24 * 2 ^ k := mul_lt_mul_of_pos_right hm h2k
        _ = 2 ^ k * (2 : ℚ) ^ (24 : ℤ) := by rw [mul_comm]; norm_cast
    have h5 : (2 : ℚ) ^ (k + 24) ≤ 2 ^ (e + 23) := zpow_le_zpow_right₀ (by norm_num) (by omega)
    linarith
  refine ⟨m * 2 ^ (k - e).toNat, ?_⟩
  rw [h3]
  push_cast
  rw [mul_assoc, ← zpow_natCast (2 : ℚ) (k - e).toNat, Int.toNat_of_nonneg (by omega), ← zpow_add₀ (by norm_num)]
  congr 2
  omega

/-- A concrete rounding: to the nearest multiple of the spacing at `x`. -/
theorem exists_round (x : ℚ) : ∃ y, F32 y ∧ ∀ z, F32 z → |y - x| ≤ |z - x| := by
  -- the spacing
  by_cases hx : x = 0
  · exact ⟨0, f32_zero, fun z _ => by rw [hx]; simp⟩
  have hpos : 0 < |x| := abs_pos.mpr hx
  obtain ⟨e, he1, he2⟩ := exists_mem_Ico_zpow hpos (show (1 : ℚ) < 2 by norm_num)
  obtain ⟨g, hg⟩ : ∃ g, max (e - 23) (-149) = g := ⟨_, rfl⟩
  have hq : (0 : ℚ) < 2 ^ g := zpow_pos (by norm_num) _
  obtain ⟨n, hn⟩ : ∃ n : ℤ, n = round (x / 2 ^ g) := ⟨_, rfl⟩
  -- |y - x| is at most the distance to any multiple of 2^g
  have hround : ∀ k : ℤ, |(n : ℚ) * 2 ^ g - x| ≤ |(k : ℚ) * 2 ^ g - x| := by
    intro k
    have h1 : |x / 2 ^ g - n| ≤ |x / 2 ^ g - k| := by rw [hn]; exact round_le _ k
    have e1 : ∀ k : ℤ, |(k : ℚ) * 2 ^ g - x| = |x / 2 ^ g - k| * 2 ^ g := by
      intro k
      rw [← abs_of_pos hq, ← abs_mul, abs_of_pos hq, sub_mul, div_mul_cancel₀ _ hq.ne', abs_sub_comm]
    rw [e1, e1]
    exact mul_le_mul_of_nonneg_right h1 hq.le
  have hxg : |x / 2 ^ g| < 2 ^ 24 := by
    rw [abs_div, abs_of_pos hq, div_lt_iff₀ hq]
    refine lt_of_lt_of_le he2 ?_
    have : (2 : ℚ) ^ 24 * 2 ^ g = 2 ^ (24 + g) := by rw [zpow_add₀ (by norm_num : (2 : ℚ) ≠ 0)]; norm_cast
    rw [this]
    exact zpow_le_zpow_right₀ (by norm_num) (by omega)
  have hnle : |n| ≤ 2 ^ 24 := by
    have h1 := abs_lt.mp hxg
    rw [abs_le]
    have h2 : (n : ℚ) < 2 ^ 24 + 1 := by
      have := abs_le.mp (abs_sub_round (x / 2 ^ g)); rw [← hn] at this; linarith
    have h3 : -(2 ^ 24 + 1 : ℚ) < n := by
      have := abs_le.mp (abs_sub_round (x / 2 ^ g)); rw [← hn] at this; linarith
    constructor
    · have : -(2 ^ 24 + 1 : ℤ) < n := by exact_mod_cast h3
      omega
    · have : n < (2 ^ 24 + 1 : ℤ) := by exact_mod_cast h2
      omega
  refine ⟨n * 2 ^ g, ?_, ?_⟩
  · by_cases hlt : |n| < 2 ^ 24
    · exact ⟨n, g, hlt, by omega, rfl⟩
    · have heq : |n| = 2 ^ 24 := le_antisymm hnle (not_lt.mp hlt)
      rcases abs_eq (by norm_num : (0 : ℤ) ≤ 2 ^ 24) |>.mp heq with h | h
      · refine ⟨2 ^ 23, g + 1, by norm_num, by omega, ?_⟩
        rw [h, zpow_add₀ (by norm_num : (2 : ℚ) ≠ 0)]; push_cast; norm_num; ring
      · refine ⟨-2 ^ 23, g + 1, by norm_num, by omega, ?_⟩
        rw [h, zpow_add₀ (by norm_num : (2 : ℚ) ≠ 0)]; push_cast; norm_num; ring
  · intro z hz
    by_cases hm : ∃ k : ℤ, z = k * 2 ^ g
    · obtain ⟨k, rfl⟩ := hm; exact hround k
    · -- then the spacing is e - 23 and |z| < 2^e
      have hge : g = e - 23 := by
        by_contra hne
        have hg149 : g = -149 := by omega
        obtain ⟨m, k, h1, h2, h3⟩ := hz
        apply hm
        refine ⟨m * 2 ^ (k - g).toNat, ?_⟩
        rw [h3]; push_cast
        rw [mul_assoc, ← zpow_natCast (2 : ℚ) (k - g).toNat, Int.toNat_of_nonneg (by omega), ← zpow_add₀ (by norm_num)]
        congr 2; omega
      have hzlt : |z| < 2 ^ e := by
        by_contra hc
        apply hm
        exact f32_multiple hz g (by rw [hge, show e - 23 + 23 = e by omega]; exact not_lt.mp hc)
      -- the multiple ±2^e is closer to x than z
      have hmul : ∃ k : ℤ, (k : ℚ) * 2 ^ g = 2 ^ e := ⟨2 ^ 23, by
        rw [hge, show ((2 ^ 23 : ℤ) : ℚ) = (2 : ℚ) ^ (23 : ℤ) by norm_cast, ← zpow_add₀ (by norm_num)]; congr 1; omega⟩
      obtain ⟨k, hk⟩ := hmul
      rcases le_total 0 x with h0 | h0
      · rw [abs_of_nonneg h0] at he1
        have h1 := hround k
        rw [hk] at h1
        rw [abs_of_nonpos (show (2 : ℚ) ^ e - x ≤ 0 by linarith)] at h1
        have h2 := (abs_lt.mp hzlt).2
        have : x - z ≤ |z - x| := by rw [abs_sub_comm]; exact le_abs_self _
        linarith
      · rw [abs_of_nonpos h0] at he1
        have h1 := hround (-k)
        have hk' : ((-k : ℤ) : ℚ) * 2 ^ g = -2 ^ e := by push_cast; rw [neg_mul, hk]
        rw [hk'] at h1
        rw [abs_of_nonneg (show (0 : ℚ) ≤ -2 ^ e - x by linarith)] at h1
        have h2 := (abs_lt.mp hzlt).1
        have : z - x ≤ |z - x| := le_abs_self _
        linarith

/-- Rounding functions exist, so theorems about all of them are not empty. -/
theorem exists_nearest : ∃ rnd, Nearest rnd := by
  choose f h1 h2 using exists_round
  exact ⟨f, ⟨h1, fun x y hy => h2 x y hy⟩⟩

end Flt
