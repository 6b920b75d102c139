import Verif.Flt
import Mathlib.Data.Rat.Floor
import Mathlib.Tactic.Linarith
import Mathlib.Tactic.NormNum
import Mathlib.Tactic.Ring
/-!
# Rounding to nearest, ties to even: a computable instance of `Nearest`

The rounding IEEE 754 prescribes by default, as a function that can be evaluated. Theorems quantify over every rounding to nearest; this one is used to evaluate concrete cases in binary32.
-/

namespace Flt

/-- `2^e`. -/
def pow2 (e : ℤ) : ℚ := if 0 ≤ e then ((2 ^ e.toNat : ℕ) : ℚ) else 1 / ((2 ^ (-e).toNat : ℕ) : ℚ)

/-- The exponent of the largest power of two not above `x > 0`. -/
def ilog (x : ℚ) : ℤ :=
  let l : ℤ := (Nat.log2 x.num.natAbs : ℤ) - (Nat.log2 x.den : ℤ)
  if x < pow2 l then l - 1 else l

/-- The nearest integer, ties to even. -/
def half (y : ℚ) : ℤ :=
  let f := ⌊y⌋
  if y - f < 1 / 2 then f else if 1 / 2 < y - f then f + 1 else if f % 2 = 0 then f else f + 1

/-- Rounding to binary32, to nearest, ties to even (exponent unbounded above). -/
def rne (x : ℚ) : ℚ :=
  if x = 0 then 0
  else
    let q := pow2 (max (ilog |x| - 23) (-149))
    (half (x / q) : ℚ) * q

theorem pow2_eq (e : ℤ) : pow2 e = (2 : ℚ) ^ e := by
  unfold pow2
  split
  · rename_i h
    push_cast
    rw [← zpow_natCast, Int.toNat_of_nonneg h]
  · rename_i h
    push_cast
    rw [← zpow_natCast, Int.toNat_of_nonneg (by omega), one_div, ← zpow_neg, neg_neg]

theorem half_le (y : ℚ) : |y - half y| ≤ 1 / 2 := by
  have h1 := Int.floor_le y
  have h2 := Int.lt_floor_add_one y
  unfold half
  simp only
  split
  · rename_i h; rw [abs_le]; constructor <;> linarith
  · rename_i h
    rw [not_lt] at h
    split
    · push_cast; rw [abs_le]; constructor <;> linarith
    · rename_i h'
      rw [not_lt] at h'
      split <;> (try push_cast) <;> rw [abs_le] <;> constructor <;> linarith

theorem half_nearest (y : ℚ) (k : ℤ) : |y - half y| ≤ |y - k| := by
  have h := half_le y
  by_cases hk : k = half y
  · rw [hk]
  · have h1 : (1 : ℚ) ≤ |((half y - k : ℤ) : ℚ)| := by
      have : 1 ≤ |half y - k| := Int.one_le_abs (by omega)
      exact_mod_cast this
    have h2 : |((half y - k : ℤ) : ℚ)| ≤ |y - half y| + |y - k| := by
      push_cast
      have e : (half y : ℚ) - k = -(y - half y) + (y - k) := by ring
      rw [e]
      refine le_trans (abs_add_le _ _) ?_
      rw [abs_neg]
    linarith

theorem ilog_spec {x : ℚ} (hx : 0 < x) : (2 : ℚ) ^ ilog x ≤ x ∧ x < 2 ^ (ilog x + 1) := by
  have hn : 0 < x.num := Rat.num_pos.mpr hx
  have hd : 0 < x.den := x.den_pos
  obtain ⟨a, ha⟩ : ∃ a, a = x.num.natAbs := ⟨_, rfl⟩
  have ha0 : a ≠ 0 := by omega
  have hx' : x = (a : ℚ) / (x.den : ℚ) := by
    have h1 := Rat.num_div_den x
    have h2 : (x.num : ℚ) = (a : ℚ) := by
      have : x.num = (a : ℤ) := by omega
      rw [this]; norm_cast
    rw [← h2, h1]
  have a1 : (2 : ℚ) ^ Nat.log2 a ≤ a := by exact_mod_cast Nat.log2_self_le ha0
  have a2 : (a : ℚ) < 2 ^ (Nat.log2 a + 1) := by exact_mod_cast Nat.lt_log2_self
  have d1 : (2 : ℚ) ^ Nat.log2 x.den ≤ x.den := by exact_mod_cast Nat.log2_self_le hd.ne'
  have d2 : (x.den : ℚ) < 2 ^ (Nat.log2 x.den + 1) := by exact_mod_cast Nat.lt_log2_self
  have hdq : (0 : ℚ) < x.den := by exact_mod_cast hd
  have two : (2 : ℚ) ≠ 0 := by norm_num
  obtain ⟨l, hl⟩ : ∃ l : ℤ, l = (Nat.log2 a : ℤ) - (Nat.log2 x.den : ℤ) := ⟨_, rfl⟩
  have lo : (2 : ℚ) ^ (l - 1) < x := by
    rw [hx', lt_div_iff₀ hdq]
    have : (2 : ℚ) ^ (l - 1) * x.den < 2 ^ (l - 1) * 2 ^ (Nat.log2 x.den + 1) := mul_lt_mul_of_pos_left d2 (zpow_pos (by norm_num) _)
    refine lt_of_lt_of_le this (le_trans (le_of_eq ?_) a1)
    rw [← zpow_natCast, ← zpow_natCast, ← zpow_add₀ two]
    congr 1; push_cast; omega
  have hi : x < (2 : ℚ) ^ (l + 1) := by
    rw [hx', div_lt_iff₀ hdq]
    have : (2 : ℚ) ^ (l + 1) * 2 ^ Nat.log2 x.den ≤ 2 ^ (l + 1) * x.den := mul_le_mul_of_nonneg_left d1 (zpow_pos (by norm_num) _).le
    refine lt_of_lt_of_le (lt_of_lt_of_eq a2 ?_) this
    rw [← zpow_natCast, ← zpow_natCast, ← zpow_add₀ two]
    congr 1; push_cast; omega
  have hil : ilog x = if x < pow2 l then l - 1 else l := by rw [hl, ha]; rfl
  rw [hil, pow2_eq]
  split
  · rename_i h; exact ⟨lo.le, by rw [sub_add_cancel]; exact h⟩
  · rename_i h; exact ⟨not_lt.mp h, hi⟩

theorem round_at {x : ℚ} {e g n : ℤ} (he1 : (2 : ℚ) ^ e ≤ |x|) (he2 : |x| < 2 ^ (e + 1)) (hg : max (e - 23) (-149) = g)
    (hn : ∀ k : ℤ, |x / 2 ^ g - n| ≤ |x / 2 ^ g - k|) (hn2 : |x / 2 ^ g - n| ≤ 1 / 2) :
    F32 (n * 2 ^ g) ∧ ∀ z, F32 z → |(n : ℚ) * 2 ^ g - x| ≤ |z - x| := by
  have hq : (0 : ℚ) < 2 ^ g := zpow_pos (by norm_num) _
  -- |y - x| is at most the distance to any multiple of 2^g
  have hround : ∀ k : ℤ, |(n : ℚ) * 2 ^ g - x| ≤ |(k : ℚ) * 2 ^ g - x| := by
    intro k
    have h1 : |x / 2 ^ g - n| ≤ |x / 2 ^ g - k| := hn k
    have e1 : ∀ k : ℤ, |(k : ℚ) * 2 ^ g - x| = |x / 2 ^ g - k| * 2 ^ g := by
      intro k
      rw [← abs_of_pos hq, ← abs_mul, abs_of_pos hq, sub_mul, div_mul_cancel₀ _ hq.ne', abs_sub_comm]
    rw [e1, e1]
    exact mul_le_mul_of_nonneg_right h1 hq.le
  have hxg : |x / 2 ^ g| < 2 ^ 24 := by
    rw [abs_div, abs_of_pos hq, div_lt_iff₀ hq]
    refine lt_of_lt_of_le he2 ?_
    have : (2 : ℚ) ^ 24 * 2 ^ g = 2 ^ (24 + g) := by rw [zpow_add₀ (by norm_num : (2 : ℚ) ≠ 0)]; norm_cast
    rw [this]
    exact zpow_le_zpow_right₀ (by norm_num) (by omega)
  have hnle : |n| ≤ 2 ^ 24 := by
    have h1 := abs_lt.mp hxg
    rw [abs_le]
    have h2 : (n : ℚ) < 2 ^ 24 + 1 := by
      have := abs_le.mp hn2; linarith
    have h3 : -(2 ^ 24 + 1 : ℚ) < n := by
      have := abs_le.mp hn2; linarith
    constructor
    · have : -(2 ^ 24 + 1 : ℤ) < n := by exact_mod_cast h3
      omega
    · have : n < (2 ^ 24 + 1 : ℤ) := by exact_mod_cast h2
      omega
  refine ⟨?_, ?_⟩
  · by_cases hlt : |n| < 2 ^ 24
    · exact ⟨n, g, hlt, by omega, rfl⟩
    · have heq : |n| = 2 ^ 24 := le_antisymm hnle (not_lt.mp hlt)
      rcases abs_eq (by norm_num : (0 : ℤ) ≤ 2 ^ 24) |>.mp heq with h | h
      · refine ⟨2 ^ 23, g + 1, by norm_num, by omega, ?_⟩
        rw [h, zpow_add₀ (by norm_num : (2 : ℚ) ≠ 0)]; push_cast; norm_num; ring
      · refine ⟨-2 ^ 23, g + 1, by norm_num, by omega, ?_⟩
        rw [h, zpow_add₀ (by norm_num : (2 : ℚ) ≠ 0)]; push_cast; norm_num; ring
  · intro z hz
    by_cases hm : ∃ k : ℤ, z = k * 2 ^ g
    · obtain ⟨k, rfl⟩ := hm; exact hround k
    · -- then the spacing is e - 23 and |z| < 2^e
      have hge : g = e - 23 := by
        by_contra hne
        have hg149 : g = -149 := by omega
        obtain ⟨m, k, h1, h2, h3⟩ := hz
        apply hm
        refine ⟨m * 2 ^ (k - g).toNat, ?_⟩
        rw [h3]; push_cast
        rw [mul_assoc, ← zpow_natCast (2 : ℚ) (k - g).toNat, Int.toNat_of_nonneg (by omega), ← zpow_add₀ (by norm_num)]
        congr 2; omega
      have hzlt : |z| < 2 ^ e := by
        by_contra hc
        apply hm
        exact f32_multiple hz g (by rw [hge, show e - 23 + 23 = e by omega]; exact not_lt.mp hc)
      -- the multiple ±2^e is closer to x than z
      have hmul : ∃ k : ℤ, (k : ℚ) * 2 ^ g = 2 ^ e := ⟨2 ^ 23, by
        rw [hge, show ((2 ^ 23 : ℤ) : ℚ) = (2 : ℚ) ^ (23 : ℤ) by norm_cast, ← zpow_add₀ (by norm_num)]; congr 1; omega⟩
      obtain ⟨k, hk⟩ := hmul
      rcases le_total 0 x with h0 | h0
      · rw [abs_of_nonneg h0] at he1
        have h1 := hround k
        rw [hk] at h1
        rw [abs_of_nonpos (show (2 : ℚ) ^ e - x ≤ 0 by linarith)] at h1
        have h2 := (abs_lt.mp hzlt).2
        have : x - z ≤ |z - x| := by rw [abs_sub_comm]; exact le_abs_self _
        linarith
      · rw [abs_of_nonpos h0] at he1
        have h1 := hround (-k)
        have hk' : ((-k : ℤ) : ℚ) * 2 ^ g = -2 ^ e := by push_cast; rw [neg_mul, hk]
        rw [hk'] at h1
        rw [abs_of_nonneg (show (0 : ℚ) ≤ -2 ^ e - x by linarith)] at h1
        have h2 := (abs_lt.mp hzlt).1
        have : z - x ≤ |z - x| := le_abs_self _
        linarith

/-- `rne` rounds to nearest. -/
theorem rne_nearest : Nearest rne := by
  have key : ∀ x, F32 (rne x) ∧ ∀ z, F32 z → |rne x - x| ≤ |z - x| := by
    intro x
    unfold rne
    by_cases hx : x = 0
    · rw [if_pos hx]; exact ⟨f32_zero, fun z _ => by rw [hx]; simp⟩
    · rw [if_neg hx]
      obtain ⟨h1, h2⟩ := ilog_spec (abs_pos.mpr hx)
      simp only [pow2_eq]
      exact round_at h1 h2 rfl (half_nearest _) (half_le _)
  exact ⟨fun x => (key x).1, fun x y hy => (key x).2 y hy⟩

/-- A value half-way between two floats goes to the even one. -/
example : rne (2 ^ 24 + 1) = 2 ^ 24 ∧ rne (2 ^ 24 + 3) = 2 ^ 24 + 4 ∧ rne (1 / 3) = 11184811 / 2 ^ 25 ∧ rne (-1 / 2 ^ 150) = 0 := by decide +kernel

end Flt
