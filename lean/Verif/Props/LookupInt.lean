import Verif.Model.LookupInt
import Mathlib.Tactic.Linarith
/-! # Property C188: look-up tables of integers -/
namespace LookupInt
open ParamsInt

theorem conv_in (t : Ty) (x : Int) (hw : 0 < t.w) (h : InTy t x) : conv t x = x := by
  have e : (2 : Int) ^ t.w = 2 * 2 ^ (t.w - 1) := by
    obtain ⟨k, hk⟩ : ∃ k, t.w = k + 1 := ⟨t.w - 1, by omega⟩
    rw [hk, Nat.add_sub_cancel, Int.pow_succ, Int.mul_comm]
  unfold conv
  unfold InTy at h
  by_cases hs : t.signed = true
  · rw [if_pos hs] at h ⊢
    rw [Int.emod_eq_of_lt (by omega) (by omega)]; omega
  · rw [if_neg hs] at h ⊢
    exact Int.emod_eq_of_lt h.1 h.2

theorem arith_in (t : Ty) (x : Int) (h : InTy (prom t) x) : arith t x = .ok x := by
  have hw : 0 < (prom t).w := by unfold prom; split <;> (try dsimp only) <;> omega
  unfold arith op
  rw [if_neg (by rintro ⟨_, _, h'⟩; exact h' h), conv_in _ _ hw h]

/-- Converting to T after a multiplication modulo a power of two at least as wide as T. -/
theorem conv_mod (t : Ty) (x : Int) (S : Nat) (h : t.w ≤ S) : conv t (x % 2 ^ S) = conv t x := by
  obtain ⟨k, hk⟩ : ∃ k, S = t.w + k := ⟨S - t.w, by omega⟩
  have hd : (2 : Int) ^ t.w ∣ 2 ^ S := by rw [hk, pow_add]; exact Dvd.intro _ rfl
  unfold conv
  split
  · congr 1
    rw [Int.add_emod, Int.emod_emod_of_dvd _ hd, ← Int.add_emod]
  · exact Int.emod_emod_of_dvd _ hd

/-- The index, when nothing overflows: the quotient rounded towards zero, times NumPoints - 1. -/
theorem index_eq (S : Nat) (t : Ty) (N : Nat) (min max val : Int) (hw : 0 < t.w) (h1 : InTy (prom t) (val - min)) (h2 : InTy (prom t) (max - min)) (hlt : min < max)
    (hq : InTy (prom t) ((val - min).tdiv (max - min))) (hN : InTy t ((val - min).tdiv (max - min) * (N - 1 : Nat))) :
    index S t N min max val = .ok ((val - min).tdiv (max - min) * (N - 1 : Nat)) := by
  unfold index
  rw [arith_in t _ h1, R.bind_ok, arith_in t _ h2, R.bind_ok, if_neg (by omega), arith_in t _ hq, R.bind_ok]
  unfold timesSize
  have hp : t.w ≤ (prom t).w := by unfold prom; split <;> (try dsimp only) <;> omega
  by_cases hS : (prom t).w ≤ S
  · rw [if_pos hS, R.bind_ok, conv_mod t _ S (by omega), conv_in t _ hw hN]
  · rw [if_neg hS]
    have : InTy (prom t) ((val - min).tdiv (max - min) * (N - 1 : Nat)) := by
      unfold prom
      split
      next hlt32 =>
        unfold InTy at hN ⊢
        have e1 : (2 : Int) ^ t.w ≤ 2 ^ 31 := by exact_mod_cast Nat.pow_le_pow_right (by omega) (show t.w ≤ 31 by omega)
        have e2 : (2 : Int) ^ (t.w - 1) ≤ 2 ^ 31 := by exact_mod_cast Nat.pow_le_pow_right (by omega) (show t.w - 1 ≤ 31 by omega)
        simp only [if_true, show (32 : Nat) - 1 = 31 from rfl]
        generalize (val - min).tdiv (max - min) * ((N - 1 : Nat) : Int) = z at *
        split at hN
        · constructor <;> omega
        · constructor <;> omega
      next => exact hN
    have := arith_in t _ this
    unfold arith at this
    rw [this, R.bind_ok, conv_in t _ hw hN]

theorem tdiv_nonpos {a b : Int} (ha : a ≤ 0) (hb : 0 < b) : a.tdiv b ≤ 0 := by
  have := Int.tdiv_nonneg (show 0 ≤ -a by omega) (Int.le_of_lt hb)
  rw [Int.neg_tdiv] at this
  omega

theorem tdiv_range (t : Ty) (a b : Int) (hb : 0 < b) (h : InTy t a) : InTy t (a.tdiv b) := by
  have h0 : (0 : Int) < 2 ^ (t.w - 1) := by positivity
  have h1 : (0 : Int) < 2 ^ t.w := by positivity
  unfold InTy at h ⊢
  have hn := Int.natAbs_tdiv_le_natAbs a b
  rcases Int.le_total 0 a with ha | ha
  · have := Int.tdiv_nonneg ha (Int.le_of_lt hb)
    split at h <;> rename_i hs
    · rw [if_pos hs]; constructor <;> omega
    · rw [if_neg hs]; constructor <;> omega
  · have : (a.tdiv b) ≤ 0 := tdiv_nonpos ha hb
    split at h <;> rename_i hs
    · rw [if_pos hs]; constructor <;> omega
    · have : a = 0 := by omega
      subst this
      rw [if_neg hs]; simp

/-- **C188** (partial): for every integer type and table: when the differences and the index fit their types, the look-up gives the first point for every value below max and the last point from max on. It never gives a point in between.
Missing: the interpolation (see below), and the indices that do not fit. -/
theorem C188_ends_partial (S : Nat) (t : Ty) (points : List Int) (min max val : Int) (hw : 0 < t.w) (hp : 2 ≤ points.length) (hlt : min < max) (h1 : InTy (prom t) (val - min))
    (h2 : InTy (prom t) (max - min)) (hfit : InTy t ((val - min).tdiv (max - min) * (points.length - 1 : Nat))) :
    lookup S t points min max val = .ok (points.getD (if val < max then 0 else points.length - 1) 0) := by
  have hi := index_eq S t points.length min max val hw h1 h2 hlt (tdiv_range _ _ _ (by omega) h1) hfit
  unfold lookup
  rw [hi, R.bind_ok]
  have hg : ∀ k, k < points.length → arrGet points k = .ok (points.getD k 0) := by
    intro k hk
    rw [arrGet_lt hk, List.getD_eq_getElem?_getD, List.getElem?_eq_getElem hk]; rfl
  have hn : (0 : Int) ≤ (points.length - 1 : Nat) := Int.natCast_nonneg _
  by_cases hv : val < max
  · have : (val - min).tdiv (max - min) ≤ 0 := by
      rcases Int.le_total 0 (val - min) with h | h
      · rw [Int.tdiv_eq_zero_of_lt h (by omega)]
      · exact tdiv_nonpos h (by omega)
    rw [if_pos (Int.mul_nonpos_of_nonpos_of_nonneg this hn), if_pos hv]
    exact hg 0 (by omega)
  · have : 1 ≤ (val - min).tdiv (max - min) := by
      rw [Int.tdiv_eq_ediv_of_nonneg (by omega)]
      exact (Int.le_ediv_iff_mul_le (by omega)).mpr (by omega)
    have h3 : ((points.length - 1 : Nat) : Int) ≤ (val - min).tdiv (max - min) * (points.length - 1 : Nat) := by
      have := Int.mul_le_mul_of_nonneg_right this hn
      omega
    rw [if_neg (by omega), if_pos (by omega), if_neg hv]
    exact hg _ (by omega)

example := C188_ends_partial 64 ⟨16, true⟩ [7, 8, 9] (-500) 500 700 (by decide) (by decide) (by decide) (by decide) (by decide) (by decide)

/-- **C188** (partial): inside the range of the table no value is outside that theorem, if the number of points fits the type and max - min does not overflow. -/
theorem C188_inside_partial (S : Nat) (t : Ty) (points : List Int) (min max val : Int) (hw : 0 < t.w) (hp : 2 ≤ points.length) (hn : InTy t (points.length - 1 : Nat)) (hlt : min < max)
    (h2 : InTy (prom t) (max - min)) (hmin : min ≤ val) (hmax : val ≤ max) :
    lookup S t points min max val = .ok (points.getD (if val < max then 0 else points.length - 1) 0) := by
  have h0 : InTy t 0 := by
    have : (0 : Int) < 2 ^ (t.w - 1) := by positivity
    have : (0 : Int) < 2 ^ t.w := by positivity
    unfold InTy; split <;> constructor <;> omega
  refine C188_ends_partial S t points min max val hw hp hlt ?_ h2 ?_
  · have : (0 : Int) < 2 ^ ((prom t).w - 1) := by positivity
    unfold InTy at h2 ⊢
    split at h2 <;> rename_i hs
    · rw [if_pos hs]; constructor <;> omega
    · rw [if_neg hs]; constructor <;> omega
  · by_cases hv : val < max
    · rw [Int.tdiv_eq_zero_of_lt (by omega) (by omega), Int.zero_mul]; exact h0
    · rw [show val = max by omega, Int.tdiv_self (by omega), Int.one_mul]; exact hn

example := C188_inside_partial 64 ⟨16, true⟩ [7, 8, 9] (-500) 500 499 (by decide) (by decide) (by decide) (by decide) (by decide) (by decide) (by decide)

theorem conv_range (t : Ty) (x : Int) (hw : 0 < t.w) : InTy t (conv t x) := by
  have e : (2 : Int) ^ t.w = 2 * 2 ^ (t.w - 1) := by
    obtain ⟨k, hk⟩ : ∃ k, t.w = k + 1 := ⟨t.w - 1, by omega⟩
    rw [hk, Nat.add_sub_cancel, Int.pow_succ, Int.mul_comm]
  have h0 : (0 : Int) < 2 ^ t.w := by positivity
  unfold conv InTy
  split
  · have := Int.emod_nonneg (x + 2 ^ (t.w - 1)) (Int.ne_of_gt h0)
    have := Int.emod_lt_of_pos (x + 2 ^ (t.w - 1)) h0
    constructor <;> omega
  · exact ⟨Int.emod_nonneg x (Int.ne_of_gt h0), Int.emod_lt_of_pos x h0⟩

theorem arith_conv (t : Ty) (x : Int) (h : (prom t).signed = true → InTy (prom t) x) : arith t x = .ok (conv (prom t) x) := by
  unfold arith op
  rw [if_neg (by rintro ⟨h1, _, h2⟩; exact h2 (h h1))]

/-- **C188**: exactly what the look-up does, for every integer type not wider than `size_t` and every value for which it is defined: with q the quotient of val - min by max - min rounded towards zero (the difference modulo 2^w for unsigned types
not narrower than `int`), the result is the point with index q (NumPoints - 1), wrapped to T and limited to the table. -/
theorem C188_exact (S : Nat) (t : Ty) (points : List Int) (min max val : Int) (hw : 0 < t.w) (hS : (prom t).w ≤ S) (hp : 2 ≤ points.length) (hp32 : points.length ≤ 2 ^ 32) (hlt : min < max)
    (h1 : (prom t).signed = true → InTy (prom t) (val - min)) (h2 : InTy (prom t) (max - min))
    (hv : ∀ v ∈ points, InTy t v) (hd : ∀ i, i + 1 < points.length → (prom t).signed = true → InTy (prom t) (points.getD (i + 1) 0 - points.getD i 0)) :
    lookup S t points min max val =
      .ok (points.getD (Min.min (Max.max 0 (conv t ((conv (prom t) (val - min)).tdiv (max - min) * (points.length - 1 : Nat)))) (points.length - 1 : Nat)).toNat 0) := by
  have hpw : 0 < (prom t).w := by unfold prom; split <;> (try dsimp only) <;> omega
  have hpt : t.w ≤ (prom t).w := by unfold prom; split <;> (try dsimp only) <;> omega
  have hg : ∀ k, k < points.length → arrGet points k = .ok (points.getD k 0) := by
    intro k hk
    rw [arrGet_lt hk, List.getD_eq_getElem?_getD, List.getElem?_eq_getElem hk]; rfl
  have hi : index S t points.length min max val = .ok (conv t ((conv (prom t) (val - min)).tdiv (max - min) * (points.length - 1 : Nat))) := by
    unfold index
    rw [arith_conv t _ h1, R.bind_ok, arith_in t _ h2, R.bind_ok, if_neg (by omega), arith_in t _ (tdiv_range _ _ _ (by omega) (conv_range _ _ hpw)), R.bind_ok]
    unfold timesSize
    rw [if_pos hS, R.bind_ok, conv_mod t _ S (by omega)]
  unfold lookup
  rw [hi, R.bind_ok]
  generalize conv t ((conv (prom t) (val - min)).tdiv (max - min) * (points.length - 1 : Nat)) = z
  by_cases hz : z ≤ 0
  · rw [if_pos hz, show (Min.min (Max.max 0 z) ((points.length - 1 : Nat) : Int)).toNat = 0 by omega]
    exact hg 0 (by omega)
  · rw [if_neg hz]
    by_cases hz2 : (points.length : Int) - 1 ≤ z
    · rw [if_pos hz2, show (Min.min (Max.max 0 z) ((points.length - 1 : Nat) : Int)).toNat = points.length - 1 by omega]
      exact hg _ (by omega)
    · rw [if_neg hz2, show (Min.min (Max.max 0 z) ((points.length - 1 : Nat) : Int)).toNat = z.toNat by omega]
      have hm : z % 2 ^ 32 = z := Int.emod_eq_of_lt (by omega) (by omega)
      have h0 : InTy t 0 := by
        have : (0 : Int) < 2 ^ (t.w - 1) := by positivity
        have : (0 : Int) < 2 ^ t.w := by positivity
        unfold InTy; split <;> constructor <;> omega
      have h0p : InTy (prom t) 0 := by
        have : (0 : Int) < 2 ^ ((prom t).w - 1) := by positivity
        have : (0 : Int) < 2 ^ (prom t).w := by positivity
        unfold InTy; split <;> constructor <;> omega
      have hmem : InTy t (points.getD z.toNat 0) := by
        apply hv
        rw [List.getD_eq_getElem?_getD, List.getElem?_eq_getElem (show z.toNat < points.length by omega)]
        exact List.getElem_mem _
      have hmp : InTy (prom t) (points.getD z.toNat 0) := by
        unfold prom
        split
        next hlt32 =>
          unfold InTy at hmem ⊢
          have e1 : (2 : Int) ^ t.w ≤ 2 ^ 31 := by exact_mod_cast Nat.pow_le_pow_right (by omega) (show t.w ≤ 31 by omega)
          have e2 : (2 : Int) ^ (t.w - 1) ≤ 2 ^ 31 := by exact_mod_cast Nat.pow_le_pow_right (by omega) (show t.w - 1 ≤ 31 by omega)
          simp only [if_true, show (32 : Nat) - 1 = 31 from rfl]
          split at hmem
          · constructor <;> omega
          · constructor <;> omega
        next => exact hmem
      simp only [hm]
      rw [hg _ (by omega), R.bind_ok, hg _ (by omega), R.bind_ok, arith_conv t _ (hd _ (by omega)), R.bind_ok, show z - ((z.toNat : Nat) : Int) = 0 by omega, conv_in t 0 hw h0, Int.zero_mul,
        arith_in t _ h0p, R.bind_ok, Int.add_zero, arith_in t _ hmp, R.bind_ok, conv_in t _ hw hmem]

/-- **C188** (violated): `LookupTable<5, int>(0, 100, {0, 10, 20, 30, 40})` at 50, or 99, is 0. -/
theorem C188_interpolation_violated : lookup 32 ⟨32, true⟩ [0, 10, 20, 30, 40] 0 100 50 = .ok 0 ∧ lookup 32 ⟨32, true⟩ [0, 10, 20, 30, 40] 0 100 99 = .ok 0 ∧
    lookup 32 ⟨32, true⟩ [0, 10, 20, 30, 40] 0 100 100 = .ok 40 := by decide +kernel

/-- **C188** (violated): with an unsigned type, a value below min gives the last point: `LookupTable<2, uint32_t>(10, 20, {1, 2})` at 9. -/
theorem C188_below_violated : lookup 32 ⟨32, false⟩ [1, 2] 10 20 9 = .ok 2 := by decide +kernel

/-- **C188** (violated): far above max the index wraps: a table of 100 `int8_t` from 0 to 1 gives its first point at 2, and one of 101 `uint8_t` gives point 44 at 3. -/
theorem C188_above_violated : lookup 32 ⟨8, true⟩ ((List.range 100).map fun i : Nat => (i : Int)) 0 1 2 = .ok 0 ∧
    lookup 32 ⟨8, false⟩ ((List.range 101).map fun i : Nat => (i : Int)) 0 1 3 = .ok 44 := by decide +kernel

/-- A case that meets the hypotheses: a table of `int16_t` with 64-bit `size_t`, below, in and above the range. -/
example : InTy (prom ⟨16, true⟩) (700 - (-500)) ∧ InTy (prom ⟨16, true⟩) (500 - (-500)) ∧ InTy ⟨16, true⟩ (Int.tdiv (700 - (-500)) (500 - (-500)) * (3 - 1 : Nat)) ∧
    lookup 64 ⟨16, true⟩ [7, 8, 9] (-500) 500 700 = .ok 9 ∧ lookup 64 ⟨16, true⟩ [7, 8, 9] (-500) 500 (-9000) = .ok 7 ∧ lookup 64 ⟨16, true⟩ [7, 8, 9] (-500) 500 499 = .ok 7 := by decide +kernel
example : lookup 32 ⟨64, true⟩ [7, 8, 9] (-500) 500 700 = .ok 9 ∧ lookup 32 ⟨64, true⟩ [7, 8, 9] 3 3 700 = .ub := by decide +kernel
example : lookup 32 ⟨32, false⟩ [7, 8, 9] 10 20 9 = .ok 9 :=
  (C188_exact 32 ⟨32, false⟩ [7, 8, 9] 10 20 9 (by decide) (by decide) (by decide) (by decide) (by decide) (by intro h; cases h) (by decide) (by decide) (by intro _ _ h; cases h)).trans (by decide +kernel)

end LookupInt
