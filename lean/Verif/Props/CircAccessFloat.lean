import Verif.Model.CircAccess
import Verif.Lemmas.FltErr
import Mathlib.Tactic.Linarith
import Mathlib.Tactic.Ring
import Mathlib.Tactic.NormNum
import Mathlib.Tactic.Positivity
/-! # Property C172: cross-fades of CircularBufferAccess in binary32 -/

namespace CircAccess
open Flt

/-- **C172** (float elements): writing `d` over `old` at phase `p` stores `d p + old (1 - p)` up to `2^-22` of the larger magnitude (and `2^-148`), for every rounding to nearest. -/
theorem C172_accuracy (rnd : ℚ → ℚ) (hr : Nearest rnd) (p d old M : ℚ) (hp : F32 p) (h0 : 0 ≤ p) (h1 : p ≤ 1) (hd : |d| ≤ M) (ho : |old| ≤ M) :
    |mixF rnd p d old - (d * p + old * (1 - p))| ≤ M / 2 ^ 22 + 1 / 2 ^ 148 := by
  obtain ⟨q, hq⟩ : ∃ q, q = rnd (1 - p) := ⟨_, rfl⟩
  obtain ⟨a, ha⟩ : ∃ a, a = rnd (d * p) := ⟨_, rfl⟩
  obtain ⟨b, hb⟩ : ∃ b, b = rnd (old * q) := ⟨_, rfl⟩
  have hM : 0 ≤ M := le_trans (abs_nonneg _) hd
  have e1 := hr.sub_rel f32_one hp
  rw [← hq, abs_of_nonneg (by linarith : (0 : ℚ) ≤ 1 - p)] at e1
  have hq0 : 0 ≤ q := by rw [hq]; exact hr.ge f32_zero (by linarith)
  have hq1 : q ≤ 1 := by rw [hq]; exact hr.le f32_one (by linarith)
  have e2 := hr.rel (d * p)
  rw [← ha, abs_mul, abs_of_nonneg h0] at e2
  have e3 := hr.rel (old * q)
  rw [← hb, abs_mul, abs_of_nonneg hq0] at e3
  have e4 := hr.add_rel (hr.f32 (d * p)) (hr.f32 (old * q))
  rw [← ha, ← hb] at e4
  have hm : mixF rnd p d old = rnd (a + b) := by unfold mixF; rw [← hq, ← ha, ← hb]
  rw [hm]
  have hdp : |d| * p ≤ M * p := mul_le_mul_of_nonneg_right hd h0
  have hoq : |old| * q ≤ M * q := mul_le_mul_of_nonneg_right ho hq0
  obtain ⟨dq, hdq⟩ : ∃ x, x = q - (1 - p) := ⟨_, rfl⟩
  rw [← hdq] at e1
  have hqe : q = 1 - p + dq := by linarith
  have hodq : |old * dq| ≤ M * ((1 - p) / 2 ^ 24) := by
    rw [abs_mul]
    exact mul_le_mul ho e1 (abs_nonneg _) hM
  have hMq : M * q ≤ M * (1 - p) + M / 2 ^ 24 := by
    have h1 : dq ≤ 1 / 2 ^ 24 := by
      have := (abs_le.1 e1).2
      have h2 : (1 - p) / 2 ^ 24 ≤ 1 / 2 ^ 24 := by linarith
      linarith
    have := mul_le_mul_of_nonneg_left h1 hM
    rw [hqe]
    linarith
  have hMp : M * p + M * (1 - p) = M := by ring
  have hMp0 : 0 ≤ M * p := by positivity
  have hMp1 : 0 ≤ M * (1 - p) := mul_nonneg hM (by linarith)
  have ha' : |a - d * p| ≤ M * p / 2 ^ 24 + 1 / 2 ^ 150 := by linarith
  have hb' : |b - old * q| ≤ M * (1 - p) / 2 ^ 24 + M / 2 ^ 48 + 1 / 2 ^ 150 := by
    have : |old| * q / 2 ^ 24 ≤ (M * (1 - p) + M / 2 ^ 24) / 2 ^ 24 := by linarith
    have h2 : (M * (1 - p) + M / 2 ^ 24) / 2 ^ 24 = M * (1 - p) / 2 ^ 24 + M / 2 ^ 48 := by ring
    linarith
  have hab : |a + b - (d * p + old * q)| ≤ M / 2 ^ 24 + M / 2 ^ 48 + 2 / 2 ^ 150 := by
    have : a + b - (d * p + old * q) = (a - d * p) + (b - old * q) := by ring
    rw [this]
    refine le_trans (abs_add_le _ _) ?_
    have h3 : M * p / 2 ^ 24 + M * (1 - p) / 2 ^ 24 = M / 2 ^ 24 := by rw [← add_div, hMp]
    linarith
  have hsum : |a + b| ≤ M + 2 * M / 2 ^ 24 + M / 2 ^ 48 + 2 / 2 ^ 150 := by
    have h3 : |d * p + old * q| ≤ M + M / 2 ^ 24 := by
      refine le_trans (abs_add_le _ _) ?_
      rw [abs_mul, abs_mul, abs_of_nonneg h0, abs_of_nonneg hq0]
      linarith
    have : a + b = (a + b - (d * p + old * q)) + (d * p + old * q) := by ring
    rw [this]
    refine le_trans (abs_add_le _ _) ?_
    have : 2 * M / 2 ^ 24 = M / 2 ^ 24 + M / 2 ^ 24 := by ring
    linarith
  have hfin : rnd (a + b) - (d * p + old * (1 - p)) = (rnd (a + b) - (a + b)) + (a + b - (d * p + old * q)) + old * dq := by rw [hqe]; ring
  rw [hfin]
  refine le_trans (abs_add_le _ _) ?_
  have h5 := abs_add_le (rnd (a + b) - (a + b)) (a + b - (d * p + old * q))
  have h6 : |a + b| / 2 ^ 24 ≤ (M + 2 * M / 2 ^ 24 + M / 2 ^ 48 + 2 / 2 ^ 150) / 2 ^ 24 := by linarith
  have h7 : M * ((1 - p) / 2 ^ 24) ≤ M / 2 ^ 24 := by
    have : M * ((1 - p) / 2 ^ 24) = M * (1 - p) / 2 ^ 24 := by ring
    linarith
  have h8 : (M + 2 * M / 2 ^ 24 + M / 2 ^ 48 + 2 / 2 ^ 150) / 2 ^ 24 + (M / 2 ^ 24 + M / 2 ^ 48 + 2 / 2 ^ 150) + M / 2 ^ 24 ≤ M / 2 ^ 22 + 1 / 2 ^ 148 := by
    norm_num
    linarith
  linarith

/-- **C172** (float elements): so the stored value leaves the range between the old and the new element by no more than that. -/
theorem C172_between (rnd : ℚ → ℚ) (hr : Nearest rnd) (p d old M : ℚ) (hp : F32 p) (h0 : 0 ≤ p) (h1 : p ≤ 1) (hd : |d| ≤ M) (ho : |old| ≤ M) :
    min d old - (M / 2 ^ 22 + 1 / 2 ^ 148) ≤ mixF rnd p d old ∧ mixF rnd p d old ≤ max d old + (M / 2 ^ 22 + 1 / 2 ^ 148) := by
  have h := abs_le.1 (C172_accuracy rnd hr p d old M hp h0 h1 hd ho)
  have q0 : 0 ≤ 1 - p := by linarith
  have l1 := mul_le_mul_of_nonneg_right (min_le_left d old) h0
  have l2 := mul_le_mul_of_nonneg_right (min_le_right d old) q0
  have r1 := mul_le_mul_of_nonneg_right (le_max_left d old) h0
  have r2 := mul_le_mul_of_nonneg_right (le_max_right d old) q0
  have el : min d old * p + min d old * (1 - p) = min d old := by ring
  have er : max d old * p + max d old * (1 - p) = max d old := by ring
  exact ⟨by linarith [h.1], by linarith [h.2]⟩

/-- **C172** (integer elements of magnitude up to 2^20): the stored value leaves the range between old and new by at most one; if both are non-negative it is at most the larger; and 16-bit samples give values that fit in 16 bits, so that the conversion
back is defined. -/
theorem C172_int (rnd : ℚ → ℚ) (hr : Nearest rnd) (p : ℚ) (hp : F32 p) (h0 : 0 ≤ p) (h1 : p ≤ 1) (d old : Int) (hd : |d| ≤ 2 ^ 20) (ho : |old| ≤ 2 ^ 20) :
    (min d old - 1 ≤ mixInt rnd p d old ∧ mixInt rnd p d old ≤ max d old + 1) ∧
    (0 ≤ d → 0 ≤ old → 0 ≤ mixInt rnd p d old ∧ mixInt rnd p d old ≤ max d old) ∧
    (-2 ^ 15 ≤ d ∧ d < 2 ^ 15 → -2 ^ 15 ≤ old ∧ old < 2 ^ 15 → -2 ^ 15 ≤ mixInt rnd p d old ∧ mixInt rnd p d old < 2 ^ 15) := by
  have fd : rnd (d : ℚ) = d := hr.fix (f32_int d (by linarith [show (2 : Int) ^ 20 < 2 ^ 24 by norm_num]))
  have fo : rnd (old : ℚ) = old := hr.fix (f32_int old (by linarith [show (2 : Int) ^ 20 < 2 ^ 24 by norm_num]))
  have hd' : |(d : ℚ)| ≤ 2 ^ 20 := by exact_mod_cast hd
  have ho' : |(old : ℚ)| ≤ 2 ^ 20 := by exact_mod_cast ho
  obtain ⟨x, hx⟩ : ∃ x, x = mixF rnd p (d : ℚ) (old : ℚ) := ⟨_, rfl⟩
  have hb := C172_between rnd hr p d old (2 ^ 20) hp h0 h1 hd' ho'
  rw [← hx] at hb
  have hsmall : (2 ^ 20 : ℚ) / 2 ^ 22 + 1 / 2 ^ 148 < 1 := by norm_num
  have hlo : ((min d old : Int) : ℚ) - 1 < x := by
    rw [Int.cast_min]
    linarith [hb.1]
  have hhi : x < ((max d old : Int) : ℚ) + 1 := by
    rw [Int.cast_max]
    linarith [hb.2]
  have hv : mixInt rnd p d old = if 0 ≤ x then ⌊x⌋ else ⌈x⌉ := by
    unfold mixInt
    simp only [fd, fo, ← hx]
  rw [hv]
  split
  · next hxn =>
    have hf : ⌊x⌋ ≤ max d old := by
      have : ⌊x⌋ < max d old + 1 := by
        rw [Int.floor_lt]; push_cast; push_cast at hhi; exact hhi
      omega
    have hf0 : 0 ≤ ⌊x⌋ := Int.floor_nonneg.2 hxn
    have hf1 : min d old - 1 ≤ ⌊x⌋ := by
      rw [Int.le_floor]; push_cast; push_cast at hlo; linarith
    refine ⟨⟨hf1, by omega⟩, fun _ _ => ⟨hf0, hf⟩, fun a b => ⟨by omega, by omega⟩⟩
  · next hxn =>
    have hc : min d old ≤ ⌈x⌉ := by
      have : min d old - 1 < ⌈x⌉ := by
        rw [Int.lt_ceil]; push_cast; push_cast at hlo; exact hlo
      omega
    have hc0 : ⌈x⌉ ≤ 0 := by rw [Int.ceil_le]; push_cast; linarith
    have hc1 : ⌈x⌉ ≤ max d old + 1 := by
      rw [Int.ceil_le]; push_cast; push_cast at hhi; linarith
    refine ⟨⟨by omega, hc1⟩, fun a b => ⟨by omega, by omega⟩, fun a b => ⟨by omega, by omega⟩⟩

/-- **C172 is violated** in that a constant integer signal does not stay constant: writing 3 over 3 at a phase near 0.044 stores 2, whichever way ties are rounded. -/
theorem C172_constant_violated (rnd : ℚ → ℚ) (hr : Nearest rnd) :
    F32 (11842569 / 2 ^ 28) ∧ mixInt rnd (11842569 / 2 ^ 28) 3 3 = 2 := by
  have q : rnd (1 - 11842569 / 2 ^ 28) = (16037055 : ℤ) * (2 : ℚ) ^ (-24 : ℤ) :=
    hr.eq_of_close _ _ _ (by norm_num) (by norm_num) (by rw [abs_of_nonneg] <;> norm_num) (by rw [abs_lt]; norm_num)
  have a : rnd (3 * (11842569 / 2 ^ 28)) = (8881927 : ℤ) * (2 : ℚ) ^ (-26 : ℤ) :=
    hr.eq_of_close _ _ _ (by norm_num) (by norm_num) (by rw [abs_of_nonneg] <;> norm_num) (by rw [abs_lt]; norm_num)
  have b : rnd (3 * ((16037055 : ℤ) * (2 : ℚ) ^ (-24 : ℤ))) = (12027791 : ℤ) * (2 : ℚ) ^ (-22 : ℤ) :=
    hr.eq_of_close _ _ _ (by norm_num) (by norm_num) (by rw [abs_of_nonneg] <;> norm_num) (by rw [abs_lt]; norm_num)
  have x : rnd ((8881927 : ℤ) * (2 : ℚ) ^ (-26 : ℤ) + (12027791 : ℤ) * (2 : ℚ) ^ (-22 : ℤ)) = (12582911 : ℤ) * (2 : ℚ) ^ (-22 : ℤ) :=
    hr.eq_of_close _ _ _ (by norm_num) (by norm_num) (by rw [abs_of_nonneg] <;> norm_num) (by rw [abs_lt]; norm_num)
  have f3 : rnd ((3 : Int) : ℚ) = 3 := by
    rw [hr.fix (f32_int 3 (by norm_num))]; norm_num
  have hm : mixF rnd (11842569 / 2 ^ 28) 3 3 = (12582911 : ℤ) * (2 : ℚ) ^ (-22 : ℤ) := by
    unfold mixF; rw [q, a, b, x]
  refine ⟨by have := f32_div 11842569 (by norm_num) 28 (by norm_num); norm_num at this ⊢; exact this, ?_⟩
  unfold mixInt
  simp only [f3, hm]
  rw [if_pos (by norm_num), Int.floor_eq_iff]
  norm_num

example (rnd : ℚ → ℚ) (hr : Nearest rnd) := C172_int rnd hr (1 / 4) (by have := f32_div 1 (by norm_num) 2 (by norm_num); norm_num at this ⊢; exact this) (by norm_num) (by norm_num) (-32768) 32767 (by norm_num) (by norm_num)

end CircAccess
