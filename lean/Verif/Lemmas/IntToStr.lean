import Verif.Model.IntToStr
import Verif.Spec.IntToStr
/-! # Lemmas on digits -/
namespace Digits
open Spec

/-- `n` digits with leading zeros. -/
def pad (B : Nat) : Nat → Nat → List Nat
  | 0, _ => []
  | n + 1, v => pad B n (v / B) ++ [v % B]

theorem pad_length (B n v : Nat) : (pad B n v).length = n := by
  induction n generalizing v with
  | zero => rfl
  | succ n ih => simp [pad, ih]

/-- The most significant digit first. -/
theorem pad_msd (B n v : Nat) (hB : 0 < B) (h : v < B ^ (n + 1)) : pad B (n + 1) v = (v / B ^ n) :: pad B n (v % B ^ n) := by
  induction n generalizing v with
  | zero => simp at h; simp [pad, Nat.mod_eq_of_lt h]
  | succ n ih =>
    rw [pad, ih (v / B) (by rw [Nat.div_lt_iff_lt_mul hB, ← Nat.pow_succ]; exact h)]
    rw [pad, List.cons_append, Nat.div_div_eq_div_mul, ← Nat.pow_succ']
    congr 3
    · rw [Nat.pow_succ', Nat.mod_mul_right_div_self]
    · rw [Nat.pow_succ', Nat.mod_mul_right_mod]

theorem pad_zero_succ (B n v : Nat) (hB : 0 < B) (h : v < B ^ n) : pad B (n + 1) v = 0 :: pad B n v := by
  rw [pad_msd B n v hB (Nat.lt_of_lt_of_le h (Nat.pow_le_pow_right hB (by omega))), Nat.div_eq_of_lt h, Nat.mod_eq_of_lt h]

theorem digits_eq_pad (b n v : Nat) (h1 : (b + 2) ^ n ≤ v) (h2 : v < (b + 2) ^ (n + 1)) : digits b v = pad (b + 2) (n + 1) v := by
  induction n generalizing v with
  | zero =>
    simp at h2
    rw [digits, if_pos (by omega)]; simp [pad, Nat.mod_eq_of_lt h2]
  | succ n ih =>
    have hge : b + 2 ≤ v := Nat.le_trans (Nat.le_self_pow (by omega) _) h1
    rw [digits, if_neg (by omega), pad]
    congr 1
    apply ih
    · rw [Nat.le_div_iff_mul_le (by omega), ← Nat.pow_succ]; exact h1
    · rw [Nat.div_lt_iff_lt_mul (by omega), ← Nat.pow_succ]; exact h2

def places (B : Nat) : Nat → List Nat
  | 0 => []
  | n + 1 => B ^ n :: places B n

theorem sub_div_mul (v p : Nat) : v - v / p * p = v % p := by
  have := Nat.div_add_mod v p
  rw [Nat.mul_comm] at this
  omega

theorem mod_lt_pow (v B n : Nat) (hB : 0 < B) : v % B ^ n < B ^ n := Nat.mod_lt _ (Nat.pow_pos hB)

theorem numDigits_eq (v : Nat) : IntToStr.numDigits v = (dec v).length := by
  have hl : ∀ v, 10 ≤ v → (dec v).length = (dec (v / 10)).length + 1 := by
    intro v hv
    rw [dec, digits, if_neg (by omega)]; simp [dec]
  have h1 : ∀ v, v < 10 → (dec v).length = 1 := by
    intro v hv
    rw [dec, digits, if_pos (by omega)]; rfl
  induction v using Nat.strongRecOn with
  | ind v ih =>
    rw [IntToStr.numDigits]
    split
    · rw [h1 v (by omega)]
    · rw [hl v (by omega)]
      split
      · rw [h1 _ (by omega)]
      · rw [hl _ (by omega)]
        split
        · rw [h1 _ (by omega)]
        · rw [hl _ (by omega)]
          split
          · rw [h1 _ (by omega)]
          · rw [hl _ (by omega)]
            split
            · rw [h1 _ (by omega)]
            · rw [hl _ (by omega), ih _ (by omega)]
              simp only [Nat.div_div_eq_div_mul, Nat.reduceMul]

theorem dec_length_places (v : Nat) (h0 : 0 < v) (h : v < 10 ^ n) : ∃ k, k < n ∧ 10 ^ k ≤ v ∧ v < 10 ^ (k + 1) := by
  induction n with
  | zero => simp at h; omega
  | succ n ih =>
    by_cases hv : v < 10 ^ n
    · obtain ⟨k, h1, h2⟩ := ih hv; exact ⟨k, by omega, h2⟩
    · exact ⟨n, by omega, by omega, h⟩

end Digits
