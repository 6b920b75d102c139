import Verif.Spec.IntMath
/-! # Properties C78 to C85, C88, C89, C124, C125: integer functions -/

namespace IntMath
open Spec

/-! ## Powers of two -/

/-- **C78**: is_power_of_2 is true exactly for the powers of two. -/
theorem C78_is_power_of_2 (v : Nat) : isPowerOf2 v = true ↔ IsPow2 v := by
  unfold isPowerOf2 IsPow2
  simp only [Bool.and_eq_true, bne_iff_ne, ne_eq, beq_iff_eq]
  exact Nat.ne_zero_and_sub_one_eq_zero_iff_isPowerOfTwo

theorem and_bit (x i : Nat) : x &&& (1 <<< i) ≠ 0 ↔ x.testBit i = true := by
  rw [Nat.one_shiftLeft]
  constructor
  · intro h
    cases hb : x.testBit i with
    | true => rfl
    | false =>
      exfalso; apply h
      apply Nat.eq_of_testBit_eq
      intro j
      rw [Nat.testBit_and, Nat.testBit_two_pow, Nat.zero_testBit]
      by_cases hj : i = j
      · subst hj; simp [hb]
      · simp [hj]
  · intro h h0
    have := congrArg (·.testBit i) h0
    simp [Nat.testBit_and, h, Nat.testBit_two_pow] at this

theorem log2Loop_spec (x : Nat) : ∀ n, x < 2 ^ n → x ≠ 0 → 2 ^ log2Loop x n ≤ x ∧ x < 2 ^ (log2Loop x n + 1) := by
  intro n
  induction n with
  | zero => intro h h0; simp at h; omega
  | succ n ih =>
    intro h h0
    rw [log2Loop]
    by_cases hb : x &&& (1 <<< n) ≠ 0
    · rw [if_pos hb]
      exact ⟨Nat.ge_two_pow_of_testBit ((and_bit x n).mp hb), h⟩
    · rw [if_neg hb]
      apply ih _ h0
      apply Nat.lt_of_not_le
      intro hge
      apply hb
      rw [and_bit, Nat.testBit_eq_decide_div_mod_eq]
      have h1 : x / 2 ^ n = 1 := by
        apply Nat.div_eq_of_lt_le
        · omega
        · rw [Nat.pow_succ] at h; omega
      rw [h1]; decide

/-- **C78**: log2_floor(v) is the k with 2^k ≤ v < 2^(k+1), for every positive 32-bit v. -/
theorem C78_log2_floor (v : Nat) (h : v < 2 ^ 32) (h0 : v ≠ 0) : 2 ^ log2Floor v ≤ v ∧ v < 2 ^ (log2Floor v + 1) := log2Loop_spec v 32 h h0

/-- **C78**: Log2<N> is the same, for every N ≥ 1. -/
theorem C78_Log2 : ∀ (n : Nat), n ≠ 0 → 2 ^ log2T n ≤ n ∧ n < 2 ^ (log2T n + 1) := by
  intro n
  induction n using Nat.strongRecOn with
  | ind n ih =>
    intro h0
    rw [log2T]
    by_cases h : n ≤ 1
    · rw [dif_pos h]; have : n = 1 := by omega
      subst this; decide
    · rw [dif_neg h]
      obtain ⟨i1, i2⟩ := ih (n / 2) (by omega) (by omega)
      rw [Nat.pow_succ] at i2
      rw [Nat.pow_succ, Nat.pow_succ, Nat.pow_succ]
      omega

/-- **C78**: hence the two logarithms agree. -/
theorem C78_agree (v : Nat) (h : v < 2 ^ 32) (h0 : v ≠ 0) : log2T v = log2Floor v := by
  obtain ⟨a1, a2⟩ := C78_log2_floor v h h0
  obtain ⟨b1, b2⟩ := C78_Log2 v h0
  have := (Nat.log2_eq_iff h0).mpr ⟨a1, a2⟩
  have := (Nat.log2_eq_iff h0).mpr ⟨b1, b2⟩
  omega

example : isPowerOf2 4096 = true ∧ isPowerOf2 4097 = false ∧ isPowerOf2 0 = false ∧ log2Floor 1000 = 9 ∧ log2Floor 4294967295 = 31 := by decide +kernel

theorem log2_unique (v k : Nat) (h1 : 2 ^ k ≤ v) (h2 : v < 2 ^ (k + 1)) (p : Nat) (hp : IsPow2 p) (hvp : v < p) : 2 ^ (k + 1) ≤ p := by
  obtain ⟨j, rfl⟩ := hp
  apply Nat.pow_le_pow_right (by omega)
  have : k < j := (Nat.pow_lt_pow_iff_right (show 1 < 2 by omega)).mp (Nat.lt_of_le_of_lt h1 hvp)
  omega

/-- Bits `k-m+1 .. k` are set, those above `k` are not. -/
def Smeared (k m v : Nat) : Prop := ∀ i : Nat, (i ≤ k → k < i + m → v.testBit i = true) ∧ (k < i → v.testBit i = false)

theorem smear_step (k m v : Nat) (h : Smeared k m v) : Smeared k (m + m) (v ||| (v >>> m)) := by
  intro i
  rw [Nat.testBit_or, Nat.testBit_shiftRight]
  refine ⟨fun h1 h2 => ?_, fun h1 => ?_⟩
  · by_cases hi : k < i + m
    · rw [(h i).1 h1 hi]; rfl
    · rw [(h (m + i)).1 (by omega) (by omega)]; simp
  · rw [(h i).2 h1, (h (m + i)).2 (by omega)]; rfl

theorem smeared_full (k m v : Nat) (h : Smeared k m v) (hm : k < m) : v = 2 ^ (k + 1) - 1 := by
  apply Nat.eq_of_testBit_eq
  intro i
  rw [Nat.testBit_two_pow_sub_one]
  by_cases hi : i ≤ k
  · rw [(h i).1 hi (by omega)]; simp; omega
  · rw [(h i).2 (by omega)]; simp; omega

/-- The result of the shift-and-or sequence. -/
theorem smear_all (w k v : Nat) (hw : w = 8 ∨ w = 16 ∨ w = 32 ∨ w = 64) (hk : k < w) (h1 : 2 ^ k ≤ v) (h2 : v < 2 ^ (k + 1)) :
    (let v := v ||| (v >>> 1)
     let v := v ||| (v >>> 2)
     let v := v ||| (v >>> 4)
     let v := if w > 8 then v ||| (v >>> 8) else v
     let v := if w > 16 then v ||| (v >>> 16) else v
     let v := if w > 32 then v ||| (v >>> 32) else v
     v) = 2 ^ (k + 1) - 1 := by
  have h0 : v ≠ 0 := by have := Nat.two_pow_pos k; omega
  have s0 : Smeared k 1 v := by
    intro i
    refine ⟨fun a b => ?_, fun a => ?_⟩
    · have e : i = v.log2 := by rw [(Nat.log2_eq_iff h0).mpr ⟨h1, h2⟩]; omega
      rw [e]; exact Nat.testBit_log2 h0
    · apply Nat.testBit_lt_two_pow
      exact Nat.lt_of_lt_of_le h2 (Nat.pow_le_pow_right (by omega) (by omega))
  have s1 := smear_step k 1 _ s0
  have s2 := smear_step k 2 _ s1
  have s3 := smear_step k 4 _ s2
  have s4 := smear_step k 8 _ s3
  have s5 := smear_step k 16 _ s4
  have s6 := smear_step k 32 _ s5
  rcases hw with rfl | rfl | rfl | rfl
  · exact smeared_full k 8 _ s3 hk
  · exact smeared_full k 16 _ s4 hk
  · exact smeared_full k 32 _ s5 hk
  · exact smeared_full k 64 _ s6 hk

/-- The exact condition under which next_power_of_2 is right for values above 1: the test for a power of two, which looks at the low 32 bits, is right. -/
theorem next_of_test (w v : Nat) (hw : w = 8 ∨ w = 16 ∨ w = 32 ∨ w = 64) (hv : v < 2 ^ w) (ht : isPowerOf2 (v % 2 ^ 32) = true ↔ IsPow2 v) :
    (∃ r, r < 2 ^ w ∧ LeastPow2 v r ∧ nextPowerOf2 w v = r) ∨ ((∀ r, LeastPow2 v r → ¬ r < 2 ^ w) ∧ nextPowerOf2 w v = 0) := by
  by_cases h01 : v = 0 ∨ v = 1
  · left
    refine ⟨1, ?_, ⟨⟨0, rfl⟩, by omega, ?_⟩, ?_⟩
    · rcases hw with rfl | rfl | rfl | rfl <;> decide
    · rintro p ⟨k, rfl⟩ _; exact Nat.one_le_two_pow
    · rw [nextPowerOf2, if_pos h01]
  · by_cases hp : isPowerOf2 (v % 2 ^ 32) = true
    · left
      refine ⟨v, hv, ⟨ht.mp hp, Nat.le_refl _, fun p _ h => h⟩, ?_⟩
      rw [nextPowerOf2, if_neg h01, if_pos hp]
    · have hnp : ¬ IsPow2 v := fun h => hp (ht.mpr h)
      have h0 : v ≠ 0 := by omega
      obtain ⟨k, hk⟩ : ∃ k, v.log2 = k := ⟨_, rfl⟩
      obtain ⟨a1, a2⟩ := (Nat.log2_eq_iff h0).mp hk
      have hkw : k < w := by
        have := Nat.lt_of_le_of_lt a1 hv
        exact (Nat.pow_lt_pow_iff_right (show 1 < 2 by omega)).mp this
      have hnext : nextPowerOf2 w v = 2 ^ (k + 1) % 2 ^ w := by
        rw [nextPowerOf2, if_neg h01, if_neg hp]
        have := smear_all w k v hw hkw a1 a2
        simp only at this ⊢
        rw [this]
        have := Nat.two_pow_pos (k + 1)
        rw [show 2 ^ (k + 1) - 1 + 1 = 2 ^ (k + 1) by omega]
      have hleast : LeastPow2 v (2 ^ (k + 1)) := by
        refine ⟨⟨k + 1, rfl⟩, by omega, ?_⟩
        intro p hp' hvp
        rcases Nat.lt_or_ge v p with h | h
        · exact log2_unique v k a1 a2 p hp' h
        · have : p = v := by omega
          subst this; exact absurd hp' hnp
      by_cases hkw' : k + 1 < w
      · left
        have hlt : 2 ^ (k + 1) < 2 ^ w := Nat.pow_lt_pow_right (by omega) hkw'
        exact ⟨2 ^ (k + 1), hlt, hleast, by rw [hnext, Nat.mod_eq_of_lt hlt]⟩
      · right
        have e : k + 1 = w := by omega
        refine ⟨?_, by rw [hnext, e, Nat.mod_self]⟩
        intro r hr hlt
        have := hr.2.2
        have h1 := hr.1
        rcases Nat.lt_or_ge v r with h | h
        · have := log2_unique v k a1 a2 r h1 h
          rw [e] at this; omega
        · have : r = v := by have := hr.2.1; omega
          subst this; exact hnp h1

/-- **C79**: for 8-, 16- and 32-bit types, next_power_of_2(v) is the least power of two that is at least v if the type can represent it, else 0. -/
theorem C79_next_power_of_2 (w v : Nat) (hw : w = 8 ∨ w = 16 ∨ w = 32) (hv : v < 2 ^ w) :
    (∃ r, r < 2 ^ w ∧ LeastPow2 v r ∧ nextPowerOf2 w v = r) ∨ ((∀ r, LeastPow2 v r → ¬ r < 2 ^ w) ∧ nextPowerOf2 w v = 0) := by
  apply next_of_test w v (by omega) hv
  have : v < 2 ^ 32 := Nat.lt_of_lt_of_le hv (Nat.pow_le_pow_right (by omega) (by omega))
  rw [Nat.mod_eq_of_lt this]
  exact C78_is_power_of_2 v

example := C79_next_power_of_2 16 4097 (by decide) (by decide)

/-- **C79** (partial): for 64-bit types the same, for values below 2^32 and for values where neither the value nor its low half is a power of two. -/
theorem C79_next64_partial (v : Nat) (hv : v < 2 ^ 64) (h : v < 2 ^ 32 ∨ (¬ IsPow2 v ∧ ¬ IsPow2 (v % 2 ^ 32))) :
    (∃ r, r < 2 ^ 64 ∧ LeastPow2 v r ∧ nextPowerOf2 64 v = r) ∨ ((∀ r, LeastPow2 v r → ¬ r < 2 ^ 64) ∧ nextPowerOf2 64 v = 0) := by
  apply next_of_test 64 v (by omega) hv
  rcases h with h | ⟨h1, h2⟩
  · rw [Nat.mod_eq_of_lt h]; exact C78_is_power_of_2 v
  · rw [C78_is_power_of_2]; exact ⟨fun h => absurd h h2, fun h => absurd h h1⟩

/-- **C79, violated** for 64-bit types: every power of two from 2^32 on (other than the top one) is mapped to its double ... -/
theorem C79_pow2_violated (k : Nat) (h1 : 32 ≤ k) (h2 : k < 63) : nextPowerOf2 64 (2 ^ k) = 2 ^ (k + 1) ∧ LeastPow2 (2 ^ k) (2 ^ k) := by
  refine ⟨?_, ⟨⟨k, rfl⟩, Nat.le_refl _, fun p _ h => h⟩⟩
  have hlt : 2 ^ 32 ≤ 2 ^ k := Nat.pow_le_pow_right (by omega) h1
  have hmod : 2 ^ k % 2 ^ 32 = 0 := Nat.mod_eq_zero_of_dvd (Nat.pow_dvd_pow 2 h1)
  rw [nextPowerOf2, if_neg (by omega), hmod, if_neg (by decide)]
  have := smear_all 64 k (2 ^ k) (by omega) (by omega) (Nat.le_refl _) (Nat.pow_lt_pow_right (by omega) (by omega))
  simp only at this ⊢
  rw [this]
  have hp := Nat.two_pow_pos (k + 1)
  have hlt2 : 2 ^ (k + 1) < 2 ^ 64 := Nat.pow_lt_pow_right (by omega) (by omega)
  rw [show 2 ^ (k + 1) - 1 + 1 = 2 ^ (k + 1) by omega, Nat.mod_eq_of_lt hlt2]

/-- ... and every value from 2^32 on whose low half is a power of two is returned unchanged, though it is not one. -/
theorem C79_low_violated (j hi : Nat) (hj : j < 32) (h0 : 0 < hi) :
    nextPowerOf2 64 (hi * 2 ^ 32 + 2 ^ j) = hi * 2 ^ 32 + 2 ^ j ∧ ¬ IsPow2 (hi * 2 ^ 32 + 2 ^ j) := by
  have hj' : 2 ^ j < 2 ^ 32 := Nat.pow_lt_pow_right (by omega) hj
  have hp := Nat.two_pow_pos j
  constructor
  · rw [nextPowerOf2, if_neg (by omega), Nat.mul_add_mod_self_right, Nat.mod_eq_of_lt hj', if_pos ((C78_is_power_of_2 _).mpr ⟨j, rfl⟩)]
  · rintro ⟨k, hk⟩
    have hk32 : 32 < k := by
      apply Nat.lt_of_not_le
      intro h
      have := Nat.pow_le_pow_right (show 0 < 2 by omega) h
      omega
    have : (hi * 2 ^ 32 + 2 ^ j) % 2 ^ 32 = 0 := by rw [hk]; exact Nat.mod_eq_zero_of_dvd (Nat.pow_dvd_pow 2 (by omega))
    rw [Nat.mul_add_mod_self_right, Nat.mod_eq_of_lt hj'] at this
    omega

example : nextPowerOf2 32 513 = 1024 ∧ nextPowerOf2 32 0x80000001 = 0 ∧ nextPowerOf2 64 0x100000000 = 0x200000000 ∧ nextPowerOf2 64 0x300000001 = 0x300000001 ∧
    nextPowerOf2 8 200 = 0 ∧ nextPowerOf2 8 100 = 128 := by decide +kernel

/-! ## ipow -/

/-- **C124**: ipow(a, b) is a^b modulo 2^32. -/
theorem C124_ipow (a b : Nat) : ipow a b % 2 ^ 32 = a ^ b % 2 ^ 32 := by
  induction b with
  | zero => rfl
  | succ b ih => rw [ipow, Nat.mod_mod, Nat.mul_mod, ih, ← Nat.mul_mod, show a ^ (b + 1) = a ^ b * a from Nat.pow_succ a b, Nat.mul_comm]

/-- **C124**: bipolar_type_range is the maximum of the signed type of that size, for 1-, 2- and 4-byte types (the whole table); for 8-byte types it is
2^32 - 1. -/
theorem C124_bipolar : bipolarTypeRange 1 = 2 ^ 7 - 1 ∧ bipolarTypeRange 2 = 2 ^ 15 - 1 ∧ bipolarTypeRange 4 = 2 ^ 31 - 1 ∧ bipolarTypeRange 8 = 2 ^ 32 - 1 := by
  decide +kernel

example : ipow 3 4 = 81 ∧ ipow 2 32 = 0 ∧ ipow 7 100 = 7 ^ 100 % 2 ^ 32 := by decide +kernel

/-! ## wrap -/

/-- **C80**: wrap<Max>(val) terminates with val mod Max, for every positive Max; it loops for ever if Max is 0. -/
theorem C80_wrap_max (max val : Nat) : wrapMax max val = if max = 0 then none else some (val % max) := by
  induction val using Nat.strongRecOn with
  | ind val ih =>
    rw [wrapMax]
    by_cases h0 : max = 0
    · rw [if_pos h0, dif_pos (by omega), dif_pos h0]
    · rw [if_neg h0]
      by_cases h : val ≥ max
      · rw [dif_pos h, dif_neg h0, ih (val - max) (by omega), if_neg h0, ← Nat.mod_eq_sub_mod h]
      · rw [dif_neg h, Nat.mod_eq_of_lt (by omega)]

theorem wrapDown_spec (lo hi min max : Int) (hmm : min ≤ max) (h1 : lo ≤ min) : ∀ (n : Nat) (val : Int), (val - max).toNat = n → val ≤ hi →
    ∃ k : Nat, wrapDown lo hi (max - min + 1) max val = .ok (val - k * (max - min + 1)) ∧ val - k * (max - min + 1) ≤ max ∧
      (max < val → min ≤ val - k * (max - min + 1)) ∧ (val ≤ max → k = 0) := by
  intro n
  induction n using Nat.strongRecOn with
  | ind n ih =>
    intro val hn hv
    rw [wrapDown]
    by_cases h : val > max
    · rw [dif_pos h, dif_neg (by omega), if_pos ⟨by omega, by omega⟩]
      obtain ⟨k, e, a, b, c⟩ := ih (val - (max - min + 1) - max).toNat (by omega) (val - (max - min + 1)) rfl (by omega)
      refine ⟨k + 1, ?_, ?_, ?_, ?_⟩
      · rw [e]; congr 1; rw [Int.natCast_add, Int.add_mul]; omega
      · rw [Int.natCast_add, Int.add_mul]; omega
      · intro _
        rw [Int.natCast_add, Int.add_mul]
        by_cases hh : max < val - (max - min + 1)
        · have := b hh; omega
        · have := c (by omega); subst this; simp; omega
      · intro g; omega
    · rw [dif_neg h]
      exact ⟨0, by simp, by simp; omega, fun g => absurd g h, fun _ => rfl⟩

theorem wrapUp_spec (lo hi min max : Int) (hmm : min ≤ max) (h1 : max ≤ hi) : ∀ (n : Nat) (val : Int), (min - val).toNat = n → lo ≤ val →
    ∃ k : Nat, wrapUp lo hi (max - min + 1) min val = .ok (val + k * (max - min + 1)) ∧ min ≤ val + k * (max - min + 1) ∧
      (val < min → val + k * (max - min + 1) ≤ max) ∧ (min ≤ val → k = 0) := by
  intro n
  induction n using Nat.strongRecOn with
  | ind n ih =>
    intro val hn hv
    rw [wrapUp]
    by_cases h : val < min
    · rw [dif_pos h, dif_neg (by omega), if_pos ⟨by omega, by omega⟩]
      obtain ⟨k, e, a, b, c⟩ := ih (min - (val + (max - min + 1))).toNat (by omega) (val + (max - min + 1)) rfl (by omega)
      refine ⟨k + 1, ?_, ?_, ?_, ?_⟩
      · rw [e]; congr 1; rw [Int.natCast_add, Int.add_mul]; omega
      · rw [Int.natCast_add, Int.add_mul]; omega
      · intro _
        rw [Int.natCast_add, Int.add_mul]
        by_cases hh : val + (max - min + 1) < min
        · have := b hh; omega
        · have := c (by omega); subst this; simp; omega
      · intro g; omega
    · rw [dif_neg h]
      exact ⟨0, by simp, by simp; omega, fun g => absurd g h, fun _ => rfl⟩

/-- **C80**: for a signed type with values lo..hi and every val, min ≤ max of that type whose number of values max - min + 1 the type can represent, wrap
terminates without overflow with the value in [min, max] that differs from val by a multiple of max - min + 1. -/
theorem C80_wrap (lo hi val min max : Int) (hmm : min ≤ max) (h1 : lo ≤ min) (h2 : max ≤ hi) (hv1 : lo ≤ val) (hv2 : val ≤ hi) (hlo : lo ≤ 0)
    (hr : max - min + 1 ≤ hi) : ∃ (r k : Int), wrap lo hi val min max = .ok r ∧ min ≤ r ∧ r ≤ max ∧ r = val + k * (max - min + 1) := by
  have e1 : wrap lo hi val min max = (do let val ← wrapDown lo hi (max - min + 1) max val; wrapUp lo hi (max - min + 1) min val) := by
    rw [wrap, fit, if_pos ⟨by omega, by omega⟩, R.bind_ok, fit, if_pos ⟨by omega, by omega⟩, R.bind_ok]
  obtain ⟨k, a1, a2, a3, a4⟩ := wrapDown_spec lo hi min max hmm h1 _ val rfl hv2
  rw [e1, a1, R.bind_ok]
  by_cases hgt : max < val
  · have := a3 hgt
    rw [wrapUp, dif_neg (by omega)]
    exact ⟨_, -k, rfl, this, a2, by rw [Int.neg_mul]; omega⟩
  · have hk := a4 (by omega)
    subst hk
    simp only [Int.natCast_zero, Int.zero_mul, Int.sub_zero] at *
    obtain ⟨j, b1, b2, b3, b4⟩ := wrapUp_spec lo hi min max hmm h2 _ val rfl hv1
    refine ⟨_, j, b1, b2, ?_, rfl⟩
    by_cases hlt : val < min
    · exact b3 hlt
    · have := b4 (by omega); subst this; simp; omega

/-- **C80**: the value is unique. -/
theorem C80_unique (min max r r' k : Int) (h1 : min ≤ r) (h2 : r ≤ max) (h3 : min ≤ r') (h4 : r' ≤ max) (h : r = r' + k * (max - min + 1)) : r = r' := by
  rcases Int.lt_trichotomy k 0 with hk | hk | hk
  · have : k * (max - min + 1) ≤ (-1) * (max - min + 1) := Int.mul_le_mul_of_nonneg_right (by omega) (by omega)
    omega
  · subst hk; omega
  · have : 1 * (max - min + 1) ≤ k * (max - min + 1) := Int.mul_le_mul_of_nonneg_right (by omega) (by omega)
    omega

/-- **C80, boundary**: if max - min + 1 is not representable the behaviour is undefined. -/
theorem C80_range_needed (lo hi val min max : Int) (hr : max - min + 1 > hi) : wrap lo hi val min max = .ub := by
  rw [wrap, fit]
  by_cases h : lo ≤ max - min ∧ max - min ≤ hi
  · rw [if_pos h, R.bind_ok, fit, if_neg (by omega), R.bind_ub]
  · rw [if_neg h, R.bind_ub, R.bind_ub]

example : wrapMax 12 30 = some 6 ∧ (-99 : Int) = 1 + (-50) * (2 - 1 + 1) := by
  constructor
  · rw [C80_wrap_max]; decide
  · decide
example : ∃ r k, wrap (-2147483648) 2147483647 (-99) 1 2 = .ok r ∧ 1 ≤ r ∧ r ≤ 2 ∧ r = -99 + k * (2 - 1 + 1) :=
  C80_wrap _ _ (-99) 1 2 (by decide) (by decide) (by decide) (by decide) (by decide) (by decide) (by decide)

/-! ## Clamp, differences -/

/-- **C81**: constrain clamps into [min, max]: it is val if val is inside, else the nearer end. -/
theorem C81_constrain (val mn mx : Int) (h : mn ≤ mx) : mn ≤ constrain val mn mx ∧ constrain val mn mx ≤ mx ∧ (mn ≤ val ∧ val ≤ mx → constrain val mn mx = val) ∧
    (val < mn → constrain val mn mx = mn) ∧ (mx < val → constrain val mn mx = mx) := by
  unfold constrain; split <;> (try split) <;> omega

example := C81_constrain 12 (-3) 7 (by decide)

/-- **C81**: max and min are the larger and the smaller of the two values. -/
theorem C81_max_min (a b : Int) : (max a b = a ∨ max a b = b) ∧ a ≤ max a b ∧ b ≤ max a b ∧ (min a b = a ∨ min a b = b) ∧ min a b ≤ a ∧ min a b ≤ b := by
  unfold max min; split <;> split <;> omega

/-- **C81**: between is x - low if low ≤ x ≤ high, else empty; no overflow in an unsigned type, nor in a signed one if x - low is representable. -/
theorem C81_between (tlo thi x low high : Int) (h : tlo ≤ x - low ∧ x - low ≤ thi) :
    between tlo thi x low high = .ok (if low ≤ x ∧ x ≤ high then some (x - low) else none) := by
  unfold between
  by_cases hb : x ≥ low ∧ x ≤ high
  · rw [if_pos hb, if_pos hb, fit, if_pos h, R.bind_ok]
  · rw [if_neg hb, if_neg (by simpa using hb)]

/-- **C81**: abs_diff and diff are the distance |x - y|, and symmetric, if the type can represent it (undefined otherwise). -/
theorem C81_abs_diff (tlo thi x y : Int) (h0 : tlo ≤ 0) :
    (absDiff tlo thi x y = if (x - y).natAbs ≤ thi then .ok (x - y).natAbs else .ub) ∧ (diff tlo thi x y = if (x - y).natAbs ≤ thi then .ok (x - y).natAbs else .ub) ∧
    absDiff tlo thi x y = absDiff tlo thi y x ∧ diff tlo thi x y = diff tlo thi y x := by
  have a : ∀ x y, absDiff tlo thi x y = if ((x - y).natAbs : Int) ≤ thi then .ok (x - y).natAbs else .ub := by
    intro x y
    unfold absDiff fit
    by_cases h : x ≥ y
    · rw [if_pos h, show ((x - y).natAbs : Int) = x - y by omega]
      by_cases h2 : x - y ≤ thi
      · rw [if_pos h2, if_pos ⟨by omega, h2⟩]
      · rw [if_neg h2, if_neg (fun g => h2 g.2)]
    · rw [if_neg h, show ((x - y).natAbs : Int) = y - x by omega]
      by_cases h2 : y - x ≤ thi
      · rw [if_pos h2, if_pos ⟨by omega, h2⟩]
      · rw [if_neg h2, if_neg (fun g => h2 g.2)]
  have b : ∀ x y, diff tlo thi x y = if ((x - y).natAbs : Int) ≤ thi then .ok (x - y).natAbs else .ub := by
    intro x y
    unfold diff fit
    by_cases h : x > y
    · rw [if_pos h, show ((x - y).natAbs : Int) = x - y by omega]
      by_cases h2 : x - y ≤ thi
      · rw [if_pos h2, if_pos ⟨by omega, h2⟩]
      · rw [if_neg h2, if_neg (fun g => h2 g.2)]
    · rw [if_neg h, show ((x - y).natAbs : Int) = y - x by omega]
      by_cases h2 : y - x ≤ thi
      · rw [if_pos h2, if_pos ⟨by omega, h2⟩]
      · rw [if_neg h2, if_neg (fun g => h2 g.2)]
  refine ⟨a x y, b x y, ?_, ?_⟩
  · rw [a, a, show (x - y).natAbs = (y - x).natAbs by omega]
  · rw [b, b, show (x - y).natAbs = (y - x).natAbs by omega]

/-- **C81**: in particular in an unsigned type (values 0..thi) both always are the exact distance. -/
theorem C81_abs_diff_unsigned (thi x y : Int) (hx : 0 ≤ x ∧ x ≤ thi) (hy : 0 ≤ y ∧ y ≤ thi) :
    absDiff 0 thi x y = .ok (x - y).natAbs ∧ diff 0 thi x y = .ok (x - y).natAbs := by
  obtain ⟨h1, h2, _⟩ := C81_abs_diff 0 thi x y (by omega)
  rw [h1, h2, if_pos (by omega)]; exact ⟨rfl, rfl⟩

example : constrain 15 0 10 = 10 ∧ between 0 4294967295 7 5 9 = .ok (some 2) ∧ absDiff 0 4294967295 3 10 = .ok 7 ∧ absDiff (-2147483648) 2147483647 (-2147483648) 1 = .ub := by
  decide

/-! ## plateau -/

/-- **C82**: for every width, and val and center such that center ± width/2 and the result are in the 32-bit range: 0 inside the plateau, else the signed distance to
the nearer edge. -/
theorem C82_plateau (val : Int) (width : Nat) (center : Int) (e : Int) (he : e = (width / 2 : Nat)) (h1 : -2147483648 ≤ center - e) (h2 : center + e ≤ 2147483647)
    (h3 : -2147483648 ≤ val - center) (h4 : val - center ≤ 2147483647) :
    plateau val width center = .ok (if val > center + e then val - (center + e) else if val < center - e then val - (center - e) else 0) := by
  have e0 : 0 ≤ e := by rw [he]; omega
  have t1 : toI32 (center + (width / 2 : Nat)) = center + e := by unfold toI32; rw [← he]; omega
  have t2 : toI32 (center - (width / 2 : Nat)) = center - e := by unfold toI32; rw [← he]; omega
  simp only [plateau]
  rw [t1, t2]
  split
  · rw [i32, fit, if_pos ⟨by omega, by omega⟩]
  · split
    · rw [i32, fit, if_pos ⟨by omega, by omega⟩]
    · rfl

/-- **C82**: so it is odd around the center ... -/
theorem C82_odd (width : Nat) (center d r r' : Int) (e : Int) (he : e = (width / 2 : Nat)) (h1 : -2147483648 ≤ center - e) (h2 : center + e ≤ 2147483647) (h3 : -2147483647 ≤ d) (h4 : d ≤ 2147483647)
    (hr : plateau (center + d) width center = .ok r) (hr' : plateau (center - d) width center = .ok r') : r' = -r := by
  rw [C82_plateau (center + d) width center e he h1 h2 (by omega) (by omega)] at hr
  rw [C82_plateau (center - d) width center e he h1 h2 (by omega) (by omega)] at hr'
  simp only [R.ok.injEq] at hr hr'
  have : 0 ≤ e := by omega
  subst hr hr'
  split <;> split <;> (try split) <;> (try split) <;> omega

/-- ... monotone, and it never moves by more than the input does. -/
theorem C82_monotone_lipschitz (width : Nat) (center a b ra rb : Int) (e : Int) (he : e = (width / 2 : Nat)) (h1 : -2147483648 ≤ center - e) (h2 : center + e ≤ 2147483647)
    (ha : -2147483648 ≤ a - center) (hab : a ≤ b) (hb : b - center ≤ 2147483647)
    (hr : plateau a width center = .ok ra) (hr' : plateau b width center = .ok rb) : ra ≤ rb ∧ rb - ra ≤ b - a := by
  rw [C82_plateau a width center e he h1 h2 (by omega) (by omega)] at hr
  rw [C82_plateau b width center e he h1 h2 (by omega) (by omega)] at hr'
  simp only [R.ok.injEq] at hr hr'
  have : 0 ≤ e := by omega
  subst hr hr'
  split <;> split <;> (try split) <;> (try split) <;> omega

example : plateau (-32) 60 0 = .ok (-2) ∧ plateau 30 60 0 = .ok 0 ∧ plateau 131 60 100 = .ok 1 ∧ plateau 2147483647 10 (-2147483000) = .ub := by decide

/-! ## array_adj_diff -/

/-- **C125**: array_adj_diff has one element less, and element i is a[i+1] - a[i] ... -/
theorem C125_adj_diff : ∀ (a : List Int), (adjDiff a).length = a.length - 1 ∧
    ∀ (i : Nat) (x y : Int), a[i]? = some x → a[i + 1]? = some y → (adjDiff a)[i]? = some (y - x) := by
  intro a
  induction a with
  | nil => exact ⟨rfl, fun i x y h _ => by simp at h⟩
  | cons a l ih =>
    cases l with
    | nil => exact ⟨rfl, fun i x y _ h => by simp at h⟩
    | cons b l =>
      refine ⟨by simp only [adjDiff, List.length_cons] at ih ⊢; omega, ?_⟩
      intro i x y hx hy
      cases i with
      | zero => simp only [List.getElem?_cons_zero, Option.some.injEq, Nat.zero_add, List.getElem?_cons_succ] at hx hy; subst hx hy; rfl
      | succ i =>
        rw [List.getElem?_cons_succ] at hx hy
        exact ih.2 i x y hx hy

/-- ... so the original is recovered by summing: a[k] = a[0] + the first k differences. -/
theorem C125_telescope : ∀ (a : List Int) (k : Nat) (x y : Int), a[0]? = some x → a[k]? = some y → y = x + ((adjDiff a).take k).sum := by
  intro a
  induction a with
  | nil => intro k x y h; simp at h
  | cons a l ih =>
    intro k x y hx hy
    simp only [List.getElem?_cons_zero, Option.some.injEq] at hx
    subst hx
    cases k with
    | zero => simp only [List.getElem?_cons_zero, Option.some.injEq] at hy; simp [hy]
    | succ k =>
      rw [List.getElem?_cons_succ] at hy
      cases l with
      | nil => simp at hy
      | cons b l =>
        have := ih k b y rfl hy
        rw [adjDiff, List.take_succ_cons, List.sum_cons, this]; omega

example : adjDiff [3, 10, 4] = [7, -6] := rfl

/-! ## Byte swaps -/

/-- **C83**: swap_bytes16 exchanges the two bytes. -/
theorem C83_swap16 (hi lo : BitVec 8) : swapBytes16 (hi ++ lo) = lo ++ hi := by
  unfold swapBytes16
  apply BitVec.eq_of_toNat_eq
  have h1 := hi.isLt
  have h2 := lo.isLt
  have e1 : ((hi ++ lo : BitVec 16) &&& 0xFF).toNat = lo.toNat := by
    rw [BitVec.toNat_and, show BitVec.toNat (0xFF : BitVec 16) = 2 ^ 8 - 1 from rfl, Nat.and_two_pow_sub_one_eq_mod, BitVec.toNat_append]
    rw [← Nat.shiftLeft_add_eq_or_of_lt h2, Nat.shiftLeft_eq]; omega
  rw [BitVec.toNat_or, BitVec.toNat_shiftLeft, e1, BitVec.toNat_ushiftRight, BitVec.toNat_append, BitVec.toNat_append]
  rw [← Nat.shiftLeft_add_eq_or_of_lt h2, ← Nat.shiftLeft_add_eq_or_of_lt h1]
  have e2 : (hi.toNat <<< 8 + lo.toNat) >>> 8 = hi.toNat := by rw [Nat.shiftRight_eq_div_pow, Nat.shiftLeft_eq]; omega
  have e3 : lo.toNat <<< 8 % 2 ^ 16 = lo.toNat <<< 8 := by rw [Nat.shiftLeft_eq]; omega
  rw [e2, e3, ← Nat.shiftLeft_add_eq_or_of_lt h1]

/-- The bits of a word made of four bytes. -/
theorem bits4 (x : BitVec 32) (b3 b2 b1 b0 : BitVec 8) (hx : x = b3 ++ b2 ++ b1 ++ b0) (i : Nat) :
    x.getLsbD i = if i < 8 then b0.getLsbD i else if i - 8 < 8 then b1.getLsbD (i - 8) else if i - 8 - 8 < 8 then b2.getLsbD (i - 8 - 8)
      else b3.getLsbD (i - 8 - 8 - 8) := by
  subst hx
  have a := BitVec.getLsbD_append (x := b3 ++ b2 ++ b1) (y := b0) (i := i)
  rw [BitVec.getLsbD_append (x := b3 ++ b2) (y := b1), BitVec.getLsbD_append (x := b3) (y := b2)] at a
  exact a

/-- The bits of a half word made of two bytes. -/
theorem bits2 (x : BitVec 16) (b1 b0 : BitVec 8) (hx : x = b1 ++ b0) (i : Nat) :
    x.getLsbD i = if i < 8 then b0.getLsbD i else b1.getLsbD (i - 8) := by
  subst hx
  exact BitVec.getLsbD_append (x := b1) (y := b0) (i := i)

/-- The bits of a float. -/
theorem bitsF (x : BitVec 32) (s : BitVec 1) (e : BitVec 8) (f : BitVec 23) (hx : x = s ++ e ++ f) (i : Nat) :
    x.getLsbD i = if i < 23 then f.getLsbD i else if i - 23 < 8 then e.getLsbD (i - 23) else s.getLsbD (i - 23 - 8) := by
  subst hx
  have a := BitVec.getLsbD_append (x := s ++ e) (y := f) (i := i)
  rw [BitVec.getLsbD_append (x := s) (y := e)] at a
  exact a

/-- **C83**: swap_bytes32 reverses the four bytes. -/
theorem C83_swap32 (b3 b2 b1 b0 : BitVec 8) : swapBytes32 (b3 ++ b2 ++ b1 ++ b0) = b0 ++ b1 ++ b2 ++ b3 := by
  obtain ⟨x, hx⟩ : ∃ x : BitVec 32, x = b3 ++ b2 ++ b1 ++ b0 := ⟨_, rfl⟩
  obtain ⟨y, hy⟩ : ∃ y : BitVec 32, y = b0 ++ b1 ++ b2 ++ b3 := ⟨_, rfl⟩
  rw [← hx, ← hy]
  have hx' := bits4 x _ _ _ _ hx
  have hy' := bits4 y _ _ _ _ hy
  clear hx hy
  apply BitVec.eq_of_getLsbD_eq
  intro i hi
  unfold swapBytes32
  have hall : i ∈ List.range 32 := List.mem_range.mpr hi
  simp only [List.range, List.range.loop, List.mem_cons, List.not_mem_nil, or_false] at hall
  rcases hall with h | h | h | h | h | h | h | h | h | h | h | h | h | h | h | h | h | h | h | h | h | h | h | h | h | h | h | h | h | h | h | h <;>
    subst h <;> (first | (simp only [BitVec.getLsbD_or, BitVec.getLsbD_shiftLeft, BitVec.getLsbD_ushiftRight, BitVec.getLsbD_and, hx', hy']; simp))

/-- **C83**: both swaps are involutions. -/
theorem C83_involution (h : BitVec 16) (w : BitVec 32) : swapBytes16 (swapBytes16 h) = h ∧ swapBytes32 (swapBytes32 w) = w := by
  constructor
  · obtain ⟨a, b, rfl⟩ : ∃ (a b : BitVec 8), h = a ++ b := ⟨h.extractLsb' 8 8, h.extractLsb' 0 8, by
      apply BitVec.eq_of_getLsbD_eq; intro i hi; simp only [BitVec.getLsbD_append, BitVec.getLsbD_extractLsb']
      by_cases h8 : i < 8
      · simp [h8]
      · simp [h8]; rw [show 8 + (i - 8) = i by omega]; simp; intro; omega⟩
    rw [C83_swap16, C83_swap16]
  · obtain ⟨a, b, c, d, rfl⟩ : ∃ (a b c d : BitVec 8), w = a ++ b ++ c ++ d := ⟨w.extractLsb' 24 8, w.extractLsb' 16 8, w.extractLsb' 8 8, w.extractLsb' 0 8, by
      have hx' := bits4 _ (w.extractLsb' 24 8) (w.extractLsb' 16 8) (w.extractLsb' 8 8) (w.extractLsb' 0 8) rfl
      apply BitVec.eq_of_getLsbD_eq; intro i hi
      have hall : i ∈ List.range 32 := List.mem_range.mpr hi
      simp only [List.range, List.range.loop, List.mem_cons, List.not_mem_nil, or_false] at hall
      rcases hall with h | h | h | h | h | h | h | h | h | h | h | h | h | h | h | h | h | h | h | h | h | h | h | h | h | h | h | h | h | h | h | h <;>
        subst h <;> simp only [hx', BitVec.getLsbD_extractLsb'] <;> simp⟩
    rw [C83_swap32, C83_swap32]

/-- **C83**: swap_bytes_and_combine puts the byte-swapped first half above the byte-swapped second half. -/
theorem C83_combine (a1 a0 b1 b0 : BitVec 8) : swapBytesAndCombine (a1 ++ a0) (b1 ++ b0) = a0 ++ a1 ++ b0 ++ b1 ∧
    swapBytesAndCombine (a1 ++ a0) (b1 ++ b0) = swapBytes16 (a1 ++ a0) ++ swapBytes16 (b1 ++ b0) := by
  have key : swapBytesAndCombine (a1 ++ a0) (b1 ++ b0) = a0 ++ a1 ++ b0 ++ b1 := by
    obtain ⟨x, hx⟩ : ∃ x : BitVec 16, x = a1 ++ a0 := ⟨_, rfl⟩
    obtain ⟨z, hz⟩ : ∃ x : BitVec 16, x = b1 ++ b0 := ⟨_, rfl⟩
    obtain ⟨y, hy⟩ : ∃ y : BitVec 32, y = a0 ++ a1 ++ b0 ++ b1 := ⟨_, rfl⟩
    rw [← hx, ← hz, ← hy]
    have hx' := bits2 x _ _ hx
    have hz' := bits2 z _ _ hz
    have hy' := bits4 y _ _ _ _ hy
    clear hx hy hz
    apply BitVec.eq_of_getLsbD_eq
    intro i hi
    unfold swapBytesAndCombine
    have hall : i ∈ List.range 32 := List.mem_range.mpr hi
    simp only [List.range, List.range.loop, List.mem_cons, List.not_mem_nil, or_false] at hall
    rcases hall with h | h | h | h | h | h | h | h | h | h | h | h | h | h | h | h | h | h | h | h | h | h | h | h | h | h | h | h | h | h | h | h <;>
      subst h <;> (simp only [BitVec.getLsbD_or, BitVec.getLsbD_shiftLeft, BitVec.getLsbD_ushiftRight, BitVec.getLsbD_and, BitVec.getLsbD_setWidth, hx', hy', hz']; simp)
  refine ⟨key, ?_⟩
  rw [key, C83_swap16, C83_swap16]
  apply BitVec.eq_of_getLsbD_eq
  intro i hi
  simp only [BitVec.getLsbD_append]
  split <;> (try split) <;> (try split) <;> (try split) <;> (try split) <;> (try omega) <;> (try rfl) <;> (try (congr 1; omega))

example : swapBytes32 0x12345678 = 0x78563412 ∧ swapBytes16 0xABCD = 0xCDAB ∧ swapBytesAndCombine 0x1234 0x5678 = 0x34127856 := by decide

/-! ## interpolate -/

/-- **C84** (partial): for non-negative values whose products with the phase fit 31 bits, and 0 ≤ phase ≤ PhaseMax: the weighted mean rounded down; it is in1 at phase 0,
in2 at PhaseMax, and between them otherwise. Missing: negative values (see below). -/
theorem C84_interpolate_partial (pm : Nat) (in1 in2 phase : Int) (hpm : 0 < pm) (hpm2 : (pm : Int) < 4294967296) (h1 : 0 ≤ in1) (h2 : 0 ≤ in2) (hp : 0 ≤ phase) (hp2 : phase ≤ pm)
    (hb1 : in1 * pm < 2147483648) (hb2 : in2 * pm < 2147483648) :
    interpolate pm in1 in2 phase = .ok ((in2 * phase + in1 * (pm - phase)) / pm) ∧
    (∀ r, interpolate pm in1 in2 phase = .ok r → (in1 ≤ in2 → in1 ≤ r ∧ r ≤ in2) ∧ (in2 ≤ in1 → in2 ≤ r ∧ r ≤ in1) ∧ (phase = 0 → r = in1) ∧ (phase = pm → r = in2)) := by
  have hpm' : (0 : Int) < pm := by omega
  have a1 : 0 ≤ in2 * phase := Int.mul_nonneg h2 hp
  have a2 : in2 * phase ≤ in2 * pm := Int.mul_le_mul_of_nonneg_left hp2 h2
  have a3 : 0 ≤ in1 * (pm - phase) := Int.mul_nonneg h1 (by omega)
  have a4 : in1 * (pm - phase) ≤ in1 * pm := Int.mul_le_mul_of_nonneg_left (by omega) h1
  -- the sum is between the two scaled end points
  have lowb : (in1 ≤ in2 → in1 * pm ≤ in2 * phase + in1 * (pm - phase) ∧ in2 * phase + in1 * (pm - phase) ≤ in2 * pm) ∧
      (in2 ≤ in1 → in2 * pm ≤ in2 * phase + in1 * (pm - phase) ∧ in2 * phase + in1 * (pm - phase) ≤ in1 * pm) := by
    have e1 : in1 * (pm - phase) = in1 * pm - in1 * phase := Int.mul_sub _ _ _
    have e2 : in2 * (pm - phase) = in2 * pm - in2 * phase := Int.mul_sub _ _ _
    constructor
    · intro h
      have g1 : in1 * phase ≤ in2 * phase := Int.mul_le_mul_of_nonneg_right h hp
      have g2 : in1 * (pm - phase) ≤ in2 * (pm - phase) := Int.mul_le_mul_of_nonneg_right h (by omega)
      omega
    · intro h
      have g1 : in2 * phase ≤ in1 * phase := Int.mul_le_mul_of_nonneg_right h hp
      have g2 : in2 * (pm - phase) ≤ in1 * (pm - phase) := Int.mul_le_mul_of_nonneg_right h (by omega)
      omega
  have hdiv : ∀ a b s : Int, a * pm ≤ s → s ≤ b * pm → a ≤ s / pm ∧ s / pm ≤ b := by
    intro a b s g1 g2
    exact ⟨(Int.le_ediv_iff_mul_le hpm').mpr g1, Int.ediv_le_of_le_mul hpm' g2⟩
  have hsum : 0 ≤ in2 * phase + in1 * (pm - phase) ∧ in2 * phase + in1 * (pm - phase) < 2147483648 := by
    rcases Int.le_total in1 in2 with h | h
    · have := lowb.1 h; omega
    · have := lowb.2 h; omega
  have hq : 0 ≤ (in2 * phase + in1 * (pm - phase)) / pm ∧ (in2 * phase + in1 * (pm - phase)) / pm < 2147483648 := by
    refine ⟨Int.ediv_nonneg hsum.1 (by omega), ?_⟩
    have := Int.ediv_le_self pm hsum.1
    omega
  have key : interpolate pm in1 in2 phase = .ok ((in2 * phase + in1 * (pm - phase)) / pm) := by
    rw [interpolate, i32, fit, if_pos ⟨by omega, by omega⟩, R.bind_ok]
    simp only
    rw [Int.emod_eq_of_lt (show (0 : Int) ≤ pm - phase by omega) (by omega), Int.emod_eq_of_lt a3 (by omega), Int.emod_eq_of_lt hsum.1 (by omega), if_neg (by omega)]
    congr 1
    unfold toI32
    omega
  refine ⟨key, ?_⟩
  intro r hr
  rw [key] at hr
  simp only [R.ok.injEq] at hr
  subst hr
  refine ⟨fun h => hdiv _ _ _ (lowb.1 h).1 (lowb.1 h).2, fun h => hdiv _ _ _ (lowb.2 h).1 (lowb.2 h).2, ?_, ?_⟩
  · rintro rfl; rw [Int.mul_zero, Int.zero_add, Int.sub_zero, Int.mul_ediv_cancel _ (by omega)]
  · intro h; rw [h, Int.sub_self, Int.mul_zero, Int.add_zero, Int.mul_ediv_cancel _ (by omega)]

/-- **C84** (partial), exactly when it is right, for any signs: with 0 ≤ phase ≤ PhaseMax, PhaseMax ≥ 2 and no overflow, the weighted mean rounded down if the weighted sum is not negative; otherwise a positive number, while the mean is negative. -/
theorem C84_exact_partial (pm : Nat) (in1 in2 phase : Int) (hpm : 2 ≤ pm) (hpm2 : (pm : Int) < 4294967296) (hp : 0 ≤ phase) (hp2 : phase ≤ pm)
    (hb : -2147483648 ≤ in2 * phase ∧ in2 * phase ≤ 2147483647) (hs : -2147483648 ≤ in2 * phase + in1 * (pm - phase) ∧ in2 * phase + in1 * (pm - phase) ≤ 2147483647) :
    ∃ r, interpolate pm in1 in2 phase = .ok r ∧ (0 ≤ in2 * phase + in1 * (pm - phase) → r = (in2 * phase + in1 * (pm - phase)) / pm) ∧
      (in2 * phase + in1 * (pm - phase) < 0 → r = (in2 * phase + in1 * (pm - phase) + 4294967296) / pm ∧ 0 ≤ r ∧ (in2 * phase + in1 * (pm - phase)) / pm < 0) := by
  have hm : ∀ a : Int, (in1 * (a % 4294967296)) % 4294967296 = (in1 * a) % 4294967296 := fun a => by
    rw [Int.mul_emod, Int.emod_emod, ← Int.mul_emod]
  have hsum : (in2 * phase + in1 * (((pm : Int) - phase) % 4294967296) % 4294967296) % 4294967296 = (in2 * phase + in1 * (pm - phase)) % 4294967296 := by
    rw [hm, Int.add_emod, Int.emod_emod, ← Int.add_emod]
  refine ⟨toI32 ((in2 * phase + in1 * (pm - phase)) % 4294967296 / pm), ?_, ?_, ?_⟩
  · rw [interpolate, i32, fit, if_pos ⟨by omega, by omega⟩, R.bind_ok]
    simp only
    rw [if_neg (by omega), hsum]
  · intro h0
    rw [Int.emod_eq_of_lt h0 (by omega)]
    have h1 := Int.ediv_nonneg h0 (show (0 : Int) ≤ pm by omega)
    have h2 := Int.ediv_le_self (pm : Int) h0
    unfold toI32
    omega
  · intro h0
    have e : (in2 * phase + in1 * (pm - phase)) % 4294967296 = in2 * phase + in1 * (pm - phase) + 4294967296 := by
      rw [← Int.add_emod_right, Int.emod_eq_of_lt (by omega) (by omega)]
    rw [e]
    generalize in2 * phase + in1 * (pm - phase) = w at *
    have h1 := Int.ediv_nonneg (show 0 ≤ w + 4294967296 by omega) (show (0 : Int) ≤ pm by omega)
    have h2 : (w + 4294967296) / (pm : Int) < 2147483648 := by
      apply Int.ediv_lt_of_lt_mul (by omega)
      have : (2147483648 : Int) * 2 ≤ 2147483648 * pm := Int.mul_le_mul_of_nonneg_left (by omega) (by omega)
      omega
    have h3 : w / (pm : Int) < 0 := Int.ediv_lt_of_lt_mul (by omega) (by omega)
    refine ⟨?_, ?_, h3⟩ <;> unfold toI32 <;> omega

/-- from -100 to 300 over 256 phases: right from phase 64 on -/
example : interpolate 256 (-100) 300 64 = .ok 0 ∧ interpolate 256 (-100) 300 128 = .ok 100 ∧ interpolate 256 (-100) 300 63 = .ok 16777214 := by decide

/-- **C84, violated** for negative values: between -1 and -1, at any phase, with PhaseMax 256 the result is 16777215. -/
theorem C84_negative_violated (phase : Int) (h0 : 0 ≤ phase) (h1 : phase ≤ 256) : interpolate 256 (-1) (-1) phase = .ok 16777215 := by
  rw [interpolate, i32, fit, if_pos ⟨by omega, by omega⟩, R.bind_ok]
  simp only
  rw [if_neg (by omega)]
  congr 1
  unfold toI32
  omega

example : interpolate 256 100 200 64 = .ok 125 ∧ interpolate 256 (-1) (-1) 0 = .ok 16777215 := by decide

/-! ## Saturation -/

/-- **C85**: signed_saturate clamps to the signed range of n bits, 1 ≤ n ≤ 32. -/
theorem C85_signed (val : Int) (n : Nat) (h1 : 1 ≤ n) (h2 : n ≤ 32) : signedSaturate val n = clamp (-2 ^ (n - 1)) (2 ^ (n - 1) - 1) val := by
  have hp : 2 ^ (n - 1) ≤ 2 ^ 31 := Nat.pow_le_pow_right (by omega) (by omega)
  have hpos := Nat.two_pow_pos (n - 1)
  obtain ⟨P, hP⟩ : ∃ P, 2 ^ (n - 1) = P := ⟨_, rfl⟩
  have hPi : (2 : Int) ^ (n - 1) = (P : Int) := by rw [← hP]; exact (Int.natCast_pow 2 (n - 1)).symm
  rw [hP] at hp hpos
  unfold signedSaturate clamp
  rw [if_pos ⟨h1, h2⟩, Nat.one_shiftLeft, hP, hPi]
  have e : toI32 ((P % 4294967296 - 1 : Nat) : Int) = (P : Int) - 1 := by unfold toI32; omega
  simp only [e]
  split <;> split <;> (try split) <;> omega

example := C85_signed (-200) 8 (by decide) (by decide)

/-- **C85**: unsigned_saturate clamps to 0 .. 2^n - 1, n ≤ 31. -/
theorem C85_unsigned (val : Int) (n : Nat) (h : n ≤ 31) (hv1 : -2147483648 ≤ val) (hv2 : val ≤ 2147483647) : unsignedSaturate val n = clamp 0 (2 ^ n - 1) val := by
  have hp : 2 ^ n ≤ 2 ^ 31 := Nat.pow_le_pow_right (by omega) (by omega)
  have hpos := Nat.two_pow_pos n
  obtain ⟨P, hP⟩ : ∃ P, 2 ^ n = P := ⟨_, rfl⟩
  have hPi : (2 : Int) ^ n = (P : Int) := by rw [← hP]; exact (Int.natCast_pow 2 n).symm
  rw [hP] at hp hpos
  unfold unsignedSaturate clamp
  rw [if_pos h, Nat.one_shiftLeft, hP, hPi]
  have e : toI32 ((P % 4294967296 - 1 : Nat) : Int) = (P : Int) - 1 := by unfold toI32; omega
  simp only [e]
  unfold toI32
  split <;> split <;> (try split) <;> omega

/-- **C85**: with any other width the value is unchanged. -/
theorem C85_other_widths (val : Int) (n : Nat) (hv1 : -2147483648 ≤ val) (hv2 : val ≤ 2147483647) :
    (n = 0 ∨ 32 < n → signedSaturate val n = val) ∧ (31 < n → unsignedSaturate val n = val) := by
  constructor
  · intro h; unfold signedSaturate; rw [if_neg (by omega)]
  · intro h; unfold unsignedSaturate toI32; rw [if_neg (by omega)]; omega

/-- **C85**: hence both are idempotent and monotone, and the identity inside the range. -/
theorem C85_clamp (lo hi a b : Int) (h : lo ≤ hi) : clamp lo hi (clamp lo hi a) = clamp lo hi a ∧ (a ≤ b → clamp lo hi a ≤ clamp lo hi b) ∧
    (lo ≤ a ∧ a ≤ hi → clamp lo hi a = a) := by
  unfold clamp
  refine ⟨?_, ?_, ?_⟩
  · split <;> (try split) <;> (try split) <;> omega
  · intro g; split <;> split <;> (try split) <;> (try split) <;> omega
  · intro g; split <;> (try split) <;> omega

example : signedSaturate 40000 16 = 32767 ∧ signedSaturate (-40000) 16 = -32768 ∧ unsignedSaturate 300 8 = 255 ∧ unsignedSaturate (-5) 8 = 0 ∧ signedSaturate 7 32 = 7 := by decide

/-! ## is_finite_fastmath -/

/-- **C88**: on a float with sign s, 8-bit exponent e and 23-bit fraction f: finite iff the exponent is not all ones. -/
theorem C88_is_finite (s : BitVec 1) (e : BitVec 8) (f : BitVec 23) : isFiniteFastmath (s ++ e ++ f) = true ↔ e ≠ 255 := by
  have key : ((s ++ e ++ f : BitVec 32) &&& 0x7f800000) = (0 : BitVec 1) ++ e ++ (0 : BitVec 23) := by
    have hx' := bitsF (s ++ e ++ f) s e f rfl
    have hy' := bitsF ((0 : BitVec 1) ++ e ++ (0 : BitVec 23)) _ e _ rfl
    apply BitVec.eq_of_getLsbD_eq
    intro i hi
    have hall : i ∈ List.range 32 := List.mem_range.mpr hi
    simp only [List.range, List.range.loop, List.mem_cons, List.not_mem_nil, or_false] at hall
    rcases hall with h | h | h | h | h | h | h | h | h | h | h | h | h | h | h | h | h | h | h | h | h | h | h | h | h | h | h | h | h | h | h | h <;>
      subst h <;> (simp only [BitVec.getLsbD_and, hx', hy']; simp)
  unfold isFiniteFastmath
  rw [key]
  have e2 : (0x7f800000 : BitVec 32) = (0 : BitVec 1) ++ (255 : BitVec 8) ++ (0 : BitVec 23) := by decide
  rw [e2, bne_iff_ne, ne_eq, ne_eq]
  apply not_congr
  constructor
  · intro h
    apply BitVec.eq_of_getLsbD_eq
    intro i hi
    have := congrArg (·.getLsbD (i + 23)) h
    rw [bitsF _ 0 e 0 rfl, bitsF _ 0 255 0 rfl, show i + 23 - 23 = i by omega, if_neg (show ¬ i + 23 < 23 by omega), if_pos hi,
      if_neg (show ¬ i + 23 < 23 by omega), if_pos hi] at this
    exact this
  · rintro rfl; rfl

example : isFiniteFastmath 0x3f800000 = true ∧ isFiniteFastmath 0x7f7fffff = true ∧ isFiniteFastmath 0xff800000 = false ∧ isFiniteFastmath 0x7fc00000 = false := by decide

/-! ## Smallest types -/

/-- **C89**: SmallestUnsignedInt<max> represents max, and no narrower standard unsigned type does. -/
theorem C89_unsigned (m : Nat) (h : m < 2 ^ 64) : fitsUnsigned (smallestUnsigned m) m ∧ (smallestUnsigned m = 8 ∨ smallestUnsigned m = 16 ∨ smallestUnsigned m = 32 ∨ smallestUnsigned m = 64) ∧
    ∀ w, (w = 8 ∨ w = 16 ∨ w = 32 ∨ w = 64) → fitsUnsigned w m → smallestUnsigned m ≤ w := by
  unfold smallestUnsigned fitsUnsigned
  refine ⟨?_, ?_, ?_⟩
  · split
    · show m < 2 ^ 8; omega
    · split
      · show m < 2 ^ 16; omega
      · split
        · show m < 2 ^ 32; omega
        · exact h
  · split <;> (try split) <;> (try split) <;> simp
  · rintro w (rfl | rfl | rfl | rfl) hw <;> split <;> (try split) <;> (try split) <;> omega

/-- **C89**: SmallestSignedInt<min, max> represents both ends, and no narrower standard signed type does, for every range within 63 bits
(beyond it does not compile). -/
theorem C89_signed (mn mx : Int) (h : mn ≤ mx) (h1 : -2 ^ 62 ≤ mn) (h2 : mx < 2 ^ 62) :
    ∃ w, smallestSigned mn mx = some w ∧ (w = 8 ∨ w = 16 ∨ w = 32 ∨ w = 64) ∧ fitsSigned w mn ∧ fitsSigned w mx ∧
      ∀ w', (w' = 8 ∨ w' = 16 ∨ w' = 32 ∨ w' = 64) → fitsSigned w' mn → fitsSigned w' mx → w ≤ w' := by
  have e62 : (2 : Int) ^ 62 = 4611686018427387904 := by decide
  rw [e62] at h1 h2
  obtain ⟨m, hm⟩ : ∃ m, (if mx ≥ -mn then mx else -mn - 1) = m := ⟨_, rfl⟩
  have hm0 : 0 ≤ m ∧ m < 4611686018427387904 ∧ mx ≤ m ∧ -m - 1 ≤ mn ∧ (m = mx ∨ m = -mn - 1) := by
    subst hm; split <;> omega
  obtain ⟨m0, m1, m2, m3, m4⟩ := hm0
  have hs : smallestSigned mn mx = some (smallestUnsigned (2 * m).toNat) := by
    unfold smallestSigned
    rw [if_neg (by omega)]
    simp only [hm]
    rw [show (m * 2 + 9223372036854775808) % 18446744073709551616 - 9223372036854775808 = 2 * m by omega, if_neg (by omega)]
  refine ⟨_, hs, ?_⟩
  obtain ⟨c1, c2, c3⟩ := C89_unsigned (2 * m).toNat (by omega)
  refine ⟨c2, ?_⟩
  have fits : ∀ w, (w = 8 ∨ w = 16 ∨ w = 32 ∨ w = 64) → (fitsUnsigned w (2 * m).toNat ↔ fitsSigned w mn ∧ fitsSigned w mx) := by
    rintro w (rfl | rfl | rfl | rfl) <;> unfold fitsUnsigned fitsSigned <;> simp only [Nat.reducePow, Int.reducePow, Nat.reduceSub] <;> omega
  refine ⟨((fits _ c2).mp c1).1, ((fits _ c2).mp c1).2, ?_⟩
  intro w' hw' f1 f2
  exact c3 w' hw' ((fits w' hw').mpr ⟨f1, f2⟩)

example : smallestUnsigned 256 = 16 ∧ smallestSigned (-128) 127 = some 8 ∧ smallestSigned (-129) 0 = some 16 ∧ smallestSigned (-32768) 32768 = some 32 := by decide

end IntMath
