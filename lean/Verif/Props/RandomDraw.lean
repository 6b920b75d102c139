import Verif.Model.RandomDraw
import Verif.Spec.RandomDraw
import Verif.Props.ExactConds
import Mathlib.Order.Interval.Finset.Nat
/-! # C246: how often randomNumber returns each value -/
namespace RandomDraw
open RandomDraw.Spec MathFns

theorem ceil_le (x d r : Nat) (hd : 0 < d) : (x + (d - 1)) / d ≤ r ↔ x ≤ r * d := by
  rw [← Nat.lt_succ_iff, Nat.div_lt_iff_lt_mul hd, Nat.succ_mul]
  omega

/-- the results of std::rand() between the multiples `k` and `k + 1` of `m / d` -/
theorem count_between (m d k : Nat) (hm : 0 < m) (hk : k < d) :
    m / d ≤ ((Finset.range (m + 1)).filter fun r => r * d / m = k).card ∧
    ((Finset.range (m + 1)).filter fun r => r * d / m = k).card ≤ m / d + 1 := by
  have hd : 0 < d := by omega
  have e : ((Finset.range (m + 1)).filter fun r => r * d / m = k) = Finset.Ico ((k * m + (d - 1)) / d) (((k + 1) * m + (d - 1)) / d) := by
    ext r
    simp only [Finset.mem_filter, Finset.mem_range, Finset.mem_Ico]
    have h1 : r * d / m = k ↔ k * m ≤ r * d ∧ r * d < (k + 1) * m := by
      rw [← Nat.le_div_iff_mul_le hm, ← Nat.div_lt_iff_lt_mul hm]
      omega
    have h2 := ceil_le (k * m) d r hd
    have h3 := ceil_le ((k + 1) * m) d r hd
    have h4 : r * d < (k + 1) * m → r < m + 1 := by
      intro h
      have h5 : (k + 1) * m ≤ d * m := Nat.mul_le_mul_right m (by omega)
      by_contra hc
      have h6 : m * d ≤ r * d := Nat.mul_le_mul_right d (by omega)
      rw [Nat.mul_comm d m] at h5
      omega
    rw [h1, h2, ← not_le (a := ((k + 1) * m + (d - 1)) / d), h3]
    constructor
    · rintro ⟨-, a, b⟩; exact ⟨a, by omega⟩
    · rintro ⟨a, b⟩; exact ⟨h4 (by omega), a, by omega⟩
  rw [e, Nat.card_Ico]
  have hs : m % d < d := Nat.mod_lt _ hd
  have hq : m = d * (m / d) + m % d := (Nat.div_add_mod m d).symm
  have e2 : ((k + 1) * m + (d - 1)) / d = (k * m + m % d + (d - 1)) / d + m / d := by
    rw [← Nat.add_mul_div_left _ _ hd]
    congr 1
    rw [Nat.add_mul, Nat.one_mul]
    omega
  have h1 : (k * m + (d - 1)) / d ≤ (k * m + m % d + (d - 1)) / d := Nat.div_le_div_right (by omega)
  have h2 : (k * m + m % d + (d - 1)) / d ≤ (k * m + (d - 1)) / d + 1 := by
    rw [← Nat.add_div_right _ hd]
    exact Nat.div_le_div_right (by omega)
  rw [e2]
  generalize (k * m + m % d + (d - 1)) / d = x at h1 h2 ⊢
  generalize (k * m + (d - 1)) / d = y at h1 h2 ⊢
  generalize m / d = z
  omega

/-- only `RAND_MAX` itself gives the top -/
theorem count_top (m d : Nat) (hm : 0 < m) (hd : 0 < d) : ((Finset.range (m + 1)).filter fun r => r * d / m = d).card = 1 := by
  have e : ((Finset.range (m + 1)).filter fun r => r * d / m = d) = {m} := by
    ext r
    simp only [Finset.mem_filter, Finset.mem_range, Finset.mem_singleton]
    constructor
    · rintro ⟨h1, h2⟩
      by_contra hc
      have : r * d / m < d := by
        rw [Nat.div_lt_iff_lt_mul hm, Nat.mul_comm d m]
        exact Nat.mul_lt_mul_of_pos_right (by omega) hd
      omega
    · rintro rfl
      exact ⟨by omega, Nat.mul_div_cancel_left _ hm⟩
  rw [e]
  rfl

/-- the value for ints with a 64-bit long -/
theorem int_value (randMax r : Nat) (hm : 0 < randMax) (hM : randMax < 2 ^ 31) (hr : r ≤ randMax) (lo hi : Int) (h : lo ≤ hi)
    (hl : -2 ^ 31 ≤ lo) (hh : hi < 2 ^ 31) (hw : hi - lo < 2 ^ 31) :
    randomInt 64 randMax r lo hi = .ok (lo + ((r * (hi - lo).toNat / randMax : Nat) : Int)) := by
  obtain ⟨h1, h2⟩ := C132_int_exact 64 randMax r (by norm_num) hm hM hr lo hi h hl hh
  have hp : (r : Int) * (hi - lo) < 2 ^ (64 - 1) := by
    have : (r : Int) * (hi - lo) ≤ 2 ^ 31 * 2 ^ 31 := mul_le_mul (by omega) (by omega) (by omega) (by norm_num)
    omega
  obtain ⟨v, hv⟩ := h1.2 ⟨hw, hp⟩
  rw [hv, (h2 v hv).1]
  congr 1
  have : ((hi - lo).toNat : Int) = hi - lo := by omega
  push_cast
  rw [this]

theorem draws_int (randMax : Nat) (hm : 0 < randMax) (hM : randMax < 2 ^ 31) (lo hi : Int) (h : lo ≤ hi)
    (hl : -2 ^ 31 ≤ lo) (hh : hi < 2 ^ 31) (hw : hi - lo < 2 ^ 31) (k : Nat) :
    draws randMax (fun r => randomInt 64 randMax r lo hi) (.ok (lo + (k : Int))) =
      ((Finset.range (randMax + 1)).filter fun r => r * (hi - lo).toNat / randMax = k).card := by
  unfold draws
  congr 1
  apply Finset.filter_congr
  intro r hr
  beta_reduce
  rw [int_value randMax r hm hM (by have := Finset.mem_range.1 hr; omega) lo hi h hl hh hw]
  constructor
  · intro e
    injection e with e
    omega
  · intro e
    rw [e]

/-- **C246 (partial)**: with a 64-bit long, randomNumber<int>(lo, hi) returns each value from lo to hi - 1 for as many results of
std::rand() as any other, give or take one. Missing: hi (see below), and the ARM targets. -/
theorem C246_fair_partial (randMax : Nat) (hm : 0 < randMax) (hM : randMax < 2 ^ 31) (lo hi : Int) (hl : -2 ^ 31 ≤ lo) (hh : hi < 2 ^ 31)
    (hw : hi - lo < 2 ^ 31) (v : Int) (h1 : lo ≤ v) (h2 : v < hi) :
    randMax / (hi - lo).toNat ≤ draws randMax (fun r => randomInt 64 randMax r lo hi) (.ok v) ∧
    draws randMax (fun r => randomInt 64 randMax r lo hi) (.ok v) ≤ randMax / (hi - lo).toNat + 1 := by
  have e : v = lo + ((v - lo).toNat : Int) := by omega
  rw [e, draws_int randMax hm hM lo hi (by omega) hl hh hw]
  exact count_between randMax (hi - lo).toNat _ hm (by omega)

/-- a die: 1 is drawn by 6554 of 32768 results (fairly, it would be 5461) -/
example : (0 : Nat) < 32767 ∧ (32767 : Nat) < 2 ^ 31 ∧ (-2 ^ 31 : Int) ≤ 1 ∧ (6 : Int) < 2 ^ 31 ∧ (6 : Int) - 1 < 2 ^ 31 ∧ (1 : Int) ≤ 1 ∧
    32767 / (6 - 1 : Int).toNat = 6553 := by decide

/-- **C246 is violated**: the upper bound is returned for just one result of std::rand(), RAND_MAX; randomNumber(1, 6) practically never
returns 6. In particular randomNumber(0, 1) is 0 for all the other RAND_MAX results. -/
theorem C246_upper_violated (randMax : Nat) (hm : 0 < randMax) (hM : randMax < 2 ^ 31) (lo hi : Int) (h : lo < hi) (hl : -2 ^ 31 ≤ lo)
    (hh : hi < 2 ^ 31) (hw : hi - lo < 2 ^ 31) :
    draws randMax (fun r => randomInt 64 randMax r lo hi) (.ok hi) = 1 ∧
    (hi = lo + 1 → draws randMax (fun r => randomInt 64 randMax r lo hi) (.ok lo) = randMax) := by
  constructor
  · have e : draws randMax (fun r => randomInt 64 randMax r lo hi) (.ok hi) =
        draws randMax (fun r => randomInt 64 randMax r lo hi) (.ok (lo + ((hi - lo).toNat : Int))) := by
      rw [show lo + ((hi - lo).toNat : Int) = hi by omega]
    rw [e, draws_int randMax hm hM lo hi (by omega) hl hh hw]
    exact count_top randMax _ hm (by omega)
  · intro e1
    have e : draws randMax (fun r => randomInt 64 randMax r lo hi) (.ok lo) =
        draws randMax (fun r => randomInt 64 randMax r lo hi) (.ok (lo + ((0 : Nat) : Int))) := by simp
    rw [e, draws_int randMax hm hM lo hi (by omega) hl hh hw, show (hi - lo).toNat = 1 by omega]
    have : ((Finset.range (randMax + 1)).filter fun r => r * 1 / randMax = 0) = Finset.range randMax := by
      ext r
      simp only [Finset.mem_filter, Finset.mem_range, Nat.mul_one]
      constructor
      · rintro ⟨h1, h2⟩
        have := (Nat.div_eq_zero_iff.1 h2)
        omega
      · intro h1
        exact ⟨by omega, Nat.div_eq_of_lt h1⟩
    rw [this, Finset.card_range]

example : (0 : Nat) < 2147483647 ∧ (2147483647 : Nat) < 2 ^ 31 ∧ (1 : Int) < 6 ∧ randomInt 64 2147483647 2147483646 1 6 = .ok 5 ∧
    randomInt 64 2147483647 2147483647 1 6 = .ok 6 := by decide +kernel

/-- **C246** for uint32_t with a 64-bit long: the result is lo plus the place given by std::rand(), and lies between the bounds; the counts
are those of the ints. -/
theorem C246_unsigned64 (randMax lo hi : Nat) (hm : 0 < randMax) (h : lo ≤ hi) (hh : hi < 2 ^ 32) :
    (∀ r ≤ randMax, unsigned64 randMax r lo hi = lo + r * (hi - lo) / randMax ∧ lo ≤ unsigned64 randMax r lo hi ∧
      unsigned64 randMax r lo hi ≤ hi) ∧
    (∀ v, lo ≤ v → v < hi → randMax / (hi - lo) ≤ draws randMax (fun r => unsigned64 randMax r lo hi) v ∧
      draws randMax (fun r => unsigned64 randMax r lo hi) v ≤ randMax / (hi - lo) + 1) ∧
    (lo < hi → draws randMax (fun r => unsigned64 randMax r lo hi) hi = 1) := by
  have hval : ∀ r ≤ randMax, unsigned64 randMax r lo hi = lo + r * (hi - lo) / randMax ∧ lo + r * (hi - lo) / randMax ≤ hi := by
    intro r hr
    have e : (hi + 2 ^ 32 - lo) % 2 ^ 32 = hi - lo := by omega
    have hq : r * (hi - lo) / randMax ≤ hi - lo := Nat.div_le_of_le_mul (Nat.mul_le_mul_right _ hr)
    unfold unsigned64
    rw [e, Nat.mod_eq_of_lt (by omega)]
    omega
  have hd : ∀ k, draws randMax (fun r => unsigned64 randMax r lo hi) (lo + k) =
      ((Finset.range (randMax + 1)).filter fun r => r * (hi - lo) / randMax = k).card := by
    intro k
    unfold draws
    congr 1
    apply Finset.filter_congr
    intro r hr
    beta_reduce
    rw [(hval r (by have := Finset.mem_range.1 hr; omega)).1]
    omega
  refine ⟨fun r hr => ?_, fun v h1 h2 => ?_, fun h1 => ?_⟩
  · obtain ⟨a, b⟩ := hval r hr
    exact ⟨a, a ▸ Nat.le_add_right _ _, a ▸ b⟩
  · obtain ⟨k, rfl⟩ : ∃ k, v = lo + k := ⟨v - lo, by omega⟩
    rw [hd]
    exact count_between randMax (hi - lo) k hm (by omega)
  · obtain ⟨k, rfl⟩ : ∃ k, hi = lo + k := ⟨hi - lo, by omega⟩
    rw [hd, show lo + k - lo = k by omega]
    exact count_top randMax k hm (by omega)

example : (0 : Nat) < 2147483647 ∧ 10 ≤ 4000000000 ∧ 4000000000 < 2 ^ 32 ∧ unsigned64 2147483647 1073741824 10 4000000000 = 2000000005 := by
  decide

/-- **C246 is violated** on the ARM targets (32-bit long, RAND_MAX = 2^31 - 1): randomNumber<uint32_t> returns only lo, lo + 1 and
lo + 2, however wide the range. -/
theorem C246_unsigned32_violated :
    (∀ r lo hi : Nat, lo + 2 < 2 ^ 32 → lo ≤ unsigned32 2147483647 r lo hi ∧ unsigned32 2147483647 r lo hi ≤ lo + 2) ∧
    unsigned32 2147483647 1500000000 0 1000 = 0 ∧ unsigned32 2147483647 2147483647 0 3 = 0 := by
  refine ⟨fun r lo hi h => ?_, by decide, by decide⟩
  have h1 : (r * ((hi + 2 ^ 32 - lo) % 2 ^ 32)) % 2 ^ 32 < 2 ^ 32 := Nat.mod_lt _ (by norm_num)
  have h2 : (r * ((hi + 2 ^ 32 - lo) % 2 ^ 32)) % 2 ^ 32 / 2147483647 ≤ 2 := by
    rw [← Nat.lt_succ_iff, Nat.div_lt_iff_lt_mul (by norm_num)]
    omega
  unfold unsigned32
  rw [Nat.mod_eq_of_lt (by omega)]
  omega

/-- **C246, exactly when** randomNumber<uint32_t> with a 32-bit long gives the place that std::rand() stands for: the product of the width and
what std::rand() returned is below 2^32. -/
theorem C246_unsigned32_exact (randMax r lo hi : Nat) (hm : 0 < randMax) (hM : randMax < 2 ^ 31) (hr : r ≤ randMax) (h : lo ≤ hi) (hh : hi < 2 ^ 32) :
    unsigned32 randMax r lo hi = lo + r * (hi - lo) / randMax ↔ r * (hi - lo) < 2 ^ 32 := by
  have e : (hi + 2 ^ 32 - lo) % 2 ^ 32 = hi - lo := by omega
  have hq : r * (hi - lo) / randMax ≤ hi - lo := Nat.div_le_of_le_mul (Nat.mul_le_mul_right _ hr)
  unfold unsigned32
  rw [e]
  generalize r * (hi - lo) = p at hq ⊢
  have h1 : p % 2 ^ 32 / randMax ≤ p / randMax := Nat.div_le_div_right (Nat.mod_le _ _)
  constructor
  · intro h2
    by_contra hc
    have h3 : p % 2 ^ 32 + randMax ≤ p := by omega
    have h4 := Nat.div_le_div_right (c := randMax) h3
    rw [Nat.add_div_right _ hm] at h4
    generalize p % 2 ^ 32 / randMax = x at h1 h2 h4
    generalize p / randMax = y at hq h1 h2 h4
    rw [Nat.mod_eq_of_lt (by omega)] at h2
    omega
  · intro h2
    rw [Nat.mod_eq_of_lt h2]
    generalize p / randMax = y at hq
    rw [Nat.mod_eq_of_lt (by omega), Nat.add_comm]

example : (0 : Nat) < 32767 ∧ 32767 < 2 ^ 31 ∧ 30000 ≤ 32767 ∧ 5 ≤ 1000 ∧ 1000 < 2 ^ 32 ∧ 30000 * (1000 - 5) < 2 ^ 32 ∧
    unsigned32 32767 30000 5 1000 = 915 := by decide

end RandomDraw
