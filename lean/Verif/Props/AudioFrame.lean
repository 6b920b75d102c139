import Verif.Model.AudioFrame
import Verif.Props.IntMath
/-! # Property C116: audio samples -/

namespace AudioFrame
open Flt

/-! ## Specification -/

/-- `x` is a value of the arithmetic: every rational in exact arithmetic, the floats in binary32. -/
def Value (rnd : ℚ → ℚ) (x : ℚ) : Prop := rnd = id ∨ (Nearest rnd ∧ F32 x)

/-- The fractional part dropped. -/
def towardZero (x : ℚ) : Int := if 0 ≤ x then ⌊x⌋ else ⌈x⌉

/-- Nearest value of `[lo, hi]`. -/
def clamp (lo hi x : ℚ) : ℚ := max lo (min hi x)

/-! ## Lemmas -/

theorem Value.fix {rnd : ℚ → ℚ} {x : ℚ} (h : Value rnd x) : rnd x = x := by
  rcases h with rfl | ⟨h1, h2⟩
  · rfl
  · exact h1.fix h2

theorem Value.of {rnd : ℚ → ℚ} {x y : ℚ} (h : Value rnd x) (hy : F32 x → F32 y) : Value rnd y := by
  rcases h with h | ⟨h1, h2⟩
  · exact .inl h
  · exact .inr ⟨h1, hy h2⟩

theorem wrapS_id (n : Nat) (hn : 1 ≤ n) (v : Int) (h1 : -2 ^ (n - 1) ≤ v) (h2 : v < 2 ^ (n - 1)) : wrapS n v = v := by
  obtain ⟨m, rfl⟩ : ∃ m, n = m + 1 := ⟨n - 1, by omega⟩
  unfold wrapS
  simp only [Nat.add_sub_cancel] at *
  have hp : (2 : Int) ^ (m + 1) = 2 * 2 ^ m := by rw [pow_succ]; ring
  rw [hp, Int.emod_eq_of_lt (by linarith) (by linarith)]
  ring

theorem wrapS_range (n : Nat) (hn : 1 ≤ n) (v : Int) : -2 ^ (n - 1) ≤ wrapS n v ∧ wrapS n v < 2 ^ (n - 1) ∧ (wrapS n v - v) % 2 ^ n = 0 := by
  obtain ⟨m, rfl⟩ : ∃ m, n = m + 1 := ⟨n - 1, by omega⟩
  unfold wrapS
  simp only [Nat.add_sub_cancel]
  have hp : (2 : Int) ^ (m + 1) = 2 * 2 ^ m := by rw [pow_succ]; ring
  have hpos : (0 : Int) < 2 ^ m := by positivity
  have h1 := Int.emod_nonneg (v + 2 ^ m) (show (2 : Int) ^ (m + 1) ≠ 0 by positivity)
  have h2 := Int.emod_lt_of_pos (v + 2 ^ m) (show (0 : Int) < 2 ^ (m + 1) by positivity)
  refine ⟨by linarith, by linarith, ?_⟩
  have h3 := Int.emod_add_mul_ediv (v + 2 ^ m) (2 ^ (m + 1))
  have h4 : (v + 2 ^ m) % 2 ^ (m + 1) - 2 ^ m - v = 2 ^ (m + 1) * -((v + 2 ^ m) / 2 ^ (m + 1)) := by linarith
  rw [h4]
  exact Int.mul_emod_right _ _

theorem ipow_two (n : Nat) (h : n ≤ 31) : IntMath.ipow 2 n = 2 ^ n := by
  induction n with
  | zero => rfl
  | succ n ih =>
    rw [IntMath.ipow, ih (by omega), Nat.mul_comm, ← Nat.pow_succ, Nat.mod_eq_of_lt]
    exact Nat.pow_lt_pow_right (by omega) (by omega)

theorem scaling (t : Ty) (rnd : ℚ → ℚ) (h1 : 1 ≤ t.used) (h2 : t.used ≤ 32) (hr : rnd = id ∨ Nearest rnd) : t.kOutScaling rnd = 2 ^ (t.used - 1) := by
  unfold Ty.kOutScaling Ty.kMaxValue
  rw [ipow_two _ (by omega)]
  push_cast
  rcases hr with rfl | h
  · rfl
  · exact h.fix (f32_pow2 _)

theorem Value.arith {rnd : ℚ → ℚ} {x : ℚ} (h : Value rnd x) : rnd = id ∨ Nearest rnd := h.imp id And.left

/-- Dropping the fraction of a float gives a float. -/
theorem f32_trunc {x : ℚ} (h : F32 x) : F32 (towardZero x) := by
  obtain ⟨m, e, h1, h2, h3⟩ := h
  by_cases he : 0 ≤ e
  · have hx : x = ((m * 2 ^ e.toNat : ℤ) : ℚ) := by
      rw [h3]; push_cast
      rw [← zpow_natCast (2 : ℚ), Int.toNat_of_nonneg he]
    have : towardZero x = m * 2 ^ e.toNat := by
      unfold towardZero
      rw [hx, Int.floor_intCast, Int.ceil_intCast, ite_self]
    rw [this, ← hx]
    exact ⟨m, e, h1, h2, h3⟩
  · apply f32_int
    have hle : (2 : ℚ) ^ e ≤ 1 := by
      rw [← zpow_zero (2 : ℚ)]
      exact zpow_le_zpow_right₀ (by norm_num) (by omega)
    have hpos : (0 : ℚ) < 2 ^ e := zpow_pos (by norm_num) _
    have hx : |x| ≤ ((|m| : ℤ) : ℚ) := by
      rw [h3, abs_mul, abs_of_pos hpos, Int.cast_abs]
      exact mul_le_of_le_one_right (abs_nonneg _) hle
    refine lt_of_le_of_lt ?_ h1
    unfold towardZero
    rw [abs_le] at hx ⊢
    split
    · next h0 =>
      constructor
      · have := Int.floor_nonneg.mpr h0; have := abs_nonneg m; omega
      · have : ((⌊x⌋ : ℤ) : ℚ) ≤ ((|m| : ℤ) : ℚ) := (Int.floor_le x).trans hx.2
        exact_mod_cast this
    · next h0 =>
      constructor
      · have : -((|m| : ℤ) : ℚ) ≤ ((⌈x⌉ : ℤ) : ℚ) := hx.1.trans (Int.le_ceil x)
        exact_mod_cast this
      · have : ⌈x⌉ ≤ 0 := Int.ceil_le.mpr (by push_cast; linarith)
        have := abs_nonneg m; omega

/-- A float that is a whole number divided by a power of two is a float. -/
theorem f32_whole_div (v : ℤ) (h : F32 v) (k : Nat) (hk : k ≤ 149) : F32 (v / 2 ^ k) := by
  obtain ⟨m, e, h1, h2, h3⟩ := h
  by_cases he : 0 ≤ e
  · refine ⟨m, e - k, h1, by omega, ?_⟩
    rw [h3, zpow_sub₀ (by norm_num), zpow_natCast, mul_div_assoc]
  · refine f32_div v ?_ k hk
    have hle : (2 : ℚ) ^ e ≤ 1 := by
      rw [← zpow_zero (2 : ℚ)]
      exact zpow_le_zpow_right₀ (by norm_num) (by omega)
    have hpos : (0 : ℚ) < 2 ^ e := zpow_pos (by norm_num) _
    have hx : ((|v| : ℤ) : ℚ) ≤ ((|m| : ℤ) : ℚ) := by
      rw [Int.cast_abs, h3, abs_mul, abs_of_pos hpos, Int.cast_abs]
      exact mul_le_of_le_one_right (abs_nonneg _) hle
    have : |v| ≤ |m| := by exact_mod_cast hx
    omega

theorem towardZero_near (x : ℚ) : |(towardZero x : ℚ) - x| < 1 := by
  unfold towardZero
  rw [abs_lt]
  split
  · have := Int.floor_le x; have := Int.lt_floor_add_one x; constructor <;> linarith
  · have := Int.le_ceil x; have := Int.ceil_lt_add_one x; constructor <;> linarith

theorem towardZero_range (x : ℚ) (a b : ℤ) (ha : a ≤ 0) (hb : 0 < b) (h1 : (a : ℚ) ≤ x) (h2 : x < b) : a ≤ towardZero x ∧ towardZero x < b := by
  unfold towardZero
  split
  · next h0 => exact ⟨ha.trans (Int.floor_nonneg.mpr h0), Int.floor_lt.mpr h2⟩
  · next h0 =>
    have hc : ⌈x⌉ ≤ 0 := Int.ceil_le.mpr (by push_cast; linarith)
    refine ⟨?_, by omega⟩
    have : (a : ℚ) ≤ ((⌈x⌉ : ℤ) : ℚ) := h1.trans (Int.le_ceil x)
    exact_mod_cast this

theorem towardZero_int (n : ℤ) : towardZero n = n := by
  unfold towardZero; rw [Int.floor_intCast, Int.ceil_intCast, ite_self]

theorem truncS_ok (n : Nat) (x : ℚ) (h1 : -(2 ^ (n - 1) : ℚ) - 1 < x) (h2 : x < 2 ^ (n - 1)) : truncS n x = .ok (towardZero x) := by
  unfold truncS towardZero
  rw [if_pos ⟨h1, h2⟩]

theorem constrain_eq (x lo hi : ℚ) (h : lo ≤ hi) : constrain x lo hi = clamp lo hi x := by
  unfold constrain clamp
  split
  · next h1 => rw [min_eq_right (by linarith), max_eq_left h1.le]
  · next h1 =>
    split
    · next h2 => rw [min_eq_left h2.le, max_eq_right h]
    · next h2 => rw [min_eq_right (not_lt.mp h2), max_eq_right (not_lt.mp h1)]

theorem pow_ge_one (k : Nat) : (1 : ℚ) ≤ 2 ^ k := one_le_pow₀ (by norm_num)

/-- The narrow signed case: the sample is the clamped scaled value without its fraction. -/
theorem narrow (t : Ty) (rnd : ℚ → ℚ) (x : ℚ) (hs : t.signed = true) (h1 : 1 ≤ t.used) (hb : t.bits = t.used) (hw : t.used ≤ 25 ∨ (rnd = id ∧ t.used ≤ 32)) (hx : Value rnd x) :
    t.scaleOutput rnd x = .ok (towardZero (clamp (-2 ^ (t.used - 1)) (2 ^ (t.used - 1) - 1) (x * 2 ^ (t.used - 1)))) := by
  have hu : t.used ≤ 32 := by omega
  have hK := scaling t rnd h1 hu hx.arith
  have hge := pow_ge_one (t.used - 1)
  unfold Ty.scaleOutput
  rw [if_pos hs, if_neg (show ¬ t.bits > t.used by omega), hK, hb]
  obtain ⟨K, hKd⟩ : ∃ K : ℚ, 2 ^ (t.used - 1) = K := ⟨_, rfl⟩
  have hKF : F32 K := hKd ▸ f32_pow2 _
  have hrK1 : rnd (K - 1) = K - 1 ∧ rnd ((K - 1) / K) = (K - 1) / K := by
    rcases hw with hw | ⟨rfl, _⟩
    · rcases hx with rfl | ⟨hn, _⟩
      · exact ⟨rfl, rfl⟩
      · have hle : (2 : ℤ) ^ (t.used - 1) ≤ 2 ^ 24 := pow_le_pow_right₀ (by norm_num) (by omega)
        have hpos : (1 : ℤ) ≤ 2 ^ (t.used - 1) := one_le_pow₀ (by norm_num)
        have e : K - 1 = ((2 ^ (t.used - 1) - 1 : ℤ) : ℚ) := by push_cast; rw [hKd]
        have habs : |(2 ^ (t.used - 1) - 1 : ℤ)| < 2 ^ 24 := by rw [abs_lt]; constructor <;> linarith
        constructor
        · rw [e]; exact hn.fix (f32_int _ habs)
        · have := f32_div _ habs (t.used - 1) (by omega)
          rw [← e, hKd] at this
          exact hn.fix this
    · exact ⟨rfl, rfl⟩
  rw [hKd] at hge ⊢
  have hKpos : 0 < K := by linarith
  have hlohi : (-1 : ℚ) ≤ (K - 1) / K := by rw [le_div_iff₀ hKpos]; linarith
  simp only [hrK1.1, hrK1.2]
  rw [constrain_eq _ _ _ hlohi]
  have hcl : clamp (-1) ((K - 1) / K) x * K = clamp (-K) (K - 1) (x * K) := by
    unfold clamp
    rw [max_mul_of_nonneg _ _ hKpos.le, min_mul_of_nonneg _ _ hKpos.le, div_mul_cancel₀ _ hKpos.ne', neg_one_mul]
  rw [hcl]
  have hfix : rnd (clamp (-K) (K - 1) (x * K)) = clamp (-K) (K - 1) (x * K) := by
    have hv1 : rnd (-K) = -K := (hx.of (y := -K) (fun _ => f32_neg hKF)).fix
    have hv2 : rnd (x * K) = x * K := (hx.of (y := x * K) (fun h => hKd ▸ f32_scale h _)).fix
    unfold clamp
    rcases max_choice (-K) (min (K - 1) (x * K)) with h | h
    · rw [h, hv1]
    · rw [h]
      rcases min_choice (K - 1) (x * K) with h | h
      · rw [h, hrK1.1]
      · rw [h, hv2]
  rw [hfix]
  apply truncS_ok
  · rw [hKd]
    have : -K ≤ clamp (-K) (K - 1) (x * K) := le_max_left _ _
    linarith
  · rw [hKd]
    have : clamp (-K) (K - 1) (x * K) ≤ K - 1 := max_le (by linarith) (min_le_left _ _)
    linarith

/-- Narrow signed case with any width: values in [-1,1). -/
theorem narrow_in_range (t : Ty) (rnd : ℚ → ℚ) (x : ℚ) (hs : t.signed = true) (h1 : 1 ≤ t.used) (hb : t.bits = t.used) (hw : 26 ≤ t.used) (hu : t.used ≤ 32) (hn : Nearest rnd) (hx : F32 x) (hl : -1 ≤ x) (hr : x < 1) :
    t.scaleOutput rnd x = .ok (towardZero (x * 2 ^ (t.used - 1))) := by
  have hK := scaling t rnd h1 hu (.inr hn)
  have hge := pow_ge_one (t.used - 1)
  have h25 : (2 : ℚ) ^ 25 ≤ 2 ^ (t.used - 1) := pow_le_pow_right₀ (by norm_num) (by omega)
  unfold Ty.scaleOutput
  rw [if_pos hs, if_neg (show ¬ t.bits > t.used by omega), hK, hb]
  have hxK : F32 (x * 2 ^ (t.used - 1)) := f32_scale hx _
  obtain ⟨K, hKd⟩ : ∃ K : ℚ, 2 ^ (t.used - 1) = K := ⟨_, rfl⟩
  have hKF : F32 K := hKd ▸ f32_pow2 _
  have hKint : ∃ k : ℤ, K = k := ⟨2 ^ (t.used - 1), by push_cast; exact hKd.symm⟩
  rw [hKd] at hge h25 hxK ⊢
  have hKpos : 0 < K := by linarith
  -- x * K ≤ K - 1
  have hle : x * K ≤ K - 1 := by
    by_contra hc
    rw [not_le] at hc
    obtain ⟨n, hn'⟩ := f32_multiple hxK 0 (by
      rw [abs_of_pos (by linarith), show (0 : ℤ) + 23 = ((23 : Nat) : ℤ) by norm_num, zpow_natCast]
      have : (2 : ℚ) ^ 23 ≤ 2 ^ 25 - 1 := by norm_num
      linarith)
    rw [zpow_zero, mul_one] at hn'
    obtain ⟨k, rfl⟩ := hKint
    have h2 : x * k < k := by nlinarith
    rw [hn'] at hc h2
    have h3 : k - 1 < n := by exact_mod_cast hc
    have h4 : n < k := by exact_mod_cast h2
    omega
  have h2 : x * K ≤ rnd (K - 1) := hn.ge hxK hle
  have hc : x ≤ rnd (rnd (K - 1) / K) := hn.ge hx (by rw [le_div_iff₀ hKpos]; exact h2)
  have hcon : constrain x (-1) (rnd (rnd (K - 1) / K)) = x := by
    unfold constrain
    rw [if_neg (not_lt.mpr hl), if_neg (not_lt.mpr hc)]
  simp only [hcon]
  rw [hn.fix hxK]
  apply truncS_ok
  · rw [hKd]; nlinarith
  · rw [hKd]; linarith

/-- The wide signed case where nothing saturates wrongly. -/
theorem wide (t : Ty) (rnd : ℚ → ℚ) (x : ℚ) (hs : t.signed = true) (h1 : 1 ≤ t.used) (hu : t.used ≤ 24) (hb : t.used < t.bits) (hb2 : t.bits ≤ 32) (hx : Value rnd x)
    (hl : -(2 ^ (t.bits - 1) : ℚ) - 1 < x * 2 ^ (t.used - 1)) (hr : x * 2 ^ (t.used - 1) < 2 ^ (t.bits - 1)) :
    t.scaleOutput rnd x = .ok (t.conv (IntMath.Spec.clamp (-2 ^ 23) (2 ^ 23 - 1) (towardZero (x * 2 ^ (t.used - 1))))) := by
  have hK := scaling t rnd h1 (by omega) hx.arith
  unfold Ty.scaleOutput
  rw [if_pos hs, if_pos hb, hK, (hx.of (y := x * 2 ^ (t.used - 1)) (fun h => f32_scale h _)).fix, truncS_ok _ _ hl hr, R.bind_ok, IntMath.C85_signed _ 24 (by norm_num) (by norm_num)]
  have hp : (2 : ℚ) ^ (t.bits - 1) ≤ 2 ^ 31 := pow_le_pow_right₀ (by norm_num) (by omega)
  have hrange : -2 ^ 31 ≤ towardZero (x * 2 ^ (t.used - 1)) ∧ towardZero (x * 2 ^ (t.used - 1)) < 2 ^ 31 := by
    unfold towardZero
    split
    · next h0 =>
      have := Int.floor_nonneg.mpr h0
      refine ⟨by omega, Int.floor_lt.mpr ?_⟩
      push_cast; linarith
    · next h0 =>
      have hc : ⌈x * 2 ^ (t.used - 1)⌉ ≤ 0 := Int.ceil_le.mpr (by push_cast; linarith)
      refine ⟨?_, by omega⟩
      have : (-2 ^ 31 - 1 : ℤ) < ⌈x * 2 ^ (t.used - 1)⌉ := Int.lt_ceil.mpr (by push_cast; linarith)
      omega
  rw [wrapS_id 32 (by norm_num) _ hrange.1 hrange.2]

/-! ## Theorems -/

/-- **C116**: sign extension. For a signed sample type the result agrees with the sample in the low `UsedBits` bits and is a signed number of `UsedBits` bits; for an unsigned type it is that number modulo `2^bits`. -/
theorem C116_sign_extend (t : Ty) (v : Int) (h1 : 1 ≤ t.used) (h2 : t.used ≤ t.bits) :
    (t.signed = true → -2 ^ (t.bits - 1) ≤ v → v < 2 ^ (t.bits - 1) → -2 ^ (t.used - 1) ≤ t.signExtend v ∧ t.signExtend v < 2 ^ (t.used - 1) ∧ (t.signExtend v - v) % 2 ^ t.used = 0) ∧
    (t.signed = false → 0 ≤ v → v < 2 ^ t.bits → t.used < t.bits →
      ∃ r, -2 ^ (t.used - 1) ≤ r ∧ r < 2 ^ (t.used - 1) ∧ (r - v) % 2 ^ t.used = 0 ∧ t.signExtend v = r % 2 ^ t.bits) := by
  constructor
  · intro hs ha hb
    unfold Ty.signExtend
    split
    · next he => rw [← he]; exact ⟨ha, hb, by simp⟩
    · next he =>
      have hlt : t.used < t.bits := by omega
      have hr := wrapS_range t.used h1 v
      have hle : (2 : Int) ^ (t.used - 1) ≤ 2 ^ (t.bits - 1) := pow_le_pow_right₀ (by norm_num) (by omega)
      have : t.conv (wrapS t.used v) = wrapS t.used v := by
        unfold Ty.conv
        rw [if_pos hs]
        exact wrapS_id _ (by omega) _ (by linarith [hr.1]) (by linarith [hr.2.1])
      rw [this]
      exact hr
  · intro hs ha hb hlt
    have hr := wrapS_range t.used h1 v
    refine ⟨wrapS t.used v, hr.1, hr.2.1, hr.2.2, ?_⟩
    unfold Ty.signExtend Ty.conv
    rw [if_neg (by omega), hs]
    rfl

/-- 24-bit samples in 32-bit words: the top byte is ignored. -/
example : (⟨32, 24, true⟩ : Ty).signExtend 0x12FFFFFF = -1 ∧ (⟨32, 24, true⟩ : Ty).signExtend 0x7F7FFFFF = 8388607 := by decide +kernel

/-- **C116** (partial): for a signed sample type using all its bits scaleOutput gives the value times `2^(UsedBits-1)`, saturated to the range of the sample, without its fraction: for every float up to 25 bits, and in exact arithmetic also up to 32 bits. -/
theorem C116_saturates_partial (t : Ty) (rnd : ℚ → ℚ) (x : ℚ) (hs : t.signed = true) (h1 : 1 ≤ t.used) (hb : t.bits = t.used) (hw : t.used ≤ 25 ∨ (rnd = id ∧ t.used ≤ 32)) (hx : Value rnd x) :
    t.scaleOutput rnd x = .ok (towardZero (clamp (-2 ^ (t.used - 1)) (2 ^ (t.used - 1) - 1) (x * 2 ^ (t.used - 1)))) :=
  narrow t rnd x hs h1 hb hw hx

/-- **C116** (partial): the same for 24-bit samples in 32-bit words, for values below 256 in magnitude. -/
theorem C116_saturates_24_partial (t : Ty) (rnd : ℚ → ℚ) (x : ℚ) (ht : t = ⟨32, 24, true⟩) (hx : Value rnd x) (hl : -256 ≤ x) (hr : x < 256) :
    t.scaleOutput rnd x = .ok (towardZero (clamp (-2 ^ 23) (2 ^ 23 - 1) (x * 2 ^ 23))) := by
  subst ht
  have h := wide ⟨32, 24, true⟩ rnd x rfl (by norm_num) (by norm_num) (by norm_num) (by norm_num) hx (by norm_num; linarith) (by norm_num; linarith)
  rw [h]
  simp only [show 24 - 1 = 23 from rfl]
  congr 1
  -- clamping before or after dropping the fraction
  have hcl : IntMath.Spec.clamp (-2 ^ 23) (2 ^ 23 - 1) (towardZero (x * 2 ^ 23)) = towardZero (clamp (-2 ^ 23) (2 ^ 23 - 1) (x * 2 ^ 23)) := by
    obtain ⟨y, hy⟩ : ∃ y, x * 2 ^ 23 = y := ⟨_, rfl⟩
    rw [hy]
    unfold IntMath.Spec.clamp clamp
    by_cases ha : y ≤ -2 ^ 23
    · rw [min_eq_right (by linarith), max_eq_left ha]
      have e1 : towardZero y ≤ -2 ^ 23 := by
        unfold towardZero
        rw [if_neg (by intro h; norm_num at ha; linarith)]
        exact Int.ceil_le.mpr (by push_cast; exact ha)
      have e2 : towardZero (-2 ^ 23 : ℚ) = -2 ^ 23 := by
        have := towardZero_int (-2 ^ 23); push_cast at this; exact this
      rw [e2]
      omega
    · rw [not_le] at ha
      by_cases hb : (2 ^ 23 - 1 : ℚ) ≤ y
      · rw [min_eq_left hb, max_eq_right (by norm_num)]
        have e1 : 2 ^ 23 - 1 ≤ towardZero y := by
          unfold towardZero
          rw [if_pos (by norm_num at hb; linarith)]
          exact Int.le_floor.mpr (by push_cast; norm_num at hb ⊢; exact hb)
        have e2 : towardZero (2 ^ 23 - 1 : ℚ) = 2 ^ 23 - 1 := by
          have := towardZero_int (2 ^ 23 - 1); push_cast at this; norm_num at this ⊢; exact this
        rw [e2]
        omega
      · rw [not_le] at hb
        rw [min_eq_right hb.le, max_eq_right ha.le]
        have := towardZero_range y (-2 ^ 23) (2 ^ 23) (by norm_num) (by norm_num) (by push_cast; exact ha.le) (by push_cast; linarith)
        omega
  rw [hcl]
  have hrange : -2 ^ 23 ≤ towardZero (clamp (-2 ^ 23) (2 ^ 23 - 1) (x * 2 ^ 23)) ∧ towardZero (clamp (-2 ^ 23) (2 ^ 23 - 1) (x * 2 ^ 23)) < 2 ^ 23 := by
    apply towardZero_range _ _ _ (by norm_num) (by norm_num)
    · push_cast; exact le_max_left _ _
    · push_cast
      have : clamp (-2 ^ 23) (2 ^ 23 - 1) (x * 2 ^ 23) ≤ 2 ^ 23 - 1 := max_le (by norm_num) (min_le_left _ _)
      linarith
  unfold Ty.conv
  rw [if_pos rfl]
  exact wrapS_id _ (by norm_num) _ (by simp only; omega) (by simp only; omega)

/-- **C116**: scaleOutput then scaleInput comes back within one step, for every signed sample type of up to 32 bits (up to 24 used bits if they are not all used) and every value in [-1,1), also in binary32 arithmetic. -/
theorem C116_round_trip (t : Ty) (rnd : ℚ → ℚ) (x : ℚ) (hs : t.signed = true) (h1 : 1 ≤ t.used) (hb : t.used ≤ t.bits) (hb2 : t.bits ≤ 32) (hw : t.used = t.bits ∨ t.used ≤ 24) (hx : Value rnd x) (hl : -1 ≤ x) (hr : x < 1) :
    ∃ v, t.scaleOutput rnd x = .ok v ∧ (-2 ^ (t.used - 1) ≤ v ∧ v < 2 ^ (t.used - 1)) ∧ |t.scaleInput rnd v - x| < 1 / 2 ^ (t.used - 1) := by
  have hK := scaling t rnd h1 (by omega) hx.arith
  have hge := pow_ge_one (t.used - 1)
  have hxK : Value rnd (x * 2 ^ (t.used - 1)) := hx.of fun h => f32_scale h _
  -- reading back a sample that is close to x * K
  have key : ∀ v : ℤ, t.scaleOutput rnd x = .ok v → -2 ^ (t.used - 1) ≤ v → v < 2 ^ (t.used - 1) → Value rnd v → |(v : ℚ) - x * 2 ^ (t.used - 1)| < 1 →
      ∃ v, t.scaleOutput rnd x = .ok v ∧ (-2 ^ (t.used - 1) ≤ v ∧ v < 2 ^ (t.used - 1)) ∧ |t.scaleInput rnd v - x| < 1 / 2 ^ (t.used - 1) := by
    intro v hv hv1 hv2 hvv hnear
    refine ⟨v, hv, ⟨hv1, hv2⟩, ?_⟩
    have hse : t.signExtend v = v := by
      unfold Ty.signExtend
      split
      · rfl
      · have hle : (2 : Int) ^ (t.used - 1) ≤ 2 ^ (t.bits - 1) := pow_le_pow_right₀ (by norm_num) (by omega)
        rw [wrapS_id _ h1 _ hv1 hv2]
        unfold Ty.conv
        rw [if_pos hs]
        exact wrapS_id _ (by omega) _ (by linarith) (by linarith)
    unfold Ty.scaleInput
    rw [hse, hK, hvv.fix, (hvv.of (y := (v : ℚ) / 2 ^ (t.used - 1)) (fun h => f32_whole_div v h _ (by omega))).fix]
    have hpos : (0 : ℚ) < 2 ^ (t.used - 1) := by linarith
    have e : (v : ℚ) / 2 ^ (t.used - 1) - x = ((v : ℚ) - x * 2 ^ (t.used - 1)) / 2 ^ (t.used - 1) := by field_simp
    rw [e, abs_div, abs_of_pos hpos]
    exact div_lt_div_of_pos_right hnear hpos
  have hrange : ∀ y : ℚ, -2 ^ (t.used - 1) ≤ y → y < 2 ^ (t.used - 1) → -2 ^ (t.used - 1) ≤ towardZero y ∧ towardZero y < 2 ^ (t.used - 1) := by
    intro y ha hb
    have hp : (0 : Int) < 2 ^ (t.used - 1) := by positivity
    exact towardZero_range y _ _ (by linarith) hp (by push_cast; exact ha) (by push_cast; exact hb)
  have hy1 : -2 ^ (t.used - 1) ≤ x * 2 ^ (t.used - 1) := by nlinarith
  have hy2 : x * 2 ^ (t.used - 1) < 2 ^ (t.used - 1) := by nlinarith
  have hr0 := hrange _ hy1 hy2
  by_cases hwide : t.used < t.bits
  · have hle : (2 : ℚ) ^ (t.used - 1) ≤ 2 ^ (t.bits - 1) := pow_le_pow_right₀ (by norm_num) (by omega)
    have hle' : (2 : Int) ^ (t.used - 1) ≤ 2 ^ (t.bits - 1) := pow_le_pow_right₀ (by norm_num) (by omega)
    have hle23 : (2 : Int) ^ (t.used - 1) ≤ 2 ^ 23 := pow_le_pow_right₀ (by norm_num) (by omega)
    have hout := wide t rnd x hs h1 (by omega) hwide hb2 hx (by linarith) (by linarith)
    have e1 : IntMath.Spec.clamp (-2 ^ 23) (2 ^ 23 - 1) (towardZero (x * 2 ^ (t.used - 1))) = towardZero (x * 2 ^ (t.used - 1)) := by
      unfold IntMath.Spec.clamp
      omega
    have e2 : t.conv (towardZero (x * 2 ^ (t.used - 1))) = towardZero (x * 2 ^ (t.used - 1)) := by
      unfold Ty.conv
      rw [if_pos hs]
      exact wrapS_id _ (by omega) _ (by linarith) (by linarith)
    rw [e1, e2] at hout
    exact key _ hout hr0.1 hr0.2 (hxK.of f32_trunc) (towardZero_near _)
  · have hbe : t.bits = t.used := by omega
    by_cases hw' : t.used ≤ 25 ∨ (rnd = id ∧ t.used ≤ 32)
    · have hout := narrow t rnd x hs h1 hbe hw' hx
      by_cases hcl : x * 2 ^ (t.used - 1) ≤ 2 ^ (t.used - 1) - 1
      · have e : clamp (-2 ^ (t.used - 1)) (2 ^ (t.used - 1) - 1) (x * 2 ^ (t.used - 1)) = x * 2 ^ (t.used - 1) := by
          unfold clamp
          rw [min_eq_right hcl, max_eq_right hy1]
        rw [e] at hout
        exact key _ hout hr0.1 hr0.2 (hxK.of f32_trunc) (towardZero_near _)
      · rw [not_le] at hcl
        have e : clamp (-2 ^ (t.used - 1)) (2 ^ (t.used - 1) - 1) (x * 2 ^ (t.used - 1)) = ((2 ^ (t.used - 1) - 1 : ℤ) : ℚ) := by
          unfold clamp
          rw [min_eq_left hcl.le, max_eq_right (by linarith)]
          push_cast; rfl
        rw [e, towardZero_int] at hout
        have hp : (0 : Int) < 2 ^ (t.used - 1) := by positivity
        refine key _ hout (by linarith) (by linarith) ?_ ?_
        · rcases hw' with h25 | ⟨hid, _⟩
          · refine hx.of fun _ => f32_int _ ?_
            have hle : (2 : ℤ) ^ (t.used - 1) ≤ 2 ^ 24 := pow_le_pow_right₀ (by norm_num) (by omega)
            rw [abs_lt]; constructor <;> linarith
          · exact .inl hid
        · push_cast
          rw [abs_lt]; constructor <;> linarith
    · rcases hx with hid | ⟨hn, hF⟩
      · exact absurd (.inr ⟨hid, by omega⟩) hw'
      · have hout := narrow_in_range t rnd x hs h1 hbe (by omega) (by omega) hn hF hl hr
        exact key _ hout hr0.1 hr0.2 (.inr ⟨hn, f32_trunc (f32_scale hF _)⟩) (towardZero_near _)

/-- **C116**: scaleInput then scaleOutput gives back every sample, for signed types of up to 25 used bits (24 if not all bits are used). -/
theorem C116_sample_round_trip (t : Ty) (rnd : ℚ → ℚ) (hr : rnd = id ∨ Nearest rnd) (v : Int) (hs : t.signed = true) (h1 : 1 ≤ t.used) (hb : t.used ≤ t.bits) (hb2 : t.bits ≤ 32) (hw : t.used = t.bits ∧ t.used ≤ 25 ∨ t.used ≤ 24)
    (hv1 : -2 ^ (t.used - 1) ≤ v) (hv2 : v < 2 ^ (t.used - 1)) :
    t.scaleInput rnd v = v / 2 ^ (t.used - 1) ∧ t.scaleOutput rnd (t.scaleInput rnd v) = .ok v := by
  have hK := scaling t rnd h1 (by omega) hr
  have hpos : (0 : ℚ) < 2 ^ (t.used - 1) := by positivity
  have hle' : (2 : Int) ^ (t.used - 1) ≤ 2 ^ (t.bits - 1) := pow_le_pow_right₀ (by norm_num) (by omega)
  have hle24 : (2 : Int) ^ (t.used - 1) ≤ 2 ^ 24 := pow_le_pow_right₀ (by norm_num) (by omega)
  have hval : Value rnd v := by
    rcases hr with h | h
    · exact .inl h
    · refine .inr ⟨h, ?_⟩
      by_cases hm : v = -2 ^ (t.used - 1)
      · rw [hm]; push_cast; exact f32_neg (f32_pow2 _)
      · exact f32_int _ (by rw [abs_lt]; constructor <;> omega)
  have hse : t.signExtend v = v := by
    unfold Ty.signExtend
    split
    · rfl
    · rw [wrapS_id _ h1 _ hv1 hv2]
      unfold Ty.conv
      rw [if_pos hs]
      exact wrapS_id _ (by omega) _ (by linarith) (by linarith)
  have hin : t.scaleInput rnd v = v / 2 ^ (t.used - 1) := by
    unfold Ty.scaleInput
    rw [hse, hK, hval.fix, (hval.of (y := (v : ℚ) / 2 ^ (t.used - 1)) (fun h => f32_whole_div v h _ (by omega))).fix]
  refine ⟨hin, ?_⟩
  have hq1 : (-2 ^ (t.used - 1) : ℚ) ≤ v := by exact_mod_cast hv1
  have hq2 : (v : ℚ) ≤ 2 ^ (t.used - 1) - 1 := by
    have : v ≤ 2 ^ (t.used - 1) - 1 := by omega
    exact_mod_cast this
  have hvv : Value rnd ((v : ℚ) / 2 ^ (t.used - 1)) := hval.of fun h => f32_whole_div v h _ (by omega)
  rw [hin]
  by_cases hwide : t.used < t.bits
  · have hle : (2 : ℚ) ^ (t.used - 1) ≤ 2 ^ (t.bits - 1) := pow_le_pow_right₀ (by norm_num) (by omega)
    have hle23 : (2 : Int) ^ (t.used - 1) ≤ 2 ^ 23 := pow_le_pow_right₀ (by norm_num) (by omega)
    have hm : (v : ℚ) / 2 ^ (t.used - 1) * 2 ^ (t.used - 1) = v := div_mul_cancel₀ _ hpos.ne'
    rw [wide t rnd _ hs h1 (by omega) hwide hb2 hvv (by rw [hm]; linarith) (by rw [hm]; linarith), hm, towardZero_int]
    have e1 : IntMath.Spec.clamp (-2 ^ 23) (2 ^ 23 - 1) v = v := by unfold IntMath.Spec.clamp; omega
    rw [e1]
    unfold Ty.conv
    rw [if_pos hs, wrapS_id _ (by omega) _ (by linarith) (by linarith)]
  · rw [narrow t rnd _ hs h1 (by omega) (by omega) hvv, div_mul_cancel₀ _ hpos.ne']
    have : clamp (-2 ^ (t.used - 1)) (2 ^ (t.used - 1) - 1) (v : ℚ) = v := by
      unfold clamp
      rw [min_eq_right hq2, max_eq_right hq1]
    rw [this, towardZero_int]

/-- The hypotheses are met by 16-bit and 24-in-32-bit samples and rounding arithmetic. -/
example : ∃ rnd, Nearest rnd ∧ (⟨16, 16, true⟩ : Ty).scaleOutput rnd (3 / 4) = .ok 24576 ∧ (⟨32, 24, true⟩ : Ty).scaleOutput rnd (-2) = .ok (-8388608) := by
  obtain ⟨rnd, h⟩ := exists_nearest
  refine ⟨rnd, h, ?_, ?_⟩
  · rw [C116_saturates_partial ⟨16, 16, true⟩ rnd (3 / 4) rfl (by norm_num) rfl (.inl (by norm_num)) (.inr ⟨h, 3, -2, by norm_num, by norm_num, by norm_num⟩)]
    unfold clamp
    norm_num
    exact_mod_cast towardZero_int 24576
  · rw [C116_saturates_24_partial ⟨32, 24, true⟩ rnd (-2) rfl (.inr ⟨h, -2, 0, by norm_num, by norm_num, by norm_num⟩) (by norm_num) (by norm_num)]
    unfold clamp
    norm_num
    have := towardZero_int (-8388608)
    push_cast at this
    exact this

/-- The float nearest to 2^31 - 1 is 2^31. -/
theorem round_max32 (rnd : ℚ → ℚ) (h : Nearest rnd) : rnd (2 ^ 31 - 1) = 2 ^ 31 := by
  have h1 : rnd (2 ^ 31 - 1) ≤ 2 ^ 31 := h.le (f32_pow2 31) (by norm_num)
  have h2 := h.nearest (2 ^ 31 - 1) (2 ^ 31) (f32_pow2 31)
  have h3 : (2 : ℚ) ^ 31 - 2 ≤ rnd (2 ^ 31 - 1) := by
    have : |(2 : ℚ) ^ 31 - (2 ^ 31 - 1)| = 1 := by norm_num
    rw [this] at h2
    have := (abs_le.mp h2).1
    linarith
  obtain ⟨n, hn⟩ := f32_multiple (h.f32 (2 ^ 31 - 1)) 7 (by
    rw [abs_of_pos (by linarith [show (0 : ℚ) < 2 ^ 31 - 2 by norm_num])]
    refine le_trans ?_ h3
    norm_num)
  rw [hn] at h1 h3 ⊢
  have e : (2 : ℚ) ^ (7 : ℤ) = 128 := by norm_num
  rw [e] at h1 h3 ⊢
  have h4 : n * 128 ≤ 2147483648 := by have : (n : ℚ) * 128 ≤ 2147483648 := by linarith
                                       exact_mod_cast this
  have h5 : 2147483646 ≤ n * 128 := by have : (2147483646 : ℚ) ≤ (n : ℚ) * 128 := by linarith
                                       exact_mod_cast this
  have : n = 16777216 := by omega
  rw [this]; norm_num

/-- **C116** violated: with 32-bit samples scaleOutput of every float from 1 upwards converts 2^31 to int32_t, which is undefined: the upper limit (2^31-1)/2^31 is rounded to 1. -/
theorem C116_full_scale_32_violated (rnd : ℚ → ℚ) (h : Nearest rnd) (x : ℚ) (hx : 1 ≤ x) : (⟨32, 32, true⟩ : Ty).scaleOutput rnd x = .ub := by
  have hK := scaling ⟨32, 32, true⟩ rnd (by norm_num) (by norm_num) (.inr h)
  simp only [show 32 - 1 = 31 from rfl] at hK
  unfold Ty.scaleOutput
  rw [if_pos rfl, if_neg (by simp), hK, round_max32 rnd h, div_self (by norm_num), h.fix f32_one]
  have hc : constrain x (-1) 1 = 1 := by
    rw [constrain_eq _ _ _ (by norm_num)]
    unfold clamp
    rw [min_eq_left hx, max_eq_right (by norm_num)]
  simp only [hc, one_mul]
  rw [h.fix (f32_pow2 31)]
  unfold truncS
  rw [if_neg]
  norm_num

/-- **C116** violated: a sample type with unused bits saturates to 24 bits whatever UsedBits is: 16 bits in an int32_t accept 49152, which is read back as a negative number. -/
theorem C116_used_16_violated : (⟨32, 16, true⟩ : Ty).scaleOutput id (3 / 2) = .ok 49152 ∧ (⟨32, 16, true⟩ : Ty).scaleInput id 49152 = -(1 / 2) := by decide +kernel

/-- The same in binary32. -/
theorem C116_used_16_float_violated (rnd : ℚ → ℚ) (h : Nearest rnd) : (⟨32, 16, true⟩ : Ty).scaleOutput rnd (3 / 2) = .ok 49152 ∧ (⟨32, 16, true⟩ : Ty).signExtend 49152 = -16384 := by
  refine ⟨?_, by decide +kernel⟩
  rw [wide ⟨32, 16, true⟩ rnd (3 / 2) rfl (by norm_num) (by norm_num) (by norm_num) (by norm_num) (.inr ⟨h, 3, -1, by norm_num, by norm_num, by norm_num⟩) (by norm_num) (by norm_num)]
  norm_num
  have := towardZero_int 49152
  push_cast at this
  rw [this]
  decide +kernel

/-- **C116** violated: with 24 bits in an int32_t, values from 256 upwards are undefined (converted before they are saturated). -/
theorem C116_wide_24_violated (rnd : ℚ → ℚ) (x : ℚ) (hx : Value rnd x) (h : 256 ≤ x) : (⟨32, 24, true⟩ : Ty).scaleOutput rnd x = .ub := by
  have hK := scaling ⟨32, 24, true⟩ rnd (by norm_num) (by norm_num) hx.arith
  unfold Ty.scaleOutput
  rw [if_pos rfl, if_pos (by simp), hK, (hx.of (y := x * 2 ^ (24 - 1)) (fun h => f32_scale h _)).fix]
  unfold truncS
  rw [if_neg, R.bind_ub]
  rintro ⟨_, h2⟩
  norm_num at h2
  linarith

/-- **C116**: an unsigned sample type of up to 24 used bits: scaleOutput is defined for every value, -1 (and below) gives 0, 1 (and above) the largest sample, and it is non-decreasing. -/
theorem C116_unsigned (t : Ty) (rnd : ℚ → ℚ) (hr : rnd = id ∨ Nearest rnd) (hs : t.signed = false) (h1 : 1 ≤ t.used) (hu : t.used ≤ 24) (hb : t.used ≤ t.bits) (x y : ℚ) :
    ∃ a b : Nat, t.scaleOutput rnd x = .ok a ∧ t.scaleOutput rnd y = .ok b ∧ (a ≤ 2 ^ t.used - 1) ∧ (x ≤ -1 → a = 0) ∧ (1 ≤ x → a = 2 ^ t.used - 1) ∧ (x ≤ y → a ≤ b) := by
  have hmono : ∀ {a b : ℚ}, a ≤ b → rnd a ≤ rnd b := by
    rcases hr with rfl | h
    · exact fun h => h
    · exact fun h' => h.mono h'
  have hfix : ∀ a : ℚ, F32 a → rnd a = a := by
    rcases hr with rfl | h
    · exact fun _ _ => rfl
    · exact fun a ha => h.fix ha
  have hpow : (2 : Nat) ^ t.used ≤ 2 ^ 24 := Nat.pow_le_pow_right (by norm_num) hu
  have hpow' : (2 : Nat) ^ t.used ≤ 2 ^ t.bits := Nat.pow_le_pow_right (by norm_num) hb
  have hpos := Nat.two_pow_pos t.used
  have hM : (IntMath.ipow 2 t.used + 2 ^ 32 - 1) % 2 ^ 32 = 2 ^ t.used - 1 := by rw [ipow_two _ (by omega)]; omega
  obtain ⟨M, hMd⟩ : ∃ M : Nat, 2 ^ t.used - 1 = M := ⟨_, rfl⟩
  have hMF : F32 M := by
    have := f32_int (M : ℤ) (by rw [abs_lt]; omega)
    exact_mod_cast this
  have hc01 : ∀ z, 0 ≤ constrain z 0 1 ∧ constrain z 0 1 ≤ 1 := by
    intro z
    rw [constrain_eq _ _ _ (by norm_num)]
    exact ⟨le_max_left _ _, max_le (by norm_num) (min_le_left _ _)⟩
  have hcm : ∀ {z w : ℚ}, z ≤ w → constrain z 0 1 ≤ constrain w 0 1 := by
    intro z w h
    rw [constrain_eq _ _ _ (by norm_num), constrain_eq _ _ _ (by norm_num)]
    exact max_le_max le_rfl (min_le_min le_rfl h)
  obtain ⟨f, hf⟩ : ∃ f : ℚ → ℚ, ∀ z, f z = rnd (constrain (rnd (rnd (z * (1 / 2)) + 1 / 2)) 0 1 * M) := ⟨_, fun _ => rfl⟩
  have hM0 : (0 : ℚ) ≤ M := Nat.cast_nonneg _
  have hout : ∀ z, t.scaleOutput rnd z = .ok (⌊f z⌋.toNat : Nat) ∧ 0 ≤ f z ∧ f z ≤ M := by
    intro z
    have h0 : 0 ≤ f z := by
      have := hmono (mul_nonneg (hc01 (rnd (rnd (z * (1 / 2)) + 1 / 2))).1 hM0)
      rwa [hfix 0 f32_zero, ← hf z] at this
    have h1 : f z ≤ M := by
      rw [hf]
      refine le_trans (hmono (show _ ≤ (M : ℚ) from ?_)) (hfix _ hMF).le
      exact mul_le_of_le_one_left hM0 (hc01 _).2
    refine ⟨?_, h0, h1⟩
    unfold Ty.scaleOutput
    rw [if_neg (by rw [hs]; simp), hM, hMd, hfix _ hMF]
    simp only [← hf z]
    unfold Color.trunc
    rw [if_pos, R.bind_ok]
    refine ⟨by linarith, lt_of_le_of_lt h1 ?_⟩
    have : M < 2 ^ t.bits := by omega
    exact_mod_cast this
  have hhalf : F32 (1 / 2) := ⟨1, -1, by norm_num, by norm_num, by norm_num⟩
  have hnhalf : F32 (-(1 / 2)) := f32_neg hhalf
  refine ⟨_, _, (hout x).1, (hout y).1, ?_, ?_, ?_, ?_⟩
  · rw [hMd, Int.toNat_le]
    have := (Int.floor_le (f x)).trans (hout x).2.2
    exact_mod_cast this
  · intro hx
    have h2 : rnd (x * (1 / 2)) ≤ -(1 / 2) := (hmono (show _ ≤ -(1 / 2 : ℚ) by linarith)).trans (hfix _ hnhalf).le
    have h3 : rnd (rnd (x * (1 / 2)) + 1 / 2) ≤ 0 := (hmono (show _ ≤ (0 : ℚ) by linarith)).trans (hfix _ f32_zero).le
    have h4 : constrain (rnd (rnd (x * (1 / 2)) + 1 / 2)) 0 1 = 0 := by
      rw [constrain_eq _ _ _ (by norm_num)]
      unfold clamp
      rw [min_eq_right (by linarith), max_eq_left h3]
    rw [hf, h4, zero_mul, hfix _ f32_zero]; simp
  · intro hx
    have h2 : 1 / 2 ≤ rnd (x * (1 / 2)) := (hfix _ hhalf).ge.trans (hmono (show (1 / 2 : ℚ) ≤ _ by linarith))
    have h3 : 1 ≤ rnd (rnd (x * (1 / 2)) + 1 / 2) := (hfix _ f32_one).ge.trans (hmono (show (1 : ℚ) ≤ _ by linarith))
    have h4 : constrain (rnd (rnd (x * (1 / 2)) + 1 / 2)) 0 1 = 1 := by
      rw [constrain_eq _ _ _ (by norm_num)]
      unfold clamp
      rw [min_eq_left h3, max_eq_right (by norm_num)]
    rw [hf, h4, one_mul, hfix _ hMF, hMd]; simp
  · intro hxy
    apply Int.toNat_le_toNat
    apply Int.floor_le_floor
    rw [hf, hf]
    apply hmono
    apply mul_le_mul_of_nonneg_right _ hM0
    apply hcm
    apply hmono
    have := hmono (show x * (1 / 2) ≤ y * (1 / 2) by linarith)
    linarith

-- 12 of 16 unsigned bits
example (rnd : ℚ → ℚ) (h : Nearest rnd) := C116_unsigned ⟨16, 12, false⟩ rnd (.inr h) rfl (by decide) (by decide) (by decide) (1 / 3) (1 / 2)

/-- **C116**, unsigned samples in exact arithmetic: [-1,1] is mapped linearly to [0, 2^UsedBits - 1]. -/
theorem C116_unsigned_exact (t : Ty) (hs : t.signed = false) (h1 : 1 ≤ t.used) (hu : t.used ≤ 32) (hb : t.used ≤ t.bits) (x : ℚ) (hl : -1 ≤ x) (hr : x ≤ 1) :
    t.scaleOutput id x = .ok ⌊(x + 1) / 2 * (2 ^ t.used - 1)⌋ := by
  have hpow' : (2 : Nat) ^ t.used ≤ 2 ^ t.bits := Nat.pow_le_pow_right (by norm_num) hb
  have hpos := Nat.two_pow_pos t.used
  have hle : (2 : Nat) ^ t.used ≤ 2 ^ 32 := Nat.pow_le_pow_right (by norm_num) hu
  have hM : (IntMath.ipow 2 t.used + 2 ^ 32 - 1) % 2 ^ 32 = 2 ^ t.used - 1 := by
    rcases Nat.lt_or_ge t.used 32 with h | h
    · rw [ipow_two _ (by omega)]; omega
    · have : t.used = 32 := by omega
      rw [this]; decide +kernel
  unfold Ty.scaleOutput
  rw [if_neg (by rw [hs]; simp), hM]
  have hc : constrain (x * (1 / 2) + 1 / 2) 0 1 = (x + 1) / 2 := by
    rw [constrain_eq _ _ _ (by norm_num)]
    unfold clamp
    rw [min_eq_right (by linarith), max_eq_right (by linarith)]
    ring
  have hcast : ((2 ^ t.used - 1 : Nat) : ℚ) = 2 ^ t.used - 1 := by rw [Nat.cast_sub (by omega)]; push_cast; rfl
  have hge := pow_ge_one t.used
  have hq : (2 : ℚ) ^ t.used ≤ 2 ^ t.bits := by exact_mod_cast hpow'
  simp only [id, hc, hcast]
  have h0 : 0 ≤ (x + 1) / 2 * (2 ^ t.used - 1 : ℚ) := mul_nonneg (by linarith) (by linarith)
  unfold Color.trunc
  rw [if_pos, R.bind_ok]
  · exact congrArg R.ok (Int.toNat_of_nonneg (Int.floor_nonneg.mpr h0))
  · refine ⟨by linarith, ?_⟩
    have : (x + 1) / 2 * (2 ^ t.used - 1 : ℚ) ≤ 1 * (2 ^ t.used - 1) := mul_le_mul_of_nonneg_right (by linarith) (by linarith)
    push_cast
    linarith

example := C116_unsigned_exact ⟨16, 12, false⟩ rfl (by decide) (by decide) (by decide) (1 / 3) (by norm_num) (by norm_num)

/-- **C116** violated: unsigned samples do not come back: scaleOutput shifts by half the range, scaleInput does not. -/
theorem C116_unsigned_round_trip_violated : (⟨8, 8, false⟩ : Ty).scaleOutput id 0 = .ok 127 ∧ (⟨8, 8, false⟩ : Ty).scaleInput id 127 = 127 / 128 := by decide +kernel

/-- **C116**: the frame functions apply these to the sample of one channel and leave the others alone. -/
theorem C116_channels (t : Ty) (rnd : ℚ → ℚ) (chan : List Int) (i : Nat) (hi : i < chan.length) (x : ℚ) :
    t.signExtendChan chan i = .ok (t.signExtend chan[i]) ∧ t.scaleInputChan rnd chan i = .ok (t.scaleInput rnd chan[i]) ∧
    ∀ v, t.scaleOutput rnd x = .ok v → ∃ c, t.setScaledOutput rnd chan i x = .ok c ∧ c.length = chan.length ∧ c[i]? = some v ∧ ∀ j, j ≠ i → c[j]? = chan[j]? := by
  unfold Ty.signExtendChan Ty.scaleInputChan Ty.setScaledOutput
  rw [arrGet_lt hi]
  refine ⟨rfl, rfl, fun v hv => ?_⟩
  rw [hv, R.bind_ok]
  refine ⟨chan.set i v, by unfold arrSet; rw [if_pos hi], by simp, by simp [hi], fun j hj => ?_⟩
  rw [List.getElem?_set_ne (fun h => hj h.symm)]

example := C116_channels ⟨32, 24, true⟩ id [5, 6] 1 (by decide) (1 / 3)

end AudioFrame
