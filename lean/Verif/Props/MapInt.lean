import Verif.Model.MapInt
import Verif.Props.MathFloat
import Verif.Props.HystInt
/-! # Property C176: map_value between floats and integers -/

namespace MapInt
open Flt ParamsInt

theorem int_fix {rnd : ℚ → ℚ} (h : Nearest rnd) (n : Int) (hn : |n| ≤ 2 ^ 18) : F32 (n : ℚ) ∧ rnd (n : ℚ) = n := by
  have f : F32 (n : ℚ) := f32_int n (by linarith [show (2 : ℤ) ^ 20 < 2 ^ 24 by norm_num])
  exact ⟨f, h.fix f⟩

theorem inTy_small (n : Int) (hn : |n| ≤ 2 ^ 22) : InTy int32 n := by
  have := abs_le.mp hn
  unfold InTy int32
  norm_num at this ⊢
  omega

theorem toInt_eq {rnd : ℚ → ℚ} (h : Nearest rnd) (x inMin inMax : ℚ) (outMin outMax : Int) (b1 : |outMin| ≤ 2 ^ 18) (b2 : |outMax| ≤ 2 ^ 18) :
    toInt rnd x inMin inMax outMin outMax = HystInt.toInt int32 (MathFloat.mapValue rnd x inMin inMax outMin outMax) := by
  have c1 := abs_le.mp b1
  have c2 := abs_le.mp b2
  have hw : op int32 (outMax - outMin) = .ok (outMax - outMin) := op_id (by decide) (inTy_small _ (abs_le.mpr ⟨by omega, by omega⟩))
  unfold toInt MathFloat.mapValue
  rw [hw, R.bind_ok, (int_fix h outMin b1).2]
  push_cast
  rfl

/-- The conversion to `int` of a float in range. -/
theorem conv_spec (q : ℚ) (hq : |q| ≤ 2 ^ 21) : ∃ n : Int, HystInt.toInt int32 q = .ok n ∧ (n = if 0 ≤ q then ⌊q⌋ else ⌈q⌉) ∧ |q - n| < 1 := by
  obtain ⟨n, hn⟩ : ∃ n : Int, n = if 0 ≤ q then ⌊q⌋ else ⌈q⌉ := ⟨_, rfl⟩
  have hd : |q - n| < 1 := by
    rw [hn, abs_lt]
    split
    · constructor <;> linarith [Int.floor_le q, Int.lt_floor_add_one q]
    · constructor <;> linarith [Int.le_ceil q, Int.ceil_lt_add_one q]
  refine ⟨n, ?_, hn, hd⟩
  unfold HystInt.toInt
  rw [← hn]
  simp only
  rw [if_pos]
  apply inTy_small
  have : |(n : ℚ)| ≤ 2 ^ 22 := by
    rw [abs_lt] at hd
    rw [abs_le] at hq ⊢
    constructor <;> linarith
  exact_mod_cast this

theorem trunc_mono {p q : ℚ} (hpq : p ≤ q) : (if 0 ≤ p then ⌊p⌋ else ⌈p⌉) ≤ (if 0 ≤ q then ⌊q⌋ else ⌈q⌉) := by
  split
  · rw [if_pos (by linarith)]
    exact Int.floor_le_floor hpq
  · next hp =>
    split
    · next hq =>
      have h1 : ⌈p⌉ ≤ 0 := by rw [Int.ceil_le]; push_cast; linarith
      have h2 : 0 ≤ ⌊q⌋ := Int.floor_nonneg.mpr hq
      omega
    · exact Int.ceil_le_ceil hpq

/-- **C176** (partial): mapping a float range (at least 2^-60 wide) onto an increasing range of integers of magnitude up to 2^20. An input inside the range gives a defined result, not below the lower end and at most one above the upper end, not above it unless
the upper end is negative; less than 3/2 away from the exact value; the lower end is hit exactly, the upper end within one, and exactly if the width of the input range (rounded) is a power of two. Missing: the upper end always exactly. -/
theorem C176_to_int_partial (rnd : ℚ → ℚ) (h : Nearest rnd) (x inMin inMax : ℚ) (outMin outMax : Int) (hx : F32 x) (hi1 : F32 inMin) (hi2 : F32 inMax) (hi : 1 / 2 ^ 60 ≤ inMax - inMin) (ho : outMin ≤ outMax) (b1 : |outMin| ≤ 2 ^ 18) (b2 : |outMax| ≤ 2 ^ 18)
    (h0 : inMin ≤ x) (h1 : x ≤ inMax) :
    ∃ n : Int, toInt rnd x inMin inMax outMin outMax = .ok n ∧ outMin ≤ n ∧ n ≤ outMax + 1 ∧ (0 ≤ outMax → n ≤ outMax) ∧ |(n : ℚ) - RatMath.mapValue x inMin inMax outMin outMax| < 3 / 2 ∧ (x = inMin → n = outMin) ∧ (x = inMax → outMax - 1 ≤ n) ∧
      (x = inMax → (∃ e : ℤ, -100 ≤ e ∧ rnd (inMax - inMin) = 2 ^ e) → n = outMax) := by
  obtain ⟨f1, g1⟩ := int_fix h outMin b1
  obtain ⟨f2, g2⟩ := int_fix h outMax b2
  have c1 := abs_le.mp b1
  have c2 := abs_le.mp b2
  have hii : inMin < inMax := by
    have : (0 : ℚ) < 1 / 2 ^ 60 := by norm_num
    linarith
  have hoq : (outMin : ℚ) ≤ outMax := by exact_mod_cast ho
  have acc := MathFloat.C153_map_accuracy_partial rnd h x inMin inMax outMin outMax hx hi1 hi2 f1 f2 hi hoq h0 h1
  have abv := MathFloat.C153_map_above rnd h x inMin inMax outMin outMax hi1 hi2 hii f1 hoq h0
  have rng := RatMath.C86_range x inMin inMax outMin outMax hii h0 h1
  have q1 : |(outMin : ℚ)| ≤ 2 ^ 18 := by exact_mod_cast b1
  have q2 : |(outMax : ℚ)| ≤ 2 ^ 18 := by exact_mod_cast b2
  have q1' := abs_le.mp q1
  have q2' := abs_le.mp q2
  have small : (12 * ((outMax : ℚ) - outMin) + |(outMin : ℚ)| + |(outMax : ℚ)|) / 2 ^ 24 + 1 / 2 ^ 80 ≤ 1 / 2 := by
    have : (12 * ((outMax : ℚ) - outMin) + |(outMin : ℚ)| + |(outMax : ℚ)|) / 2 ^ 24 ≤ (26 * 2 ^ 18) / 2 ^ 24 := by
      apply div_le_div_of_nonneg_right _ (by norm_num)
      linarith
    norm_num at this ⊢
    linarith
  obtain ⟨r1, r2⟩ := rng.1 hoq
  obtain ⟨q, hq⟩ : ∃ q, q = MathFloat.mapValue rnd x inMin inMax outMin outMax := ⟨_, rfl⟩
  rw [← hq] at acc abv
  have acc' := abs_le.mp (acc.trans small)
  obtain ⟨n, e, hn, hd⟩ := conv_spec q (by rw [abs_le]; constructor <;> linarith)
  have hd' := abs_lt.mp hd
  have lo : outMin ≤ n := by
    rw [hn]
    split
    · exact Int.le_floor.mpr abv
    · have := abv.trans (Int.le_ceil q)
      exact_mod_cast this
  have up : n ≤ outMax + 1 ∧ (0 ≤ outMax → n ≤ outMax) := by
    rw [hn]
    split
    · have : ⌊q⌋ < outMax + 1 := by rw [Int.floor_lt]; push_cast; linarith
      exact ⟨by omega, fun _ => by omega⟩
    · next hneg =>
      have h3 : ⌈q⌉ ≤ outMax + 1 := by rw [Int.ceil_le]; push_cast; linarith
      have h4 : ⌈q⌉ ≤ 0 := by rw [Int.ceil_le]; push_cast; linarith
      exact ⟨h3, fun _ => by omega⟩
  refine ⟨n, by rw [toInt_eq h x inMin inMax outMin outMax b1 b2, ← hq, e], lo, up.1, up.2, ?_, ?_, ?_, ?_⟩
  · rw [abs_lt]; constructor <;> linarith
  · intro hxe
    rw [hxe, MathFloat.C153_map_start rnd h inMin inMax outMin outMax f1] at hq
    rw [hn, hq]
    split
    · exact Int.floor_intCast _
    · exact Int.ceil_intCast _
  · intro hxe
    have ex : RatMath.mapValue x inMin inMax outMin outMax = outMax := by rw [hxe]; exact (RatMath.C86_end_points inMin inMax outMin outMax hii.ne).2
    rw [ex] at acc'
    have : ((outMax - 2 : ℤ) : ℚ) < n := by push_cast; linarith
    have : outMax - 2 < n := by exact_mod_cast this
    omega
  · rintro hxe ⟨k, hk, hpow⟩
    have hw : |outMax - outMin| < 2 ^ 24 := by rw [abs_lt]; constructor <;> linarith
    have wF : F32 ((outMax : ℚ) - outMin) := by have := f32_int (outMax - outMin) hw; push_cast at this; exact this
    have hp : (0 : ℚ) < 2 ^ k := two_zpow_pos k
    have pF : F32 ((2 : ℚ) ^ k * ((outMax : ℚ) - outMin)) := ⟨outMax - outMin, k, hw, by omega, by push_cast; ring⟩
    have : q = outMax := by
      rw [hq, hxe]
      unfold MathFloat.mapValue
      rw [hpow, h.fix wF, h.fix pF, mul_div_cancel_left₀ _ hp.ne', h.fix wF, sub_add_cancel, g2]
    rw [hn, this]
    split
    · exact Int.floor_intCast _
    · exact Int.ceil_intCast _

/-- 0..1 onto 0..255 -/
example (rnd : ℚ → ℚ) (h : Nearest rnd) := C176_to_int_partial rnd h 1 0 1 0 255 f32_one f32_zero f32_one (by norm_num) (by norm_num) (by norm_num) (by norm_num) (by norm_num) (by norm_num)

/-- **C176** never reverses order either. -/
theorem C176_to_int_monotone (rnd : ℚ → ℚ) (h : Nearest rnd) (x y inMin inMax : ℚ) (outMin outMax m n : Int) (hi1 : F32 inMin) (hi2 : F32 inMax) (hi : inMin < inMax) (ho : outMin ≤ outMax) (b1 : |outMin| ≤ 2 ^ 18) (b2 : |outMax| ≤ 2 ^ 18) (hxy : x ≤ y)
    (hm : toInt rnd x inMin inMax outMin outMax = .ok m) (hn : toInt rnd y inMin inMax outMin outMax = .ok n) : m ≤ n := by
  rw [toInt_eq h _ _ _ _ _ b1 b2] at hm hn
  have mono := MathFloat.C153_map_monotone rnd h x y inMin inMax outMin outMax hi1 hi2 hi (by exact_mod_cast ho) hxy
  have key : ∀ (q : ℚ) (k : Int), HystInt.toInt int32 q = .ok k → k = if 0 ≤ q then ⌊q⌋ else ⌈q⌉ := by
    intro q k hk
    unfold HystInt.toInt at hk
    generalize (if 0 ≤ q then ⌊q⌋ else ⌈q⌉) = z at hk ⊢
    simp only at hk
    split at hk
    · injection hk with hk
      exact hk.symm
    · cases hk
  rw [key _ _ hm, key _ _ hn]
  exact trunc_mono mono

example (rnd : ℚ → ℚ) (h : Nearest rnd) : ∃ m n, toInt rnd 0 0 1 0 255 = .ok m ∧ toInt rnd 1 0 1 0 255 = .ok n := by
  obtain ⟨m, hm, _⟩ := C176_to_int_partial rnd h 0 0 1 0 255 f32_zero f32_zero f32_one (by norm_num) (by norm_num) (by norm_num) (by norm_num) (by norm_num) (by norm_num)
  obtain ⟨n, hn, _⟩ := C176_to_int_partial rnd h 1 0 1 0 255 f32_one f32_zero f32_one (by norm_num) (by norm_num) (by norm_num) (by norm_num) (by norm_num) (by norm_num)
  exact ⟨m, n, hm, hn⟩

/-- **C176**: the width of the output range must be an `int`: up to 2^31 - 1 it is, 2^31 is undefined. -/
theorem C176_wide (rnd : ℚ → ℚ) (h : Nearest rnd) : toInt rnd 0 0 1 0 2147483647 = .ok 0 ∧ ∀ x a b, toInt rnd x a b (-1) 2147483647 = .ub := by
  refine ⟨?_, fun x a b => ?_⟩
  · unfold toInt
    rw [show op int32 (2147483647 - 0) = .ok 2147483647 by decide, R.bind_ok]
    have z : rnd 0 = 0 := h.zero
    simp only [sub_zero, Int.cast_zero, z, zero_mul, zero_div, add_zero]
    decide
  · unfold toInt
    rw [show op int32 (2147483647 - -1) = .ub by decide]
    rfl

/-- **C176 is violated** at the upper end: map_value(0.3f, 0.f, 0.3f, 0, 255) is 254, whichever way ties are rounded. -/
theorem C176_end_violated (rnd : ℚ → ℚ) (h : Nearest rnd) : F32 (10066330 / 2 ^ 25) ∧ toInt rnd (10066330 / 2 ^ 25) 0 (10066330 / 2 ^ 25) 0 255 = .ok 254 := by
  have hF : F32 (10066330 / 2 ^ 25) := by have := f32_div 10066330 (by norm_num) 25 (by norm_num); norm_num at this ⊢; exact this
  refine ⟨hF, ?_⟩
  have p : rnd (10066330 / 2 ^ 25 * 255) = (10027008 : ℤ) * (2 : ℚ) ^ (-17 : ℤ) :=
    h.eq_of_close _ _ _ (by norm_num) (by norm_num) (by rw [abs_of_nonneg] <;> norm_num) (by rw [abs_lt]; norm_num)
  have q : rnd ((10027008 : ℤ) * (2 : ℚ) ^ (-17 : ℤ) / (10066330 / 2 ^ 25)) = (16711679 : ℤ) * (2 : ℚ) ^ (-16 : ℤ) :=
    h.eq_of_close _ _ _ (by norm_num) (by norm_num) (by rw [abs_of_nonneg] <;> norm_num) (by rw [abs_lt]; norm_num)
  have r255 : rnd ((255 : ℤ) - (0 : ℤ) : ℚ) = 255 := by
    have := (int_fix h 255 (by norm_num)).2
    push_cast at this ⊢
    rw [sub_zero]; exact this
  rw [toInt_eq h _ _ _ _ _ (by norm_num) (by norm_num)]
  have hm : MathFloat.mapValue rnd (10066330 / 2 ^ 25) 0 (10066330 / 2 ^ 25) ((0 : ℤ) : ℚ) ((255 : ℤ) : ℚ) = (16711679 : ℤ) * (2 : ℚ) ^ (-16 : ℤ) := by
    unfold MathFloat.mapValue
    rw [r255, sub_zero, h.fix hF, p, q, Int.cast_zero, add_zero, ← q, h.fix (h.f32 _)]
  rw [hm]
  unfold HystInt.toInt
  have f : ⌊((16711679 : ℤ) : ℚ) * (2 : ℚ) ^ (-16 : ℤ)⌋ = 254 := by rw [Int.floor_eq_iff]; norm_num
  have p : (0 : ℚ) ≤ ((16711679 : ℤ) : ℚ) * (2 : ℚ) ^ (-16 : ℤ) := by positivity
  simp only [p, if_true, f]
  decide

/-- **C176** (integers onto floats; partial): mapping an integer range of magnitude up to 2^18 of a 32-bit type onto an increasing float range: for an input inside the range the result is the one of the float map, so within rounding of the exact value, and the lower end exact.
Missing: the upper end exactly. -/
theorem C176_of_int_partial (rnd : ℚ → ℚ) (h : Nearest rnd) (t : Ty) (ht : t.w = 32) (x inMin inMax : Int) (outMin outMax : ℚ) (ho1 : F32 outMin) (ho2 : F32 outMax) (ho : outMin ≤ outMax) (hi : inMin < inMax) (b1 : |inMin| ≤ 2 ^ 18) (b2 : |inMax| ≤ 2 ^ 18) (h0 : inMin ≤ x) (h1 : x ≤ inMax) :
    ∃ y, ofInt rnd t x inMin inMax outMin outMax = .ok y ∧ |y - RatMath.mapValue x inMin inMax outMin outMax| ≤ (12 * (outMax - outMin) + |outMin| + |outMax|) / 2 ^ 24 + 1 / 2 ^ 80 ∧ outMin ≤ y ∧ (x = inMin → y = outMin) := by
  have c1 := abs_le.mp b1
  have c2 := abs_le.mp b2
  have bx : |x| ≤ 2 ^ 18 := abs_le.mpr ⟨by omega, by omega⟩
  have hin : ∀ n : Int, 0 ≤ n → n ≤ 2 ^ 19 → InTy t n := by
    intro n g1 g2
    unfold InTy
    rw [ht]
    norm_num at g2 ⊢
    split <;> omega
  have e1 : op t (x - inMin) = .ok (x - inMin) := op_id (by omega) (hin _ (by omega) (by omega))
  have e2 : op t (inMax - inMin) = .ok (inMax - inMin) := op_id (by omega) (hin _ (by omega) (by omega))
  have hiq : (inMin : ℚ) < inMax := by exact_mod_cast hi
  have hoq0 : (inMin : ℚ) ≤ x := by exact_mod_cast h0
  have hoq1 : (x : ℚ) ≤ inMax := by exact_mod_cast h1
  have heq : ofInt rnd t x inMin inMax outMin outMax = .ok (MathFloat.mapValue rnd x inMin inMax outMin outMax) := by
    unfold ofInt
    rw [e1, R.bind_ok, e2, R.bind_ok]
    rw [if_neg (by omega)]
    unfold MathFloat.mapValue
    push_cast
    rfl
  have hd : (1 : ℚ) / 2 ^ 60 ≤ inMax - inMin := by
    have : (1 : ℤ) ≤ inMax - inMin := by omega
    have : (1 : ℚ) ≤ inMax - inMin := by exact_mod_cast this
    norm_num at this ⊢
    linarith
  refine ⟨_, heq, MathFloat.C153_map_accuracy_partial rnd h x inMin inMax outMin outMax (int_fix h x bx).1 (int_fix h inMin b1).1 (int_fix h inMax b2).1 ho1 ho2 hd ho hoq0 hoq1,
    MathFloat.C153_map_above rnd h x inMin inMax outMin outMax (int_fix h inMin b1).1 (int_fix h inMax b2).1 hiq ho1 ho hoq0, ?_⟩
  intro hx
  rw [hx, MathFloat.C153_map_start rnd h inMin inMax outMin outMax ho1]

/-- an ADC reading of 2048 out of 0..4095 onto 0..1 -/
example (rnd : ℚ → ℚ) (h : Nearest rnd) := C176_of_int_partial rnd h ⟨32, false⟩ rfl 2048 0 4095 0 1 f32_zero f32_one (by norm_num) (by norm_num) (by norm_num) (by norm_num) (by norm_num) (by norm_num)

/-- **C176 is violated** by unsigned inputs below the range: they wrap. map_value(9u, 10u, 20u, 0.f, 10.f) is 2^32. -/
theorem C176_below_violated (rnd : ℚ → ℚ) (h : Nearest rnd) : ofInt rnd ⟨32, false⟩ 9 10 20 0 10 = .ok 4294967296 := by
  have r10 : rnd 10 = 10 := h.fix (by have := f32_int 10 (by norm_num); exact_mod_cast this)
  have r : rnd 4294967295 = 4294967296 := by
    rw [h.eq_of_close 4294967295 16777216 8 (by norm_num) (by norm_num) (by rw [abs_of_nonneg] <;> norm_num) (by rw [abs_lt]; norm_num)]
    norm_num
  have f40 : F32 42949672960 := ⟨10, 32, by norm_num, by norm_num, by norm_num⟩
  have f32' : F32 4294967296 := ⟨1, 32, by norm_num, by norm_num, by norm_num⟩
  have e1 : op ⟨32, false⟩ (9 - 10) = .ok 4294967295 := by decide
  have e2 : op ⟨32, false⟩ (20 - 10) = .ok 10 := by decide
  unfold ofInt
  rw [e1, R.bind_ok, e2, R.bind_ok, if_neg (by decide)]
  push_cast
  rw [sub_zero, r10, r, show (4294967296 : ℚ) * 10 = 42949672960 by norm_num, h.fix f40, show (42949672960 : ℚ) / 10 = 4294967296 by norm_num, h.fix f32', add_zero, h.fix f32']

end MapInt
