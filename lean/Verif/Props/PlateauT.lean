import Verif.Spec.PlateauT
import Verif.Props.IntMath
import Verif.Flt
import Mathlib.Tactic.Linarith
import Mathlib.Tactic.NormNum
/-! # Property C211: the dead zone for types other than `int32_t` -/

namespace PlateauT
open IntMath ParamsInt Spec

theorem toI32_id (x : Int) (h1 : -2147483648 ≤ x) (h2 : x ≤ 2147483647) : toI32 x = x := by unfold toI32; omega

theorem beyond_int (v e c : Int) : beyond v e c = ((if v > c + e then v - (c + e) else if v < c - e then v - (c - e) else 0 : Int) : ℚ) := by
  unfold beyond
  have h1 : ((v : ℚ) > (c : ℚ) + e) ↔ v > c + e := by constructor <;> intro h <;> exact_mod_cast h
  have h2 : ((v : ℚ) < (c : ℚ) - e) ↔ v < c - e := by constructor <;> intro h <;> exact_mod_cast h
  simp only [h1, h2]
  split
  · push_cast; rfl
  · split
    · push_cast; rfl
    · rfl

/-- **C211 (partial).** For an integer type the result is the signed distance to the dead zone if arguments, edges and difference are `int32_t` values and the distance is a value of the type. Missing: values that are not (`C211_wide_violated`, `C211_unsigned_violated`). -/
theorem C211_int_partial (t : Ty) (width : Nat) (val center e : Int) (he : e = (width / 2 : Nat)) (hv : -2147483648 ≤ val ∧ val ≤ 2147483647) (hc : -2147483648 ≤ center - e ∧ center + e ≤ 2147483647)
    (hd : -2147483648 ≤ val - center ∧ val - center ≤ 2147483647) (r : Int) (hr : (r : ℚ) = beyond val (half width) center) (ht : conv t r = r) :
    plateauInt t width val center = .ok r := by
  have e0 : 0 ≤ e := by omega
  have hh : half width = ((e : Int) : ℚ) := by unfold half; rw [he]; push_cast; rfl
  rw [hh, beyond_int] at hr
  have hr' := Int.cast_injective hr
  unfold plateauInt
  rw [toI32_id val hv.1 hv.2, toI32_id center (by omega) (by omega), C82_plateau val width center e he hc.1 hc.2 hd.1 hd.2, R.map_ok, ← hr', ht]

example : plateauInt ⟨16, true⟩ 60 (-32) 0 = .ok (-2) ∧ plateauInt ⟨64, true⟩ 60 131 100 = .ok 1 := by decide +kernel

/-- **C211, exactly.** Only the lowest 32 bits of the arguments count. -/
theorem C211_low_bits (t : Ty) (width : Nat) (val center i j : Int) :
    plateauInt t width (val + 4294967296 * i) (center + 4294967296 * j) = plateauInt t width val center := by
  have h : ∀ x k : Int, toI32 (x + 4294967296 * k) = toI32 x := by intro x k; unfold toI32; omega
  unfold plateauInt
  rw [h, h]

/-- **C211 (the property is false here).** For a 64-bit type a value 2^32 above the centre is in the middle of the dead zone, whatever its width. -/
theorem C211_wide_violated (width : Nat) (center e : Int) (he : e = (width / 2 : Nat)) (hc : -2147483648 ≤ center - e ∧ center + e ≤ 2147483647) :
    plateauInt ⟨64, true⟩ width (center + 4294967296) center = .ok 0 ∧ beyond ((center + 4294967296 : Int) : ℚ) (half width) center ≠ 0 := by
  have e0 : 0 ≤ e := by omega
  constructor
  · have := C211_low_bits ⟨64, true⟩ width center center 1 0
    simp only [Int.mul_one, Int.mul_zero, Int.add_zero] at this
    rw [this]
    unfold plateauInt
    rw [toI32_id center (by omega) (by omega), C82_plateau center width center e he hc.1 hc.2 (by omega) (by omega), if_neg (by omega), if_neg (by omega), R.map_ok]
    decide +kernel
  · have hh : half width = ((e : Int) : ℚ) := by unfold half; rw [he]; push_cast; rfl
    rw [hh, beyond_int, if_pos (by omega)]
    intro h
    have := Int.cast_injective (h.trans Int.cast_zero.symm)
    omega

example : plateauInt ⟨64, true⟩ 60 4294967296 0 = .ok 0 := by decide +kernel

/-- **C211 (the property is false here).** For `uint32_t` a value below the dead zone comes out as a huge one. -/
theorem C211_unsigned_violated (width : Nat) (center e d : Int) (he : e = (width / 2 : Nat)) (hd : 0 < d) (h0 : 0 ≤ center - e - d) (hc : center + e ≤ 2147483647) :
    plateauInt ⟨32, false⟩ width (center - e - d) center = .ok (4294967296 - d) := by
  have e0 : 0 ≤ e := by omega
  unfold plateauInt
  rw [toI32_id _ (by omega) (by omega), toI32_id center (by omega) (by omega), C82_plateau _ width center e he (by omega) hc (by omega) (by omega), if_neg (by omega), if_pos (by omega), R.map_ok]
  show R.ok (conv ⟨32, false⟩ (center - e - d - (center - e))) = _
  congr 1
  unfold conv
  simp only [Bool.false_eq_true, if_false]
  omega

example : plateauInt ⟨32, false⟩ 60 68 100 = .ok 4294967294 := by decide +kernel

theorem trunc_int (z : Int) (h1 : -2147483648 ≤ z) (h2 : z ≤ 2147483647) : truncI32 z = .ok z := by
  have a : (-2147483648 : ℚ) ≤ z := by exact_mod_cast h1
  have b : (z : ℚ) ≤ 2147483647 := by exact_mod_cast h2
  unfold truncI32
  rw [if_pos ⟨by linarith, by linarith⟩]
  split
  · rw [Int.floor_intCast]
  · rw [Int.ceil_intCast]

/-- **C211 (partial).** For `float` the result is right if value and centre are whole numbers with a difference below 2^24. Missing: fractions (`C211_float_within`, `C211_float_violated`). -/
theorem C211_float_partial (rnd : ℚ → ℚ) (hn : Flt.Nearest rnd) (width : Nat) (val center e : Int) (he : e = (width / 2 : Nat)) (hv : -2147483648 ≤ val ∧ val ≤ 2147483647)
    (hc : -2147483648 ≤ center - e ∧ center + e ≤ 2147483647) (hd : |val - center| < 2 ^ 24) :
    plateauFlt rnd width val center = .ok (beyond val (half width) center) := by
  have e0 : 0 ≤ e := by omega
  have hh : half width = ((e : Int) : ℚ) := by unfold half; rw [he]; push_cast; rfl
  have hd' := abs_lt.mp hd
  unfold plateauFlt
  rw [trunc_int val hv.1 hv.2, R.bind_ok, trunc_int center (by omega) (by omega), R.bind_ok, C82_plateau val width center e he hc.1 hc.2 (by omega) (by omega), R.bind_ok, hh, beyond_int,
    hn.fix (Flt.f32_int _ (abs_lt.mpr (by split <;> [skip; split] <;> omega)))]

example : plateauFlt (fun x => x) 60 (31 : Int) (0 : Int) = .ok 1 := by decide +kernel

theorem trunc_ok (q : ℚ) (h1 : -2147483649 < q) (h2 : q < 2147483648) :
    ∃ z : Int, truncI32 q = .ok z ∧ |q - z| < 1 ∧ -2147483648 ≤ z ∧ z ≤ 2147483647 ∧ (0 ≤ q → z ≤ q) ∧ (q ≤ 0 → q ≤ z) := by
  unfold truncI32
  rw [if_pos ⟨h1, h2⟩]
  split
  · rename_i h
    have a := Int.floor_le q
    have b := Int.lt_floor_add_one q
    refine ⟨⌊q⌋, rfl, ?_, ?_, ?_, fun _ => a, fun h' => ?_⟩
    · rw [abs_lt]; constructor <;> linarith
    · have := Int.floor_nonneg.mpr h; omega
    · have : ⌊q⌋ < 2147483648 := Int.floor_lt.mpr (by exact_mod_cast h2)
      omega
    · have : q = 0 := le_antisymm h' h
      rw [this, Int.floor_zero, Int.cast_zero]
  · rename_i h
    have a := Int.le_ceil q
    have b := Int.ceil_lt_add_one q
    have h' := not_le.mp h
    refine ⟨⌈q⌉, rfl, ?_, ?_, ?_, fun h' => absurd h' h, fun _ => a⟩
    · rw [abs_lt]; constructor <;> linarith
    · have : -2147483649 < ⌈q⌉ := Int.lt_ceil.mpr (by exact_mod_cast h1)
      omega
    · have : ⌈q⌉ ≤ 0 := Int.ceil_le.mpr (by exact_mod_cast h'.le)
      omega

theorem beyond_lipschitz (v w e c : ℚ) (he : 0 ≤ e) : |beyond v e c - beyond w e c| ≤ |v - w| := by
  unfold beyond
  rcases le_total v w with h | h
  · rw [abs_sub_comm v w, abs_of_nonneg (by linarith : (0 : ℚ) ≤ w - v), abs_le]
    constructor <;> (split <;> [skip; split]) <;> (split <;> [skip; split]) <;> linarith
  · rw [abs_of_nonneg (by linarith : (0 : ℚ) ≤ v - w), abs_le]
    constructor <;> (split <;> [skip; split]) <;> (split <;> [skip; split]) <;> linarith

/-- **C211.** For `float` and a whole centre the result is a whole number less than 1 from the signed distance (for differences below 2^24). -/
theorem C211_float_within (rnd : ℚ → ℚ) (hn : Flt.Nearest rnd) (width : Nat) (val : ℚ) (center e : Int) (he : e = (width / 2 : Nat)) (hv : -2147483649 < val ∧ val < 2147483648)
    (hc : -2147483648 ≤ center - e ∧ center + e ≤ 2147483647) (hd : |val - center| < 2 ^ 24 - 1) :
    ∃ r : Int, plateauFlt rnd width val center = .ok r ∧ |(r : ℚ) - beyond val (half width) center| < 1 := by
  obtain ⟨z, hz, hz1, hz2, hz3, _⟩ := trunc_ok val hv.1 hv.2
  have e0 : 0 ≤ e := by omega
  have hdz : |z - center| < 2 ^ 24 := by
    have : |((z - center : Int) : ℚ)| < 2 ^ 24 := by
      push_cast
      have a := abs_lt.mp hd
      have b := abs_lt.mp hz1
      rw [abs_lt]; constructor <;> linarith
    exact_mod_cast this
  have hp := C211_float_partial rnd hn width z center e he ⟨hz2, hz3⟩ hc hdz
  have hh : half width = ((e : Int) : ℚ) := by unfold half; rw [he]; push_cast; rfl
  unfold plateauFlt at hp ⊢
  rw [trunc_int z hz2 hz3] at hp
  rw [hz]
  rw [hh, beyond_int] at hp
  refine ⟨_, hp, ?_⟩
  rw [← beyond_int, hh]
  refine lt_of_le_of_lt (beyond_lipschitz _ _ _ _ (by exact_mod_cast e0)) ?_
  rw [abs_sub_comm]
  exact hz1

example : plateauFlt (fun x => x) 60 (3275 / 100) (0 : Int) = .ok 2 := by decide +kernel

/-- **C211 (the property is false here).** For `float` the dead zone reaches almost 1 further than asked for: any value up to there gives 0. -/
theorem C211_float_violated (rnd : ℚ → ℚ) (hn : Flt.Nearest rnd) (width : Nat) (e : Int) (he : e = (width / 2 : Nat)) (hc : e ≤ 2147483646) (f : ℚ) (hf : 0 < f ∧ f < 1) :
    plateauFlt rnd width (e + f) (0 : Int) = .ok 0 ∧ beyond (e + f) (half width) (0 : Int) = f := by
  have e0 : 0 ≤ e := by omega
  have hh : half width = ((e : Int) : ℚ) := by unfold half; rw [he]; push_cast; rfl
  have e0' : (0 : ℚ) ≤ e := by exact_mod_cast e0
  have e1 : (e : ℚ) ≤ 2147483646 := by exact_mod_cast hc
  constructor
  · unfold plateauFlt
    have : truncI32 ((e : ℚ) + f) = .ok e := by
      unfold truncI32
      rw [if_pos ⟨by linarith, by linarith⟩, if_pos (by linarith)]
      congr 1
      rw [Int.floor_eq_iff]
      constructor <;> linarith
    rw [this, R.bind_ok, trunc_int 0 (by omega) (by omega), R.bind_ok, C82_plateau e width 0 e he (by omega) (by omega) (by omega) (by omega), R.bind_ok, if_neg (by omega), if_neg (by omega)]
    have := hn.fix Flt.f32_zero
    rw [Int.cast_zero, this]
  · unfold beyond
    rw [hh, Int.cast_zero, if_pos (by linarith)]
    linarith

example : plateauFlt (fun x => x) 60 (309 / 10) (0 : Int) = .ok 0 := by decide +kernel

/-- **C211, exactly.** For `float` values or centres beyond the `int32_t` range the call is undefined. -/
theorem C211_float_range (rnd : ℚ → ℚ) (width : Nat) (val center : ℚ) (h : ¬(-2147483649 < val ∧ val < 2147483648) ∨ ¬(-2147483649 < center ∧ center < 2147483648)) :
    plateauFlt rnd width val center = .ub := by
  unfold plateauFlt
  rcases h with h | h
  · rw [show truncI32 val = .ub from if_neg h, R.bind_ub]
  · rw [show truncI32 center = .ub from if_neg h]
    cases truncI32 val with
    | ub => rw [R.bind_ub]
    | ok v => rw [R.bind_ok, R.bind_ub]

example : plateauFlt (fun x => x) 60 3000000000 0 = .ub := by decide +kernel

end PlateauT
