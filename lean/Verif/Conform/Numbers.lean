import Verif.Model.IntMath
import Verif.Model.RatMath
import Verif.Model.MathFns
import Verif.Model.AudioFrame
import Verif.Model.CalibFloat
import Verif.Model.CalibInt
import Verif.Lemmas.FltErr
import Verif.Model.Filter
import Verif.Model.Interp
import Verif.Model.InterpInt
import Verif.Model.Params
import Verif.Model.Partition
import Verif.Model.Oscs
import Mathlib.Data.Rat.Defs
/-!
# The project's own unit tests of the numeric headers, run on the model

Each `example` is a test case of /repo/tests, with the same calls and the same expected values, evaluated on the model by
the kernel.  These are tests of the model's fidelity, not proofs of a property.  The models used here compute with exact
rationals (or with the identity as rounding), so a comparison `==` of floats in a test is an equality here when the values
are exact, and `Approx` of doctest otherwise.  Left out, because a theorem covers them and an evaluation would not: 2^24
updates of an `InterpParam` (interp_param_tests.cc:25-34), random numbers (math_tests.cc:113-178) and the comparisons of the
sine table with `sin` (math_table_tests.cc:13-43).
-/
namespace Conform.Numbers

/-- `doctest::Approx(b)` with its default epsilon, 100 times that of `float`, and scale 1. -/
def approx (a b : ℚ) : Bool := decide (|a - b| < 100 / 2 ^ 23 * (1 + max |a| |b|))
/-- The same for a result that may be undefined. -/
def approxR (a : R ℚ) (b : ℚ) : Bool := match a with | .ok a => approx a b | .ub => false
/-- A result with a value. -/
def val? {α : Type} : R α → Option α | .ok a => some a | .ub => none

/-! ## tests/analyzed_signal_tests.cc -/
section
open Analyzed
/-- analyzed_signal_tests.cc:5-9. -/
def sig : Analyzed := (List.range 100).foldl (fun (s : Analyzed) i => s.update (i + 12)) (initInt 100)
/-- analyzed_signal_tests.cc:11-16. -/
example : sig.min = 12 ∧ sig.max = 111 ∧ 40 < sig.iir ∧ sig.iir < 60 := by decide +kernel
/-- analyzed_signal_tests.cc:17-34. -/
example : (sig.resetTo 200).iir = 200 := by decide +kernel
/-- The updates of analyzed_signal_tests.cc:23-24. -/
def sig2 : Analyzed := (((sig.resetTo 200).update 12).update 13).update 14
/-- analyzed_signal_tests.cc:26-32; the test says "iir > 190" for values between 190 and 200. -/
example : sig2.min = 12 ∧ sig2.max = 200 ∧ 190 < sig2.iir ∧ sig2.iir < 200 := by decide +kernel
/-- analyzed_signal_tests.cc:38-47. -/
example : (((initInt 2).resetTo 10).update 20).iir = 15 ∧ ((((initInt 2).resetTo 10).update 20).update 20).iir = 35 / 2 := by
  decide +kernel
end

/-! ## tests/audio_frame_tests.cc -/
section
open AudioFrame
/-- `AudioFrame<int32_t, 24>` (audio_frame_tests.cc:4). -/
def ty : AudioFrame.Ty := ⟨32, 24, true⟩
/-- audio_frame_tests.cc:5-25. -/
example : approx (ty.scaleInput id 0) 0 ∧ approx (ty.scaleInput id 0x400000) (1 / 2) ∧ approx (ty.scaleInput id 0x7FFFFF) 1 ∧
    approx (ty.scaleInput id 0x800000) (-1) ∧ approx (ty.scaleInput id 0xC00000) (-1 / 2) ∧
    approx (ty.scaleInput id 0xFFFFFF) 0 := by decide +kernel
/-- audio_frame_tests.cc:27-47. -/
example : ([-1, -1 + 1 / 8388608, -1 + 2 / 8388608, -1 / 2, -2 / 8388608, -1 / 8388608, 0, 1 / 8388608, 2 / 8388608,
      1 / 8, 1 / 4, 1 / 2, 1 - 2 / 8388608, 1 - 1 / 8388608, 1].map fun x => val? (ty.scaleOutput id x)) =
    [-8388608, -8388607, -8388606, -4194304, -2, -1, 0, 1, 2, 0x100000, 0x200000, 0x400000, 0x7FFFFE, 0x7FFFFF,
      0x7FFFFF].map some := by decide +kernel
end

/-! ## tests/calibrator_tests.cc -/
section
open Calibrator
/-- `c.adjust(x)` after `c.calibrate_chan(tl, th, ml, mh)`. -/
def adj (tl th ml mh x : ℚ) : R ℚ := do .ok ((← calibrate tl th ml mh).adjust x)
/-- calibrator_tests.cc:6-24. -/
example : approxR (adj 2 4 0.22 0.46 0.22) 2 ∧ approxR (adj 2 4 0.22 0.46 0.46) 4 ∧
    val? (adj 2 4 0.22 0.46 ((0.22 + 0.46) / 2)) = some 3 ∧
    approxR (adj 2 4 0.22 0.46 (0.22 - 2 * 0.12)) 0 ∧ approxR (adj 2 4 0.22 0.46 (0.22 - 0.12)) 1 ∧
    approxR (adj 2 4 0.22 0.46 (0.46 + 0.12)) 5 ∧ approxR (adj 2 4 0.22 0.46 (0.46 + 2 * 0.12)) 6 := by decide +kernel
/-- calibrator_tests.cc:26-47. -/
example : approxR (adj (-32768) 32768 (-1) 1 0) 0 ∧ approxR (adj (-32768) 32768 (-1) 1 (1 / 2)) 16384 ∧
    approxR (adj (-32768) 32768 (-1) 1 (-1 / 2)) (-16384) := by decide +kernel
/-- calibrator_tests.cc:40-47, with float rounding: the test relies on it, the exact values are half a step higher. -/
example (rnd : ℚ → ℚ) (h : Flt.Nearest rnd) : ∃ c, CalibFloat.calibrate rnd (-8388608) 8388607 (-1) 1 = .ok c ∧
    approx (CalibFloat.adjust rnd c 0) (-1) ∧ approx (CalibFloat.adjust rnd c (1 / 8388608)) 0 ∧
    approx (CalibFloat.adjust rnd c (2 / 8388608)) 1 := by
  have e1 : rnd 2 = 2 := h.fix (by simpa using Flt.f32_int 2 (by norm_num))
  have e2 : rnd 16777215 = 16777215 := h.fix (by simpa using Flt.f32_int 16777215 (by norm_num))
  have e3 : rnd (16777215 / 2) = 16777215 / 2 := h.fix (by have := Flt.f32_div 16777215 (by norm_num) 1 (by norm_num); norm_num at this ⊢; exact this)
  have e4 : rnd (-8388608 / (16777215 / 2)) = -8388609 / 8388608 := by
    rw [h.eq_of_close _ (-8388609) (-23) (by norm_num) (by norm_num) (by norm_num [abs_of_neg]) (by norm_num [abs_of_neg])]
    norm_num
  have e5 : rnd (1 / 8388608) = 1 / 8388608 := h.fix (by have := Flt.f32_div 1 (by norm_num) 23 (by norm_num); norm_num at this ⊢; exact this)
  have e6 : rnd (-1 / 8388608) = -1 / 8388608 := h.fix (by have := Flt.f32_div (-1) (by norm_num) 23 (by norm_num); norm_num at this ⊢; exact this)
  have e7 : rnd (-16777215 / 16777216) = -16777215 / 16777216 :=
    h.fix (by have := Flt.f32_div (-16777215) (by norm_num) 24 (by norm_num); norm_num at this ⊢; exact this)
  have e8 : rnd (16777215 / 16777216) = 16777215 / 16777216 :=
    h.fix (by have := Flt.f32_div 16777215 (by norm_num) 24 (by norm_num); norm_num at this ⊢; exact this)
  have e0 : rnd 0 = 0 := h.fix Flt.f32_zero
  refine ⟨⟨16777215 / 2, 1 / 8388608⟩, ?_, ?_, ?_, ?_⟩
  · have d1 : (1 : ℚ) - -1 = 2 := by norm_num
    have d2 : (8388607 : ℚ) - -8388608 = 16777215 := by norm_num
    have d3 : (-1 : ℚ) - -8388609 / 8388608 = 1 / 8388608 := by norm_num
    simp only [CalibFloat.calibrate, d1, d2, e1, e2, e3, e4, d3, e5]
    norm_num
  · rw [show CalibFloat.adjust rnd ⟨16777215 / 2, 1 / 8388608⟩ 0 = -16777215 / 16777216 by
      simp only [CalibFloat.adjust]
      rw [show (0 : ℚ) - 1 / 8388608 = -1 / 8388608 by norm_num, e6,
        show (-1 / 8388608 : ℚ) * (16777215 / 2) = -16777215 / 16777216 by norm_num, e7]]
    decide +kernel
  · rw [show CalibFloat.adjust rnd ⟨16777215 / 2, 1 / 8388608⟩ (1 / 8388608) = 0 by
      simp only [CalibFloat.adjust]
      rw [sub_self, e0, zero_mul, e0]]
    decide +kernel
  · rw [show CalibFloat.adjust rnd ⟨16777215 / 2, 1 / 8388608⟩ (2 / 8388608) = 16777215 / 16777216 by
      simp only [CalibFloat.adjust]
      rw [show (2 / 8388608 : ℚ) - 1 / 8388608 = 1 / 8388608 by norm_num, e5,
        show (1 / 8388608 : ℚ) * (16777215 / 2) = 16777215 / 16777216 by norm_num, e8]]
    decide +kernel
/-- calibrator_tests.cc:53-64. -/
example : (([(0x7FFFFF, 10), (0x700000, 8.75), (0x600000, 7.5), (0x400000, 5), (0x200000, 2.5), (0x100000, 1.25), (0, 0),
      (-8388608 / 2, -5), (-8388608, -10)] : List (ℚ × ℚ)).all fun p => approxR (adj (-10) 10 (-8388608) 8388607 p.1) p.2) = true := by
  decide +kernel
/-- calibrator_tests.cc:66-77. -/
example : approxR (adj 1677721 3355442 0.1938 0.3848 0.3848) 3355442 ∧ approxR (adj 1677721 3355442 0.1938 0.3848 0.1938) 1677721 ∧
    approxR (adj 1677721 3355442 0.1938 0.3848 (0.3848 + (0.3848 - 0.1938))) (1677721 + 3355442) := by decide +kernel
/-- calibrator_tests.cc:80-85. -/
example : (Calibrator.init).adjust 12.29 = 12.29 ∧ (Calibrator.init).adjust (-1.1) = -1.1 ∧ (Calibrator.init).adjust 0 = 0 := by
  decide +kernel
end

/-! ## tests/voct_calibrator_tests.cc -/
section
/-- `offset()` and `slope()` after each call on a new `VoctCalibrator<int16_t>`. -/
def voct : List VoctI.Op → VoctI → List (Int × Int)
  | [], _ => []
  | e :: l, v => match VoctI.run ⟨16, true⟩ [e] v with | .ok v => (v.offset, v.slope) :: voct l v | .ub => []
/-- voct_calibrator_tests.cc:6-66, the whole test case: after every call the offset and the slope. -/
example : voct [.reset, .record 0 20, .reset, .record 1 1060, .record 2 2060, .record 1 2060, .record 2 1060, .reset, .record 0 20,
      .record 1 1060, .record 2 2060, .reset, .record 1 1060, .record 2 2060, .record 0 20, .reset, .record 0 20, .record 2 2060,
      .reset, .record 1 1060, .record 2 2060, .record 3 3080] VoctI.init =
    [(0, 0), (20, 0), (0, 0), (0, 0), (60, 1000), (560, 1000), (3060, -1000), (0, 0), (20, 0), (20, 1040), (20, 1000), (0, 0), (0, 0),
      (60, 1000), (20, 1020), (0, 0), (20, 0), (20, 1020), (0, 0), (0, 0), (60, 1000), (20, 1020)] := by decide +kernel
open Voct
/-- voct_calibrator_tests.cc:69-87. -/
example : ((Voct.init.reset).record 0 19.5).offset = 19.5 ∧
    ((((Voct.init.reset).record 0 19.5).reset.record 1 1061).record 3 2060).slope = (2060 - 1061) / 2 ∧
    ((((Voct.init.reset).record 0 19.5).reset.record 1 1061).record 3 2060).offset = 561.5 ∧
    (((Voct.init.reset).record 1 1061.5).record 3 2060.75).slope = (2060.75 - 1061.5) / 2 ∧
    (((Voct.init.reset).record 1 1061.5).record 3 2060.75).offset = 1061.5 - (2060.75 - 1061.5) / 2 := by decide +kernel
end

/-! ## tests/filter_tests.cc -/
section
open Filter Resizing
/-- A step: a value added, or a new size. -/
def rstep (o : R (Resizing × List ℚ)) (e : Sum ℚ Nat) : R (Resizing × List ℚ) := do
  let (o, l) ← o
  let o ← (match e with | .inl x => o.addVal x | .inr n => o.setSize n)
  .ok (o, l ++ [o.val])
/-- The whole test (filter_tests.cc:4-67): `val()` after each step. -/
example : ((([.inl 1, .inl 2, .inl 3, .inl 4, .inl 5, .inl 6, .inl 7, .inl 8, .inl 9, .inl 10, .inr 4, .inl 20, .inl 21,
      .inl 22, .inl 23, .inl 30, .inl 31, .inr 6, .inl 32, .inl 33, .inl 34, .inl 35] : List (Sum ℚ Nat)).foldl rstep
        (.ok (ofSize 6, []))) |> val? |>.map fun p => p.2) =
    some [0, 0, 0, 0, 0, 21 / 6, 21 / 6, 21 / 6, 21 / 6, 21 / 6, 34 / 4, 34 / 4, 34 / 4, 34 / 4, 86 / 4, 86 / 4, 86 / 4,
      86 / 4, 86 / 4, 86 / 4, 86 / 4, 195 / 6] := by decide +kernel
end

/-! ## tests/interp_array_tests.cc -/
section
open InterpArray
/-- interp_array_tests.cc:21-32, `InterpArray<long, 4>` (the phases 1/3 and 2/3 exactly). -/
example : (([1, 2 / 3, 1 / 2, 1 / 3, 0] : List ℚ).map fun p => val? (InterpInt.interp id ⟨64, true⟩ [200, 300, 400, 4000] p)) =
    [4000, 400, 350, 300, 200].map some := by decide +kernel
/-- interp_array_tests.cc:34-58. -/
example : val? (interp [100, 200, 2000] (3 / 4)) = some 1100 ∧ val? (interp [100, 200, 2000] (7 / 8)) = some 1550 := by decide +kernel
/-- interp_array_tests.cc:60-69. -/
example : (([202, 201.75, 201.5, 201.25, 201] : List ℚ).map fun p => val? (InterpInt.interpByIndex id ⟨64, true⟩
      (List.replicate 201 0 ++ [4200, 4300] ++ List.replicate 97 0) p)) = [4300, 4275, 4250, 4225, 4200].map some := by decide +kernel
/-- interp_array_tests.cc:71-76. -/
example : approxR (interpByIndex [100, 200, 0] 0.156) 115.6 := by decide +kernel
/-- interp_array_tests.cc:78-95. -/
example : ∀ i ∈ List.range 10, interpWrap [100, 200, 2000] ((i : ℚ) / 3) = get [100, 200, 2000] (i % 3) := by decide +kernel
/-- interp_array_tests.cc:97-113. -/
example : val? (interpWrap [100, 200, 2000] (5 / 6)) = some 1050 := by decide +kernel
/-- interp_array_tests.cc:115-133. -/
example : ∀ i ∈ List.range 10, interpByIndexWrap [100, 200, 2000] i = get [100, 200, 2000] (i % 3) := by decide +kernel
/-- interp_array_tests.cc:135-146. -/
example : (([0, 0.49999, 0.5, 0.6, 0.9999, 1] : List ℚ).map fun p => val? (closest [100, 200, 150] p)) =
    [100, 100, 200, 200, 200, 150].map some := by decide +kernel
/-- interp_array_tests.cc:148-168. -/
example : (([0, 1, 1 / 3, 4 / 3, 2 / 3, 5 / 3, 0.499 / 3, 0.999 / 3, 1.499 / 3, 1.999 / 3] : List ℚ).map fun p =>
      val? (closestWrap [100, 200, 150] p)) = [100, 100, 200, 200, 150, 150, 100, 100, 200, 200].map some := by decide +kernel
end

/-! ## tests/interp_param_tests.cc -/
section
/-- The values returned by `n` calls of `next`. -/
def nexts : Nat → InterpParam → List ℚ
  | 0, _ => []
  | n + 1, p => p.next.cur :: nexts n p.next
/-- The same with integers. -/
def nextsI : Nat → InterpParamInt → List Int
  | 0, _ => []
  | n + 1, p => p.next.cur :: nextsI n p.next
/-- interp_param_tests.cc:5-23, 54-65. -/
example : InterpParam.init.cur = 0 ∧ nexts 1 InterpParam.init = [0] ∧
    nexts 7 (InterpParam.init.setNew 6 12) = [2, 4, 6, 8, 10, 12, 14] := by decide +kernel
/-- interp_param_tests.cc:36-52. -/
example : nextsI 3 (InterpParamInt.setNew 3 ⟨0, 0⟩ (-12)) = [-4, -8, -12] ∧
    nextsI 3 (InterpParamInt.setNew 3 ⟨-12, -4⟩ 9) = [-5, 2, 9] := by decide +kernel
/-- interp_param_tests.cc:71-77. -/
example : ((InterpParam.init.setNew 1 12).next.cur = 12) ∧ ((InterpParam.init.setNew 1 12).next.setNew 1 12).step = 0 := by decide +kernel
end

/-! ## tests/lut_tests.cc -/
section
/-- The expected values of lut_tests.cc:22-36. -/
def lutData : List ℚ :=
  [7.01, 7.0077, 7.0057, 7.004, 7.0026, 7.0015, 7.0007, 7.0002, 7, 7.0001, 7.0005, 7.0012, 7.0022, 7.0035, 7.0051, 7.007,
   7.0092, 7.0117, 7.0145, 7.0176, 7.021, 7.02469, 7.02869, 7.03299, 7.03759, 7.04249, 7.04768, 7.05318, 7.05898, 7.06508,
   7.07147, 7.07817, 7.08517, 7.09247, 7.10006, 7.10796, 7.11616, 7.12465, 7.13345, 7.14254, 7.15194, 7.16164, 7.17163,
   7.18193, 7.19252, 7.20342, 7.21461, 7.22611, 7.23791, 7.25]
/-- lut_tests.cc:38-43. -/
example : ((List.range 50).all fun i => approxR (LookupTable.generateLookup 50 (-0.1) 0.5 (fun x => x * x + 7)
    (-0.1 + i * (0.5 - -0.1) / 49)) (lutData.getD i 0)) = true := by decide +kernel
end

/-! ## tests/math_table_tests.cc (the parts that do not compare with `sin`) -/
section
open MathTables
/-- math_table_tests.cc:9-11, 22-31. -/
example : sinTable.getD 0 1 = 0 ∧ approx (sinTable.getD 1 0 - sinTable.getD 0 0) (sinTable.getD 0 0 - sinTable.getD 2047 0) := by
  decide +kernel
/-- math_table_tests.cc:45-50. -/
example : val? (InterpArray.interpWrap sinTable 0) = some 0 ∧ val? (InterpArray.interpWrap sinTable 1) = some 0 ∧
    val? (InterpArray.interpWrap sinTable 2) = some 0 := by decide +kernel
/-- math_table_tests.cc:58-64. -/
example : approxR (do .ok ((← InterpArray.interpWrap sinTable 1) - (← InterpArray.interpWrap sinTable (1 + 1 / 100000))))
    ((val? (InterpArray.interpWrap sinTable (1 - 1 / 100000))).getD 1 - 0) := by decide +kernel
end

/-! ## tests/math_tests.cc -/
section
/-- math_tests.cc:5-28, with floats or with a float range (exact here). -/
example : RatMath.mapValue 0.25 0 1 600 700 = 625 ∧ RatMath.mapValue 1.25 1 2 600 700 = 625 ∧
    RatMath.mapValue 1.25 1 2 (-100) (-200) = -125 ∧ RatMath.mapValue 25 10 70 (-100) (-200) = -125 := by decide +kernel
/-- math_tests.cc:29-43. -/
example : (∀ i ∈ List.range 61, val? (RatMath.mapValueI (10 + i) 10 70 666 666) = some 666) ∧
    val? (RatMath.mapValueI (-1000000) 10 70 666 666) = some 666 ∧ val? (RatMath.mapValueI 7000000 10 70 666 666) = some 666 := by
  decide +kernel
/-- math_tests.cc:44-50, computed in `long` by the test: the quotient fits in an `int`, the product does not (64 bits there). -/
example : RatMath.mapValue (-1000000) 10 70 0 10000 < 0 ∧ RatMath.mapValue 7000000 10 70 0 10000 > 10000 := by decide +kernel
/-- math_tests.cc:53-84. -/
example : (∀ v ∈ [1, 2, 4, 8, 16, 32, 0x10000000, 0x20000000, 0x40000000, 0x80000000], IntMath.isPowerOf2 v = true) ∧
    ∀ v ∈ [0, 3, 5, 6, 7, 0xFFFFFFFF, 0xFFFFFFFE, 0xFFFFFFFD, 0xFFFFFFFC, 0xFFFFFFFB, 0xFFFFFFFA, 0xBFFFFFFF, 0xC0000000,
      0xC0000001, 0x7FFFFFFF, 0x80000001], IntMath.isPowerOf2 v = false := by decide +kernel
/-- math_tests.cc:86-109. -/
example : [1, 2, 4, 8, 16, 0x20000000, 0x40000000, 0x80000000].map IntMath.log2T = [0, 1, 2, 3, 4, 29, 30, 31] ∧
    [3, 5, 6, 7, 9, 15].map IntMath.log2T = [1, 2, 2, 2, 3, 3] := by decide +kernel
/-- math_tests.cc:179-190. -/
example : [1, 2, 3, 4, 5].map (IntMath.wrapMax 5) = [some 1, some 2, some 3, some 4, some 0] := by decide +kernel
/-- math_tests.cc:192-209 (the power 11111 of 1 by its value below). -/
example : IntMath.ipow 1 0 = 1 ∧ IntMath.ipow 1 1 = 1 ∧ [0, 1, 2, 15, 16, 31, 32].map (IntMath.ipow 2) =
    [1, 2, 4, 32768, 65536, 0x80000000, 0] := by decide +kernel
/-- math_tests.cc:196. -/
example : IntMath.ipow 1 11111 = 1 := by decide +kernel
/-- math_tests.cc:211-222. -/
example : IntMath.bipolarTypeRange 2 = 32767 ∧ IntMath.bipolarTypeRange 1 = 127 := by decide +kernel
/-- math_tests.cc:224-234. -/
example : IntMath.swapBytesAndCombine 0x1234 0x0140 = 0x34124001 ∧ IntMath.swapBytes32 0x12345678 = 0x78563412 ∧
    IntMath.swapBytes16 0x9876 = 0x7698 := by decide +kernel
/-- math_tests.cc:236-263. -/
example : [0, 1, 2, 4, 8, 16, 0x20000000, 0x40000000, 0x80000000].map IntMath.log2Floor = [0, 0, 1, 2, 3, 4, 29, 30, 31] ∧
    [3, 5, 6, 7, 9, 15].map IntMath.log2Floor = [1, 2, 2, 2, 3, 3] := by decide +kernel
/-- math_tests.cc:265-272; pi as the `double` M_PI, its multiples rounded to `float` on the call in the test. -/
example : approxR (MathFns.cos 0) 1 ∧ approxR (MathFns.cos (MathFns.pif / 2)) 0 ∧ approxR (MathFns.cos MathFns.pif) (-1) ∧
    approxR (MathFns.cos (2 * MathFns.pif)) 1 ∧ approxR (MathFns.cos 1) 0.5403023 ∧
    approxR (MathFns.cos 999) 0.99964985 := by decide +kernel
/-- math_tests.cc:274-281; the expected value for M_PI / 2 is what `tanf` gives for the float nearest to it.  tan(999) meets its
expected value only with the rounded quotient 999 / M_PIF, 317.9915771484375, which is the phase given here. -/
example : approxR (MathFns.tan (MathFns.pif / 2)) (-22877332) ∧
    approxR (InterpArray.interpWrap MathTables.tanTable 317.9915771484375) (-0.02647002) := by decide +kernel
/-- math_tests.cc:274-281. -/
example : approxR (MathFns.tan 0) 0 ∧ approxR (MathFns.tan MathFns.pif) 0 ∧ approxR (MathFns.tan (2 * MathFns.pif)) 0 ∧
    approxR (MathFns.tan 1) 1.5574077 := by decide +kernel
/-- math_tests.cc:283-297. -/
example : approxR (MathFns.pow2 0) 1 ∧ approxR (MathFns.pow2 1) 2 ∧ approxR (MathFns.pow2 2) 4 ∧ approxR (MathFns.pow2 1.1) 2.1435469 ∧
    approxR (MathFns.pow2 0.001) 1.0006934 ∧ approxR (MathFns.pow2 15.324234) 41025.52 := by decide +kernel
/-- The outputs of a gate over a list of inputs. -/
def gate (f : ℚ → ℚ → ℚ) : ℚ → List ℚ → List ℚ
  | _, [] => []
  | out, x :: l => f out x :: gate f (f out x) l
/-- math_tests.cc:299-342. -/
example : gate (RatMath.hysteresisGate 0.4 0.6) 0 [0, 0, 1, 0, 0.5, 0.6001, 0.5, 0.3999] = [0, 0, 1, 0, 0, 1, 1, 0] := by decide +kernel
/-- math_tests.cc:344-387. -/
example : gate (RatMath.hysteresisFeedback 0.1 0.5) 0 [0, 0, 1, 0, 0.5, 0.6001, 0.5, 0.3999] = [0, 0, 1, 0, 0, 1, 1, 0] := by decide +kernel
/-- math_tests.cc:389-420. -/
example : ([(2058, 2048), (90, 100), (110, 100), (89, 100), (111, 100), (0, 100), (-1, 100), (-100, 100), (-100, -100), (-90, -100),
      (-110, -100), (0, -100)] : List (Int × Int)).map (fun p => val? (IntMath.plateau p.1 20 p.2)) =
    [0, 0, 0, -1, 1, -90, -91, -190, 0, 0, 0, 90].map some := by decide +kernel
/-- math_tests.cc:422-430. -/
example : [0, 50, 100, -100].map (fun p => val? (IntMath.interpolate 100 500 600 p)) = [500, 550, 600, 400].map some := by decide +kernel
/-- math_tests.cc:432-448. -/
example : ([0, 0.5, 1, -1] : List ℚ).map (RatMath.interpolate 500 600) = [500, 550, 600, 400] ∧
    ([0, 0.5, 1, -1] : List ℚ).map (RatMath.interpolate3 500 600) = [500, 550, 600, 400] := by decide +kernel
/-- math_tests.cc:450-457. -/
example : IntMath.adjDiff [1, 10, 15, 35] = [9, 5, 20] := by decide +kernel
/-- math_tests.cc:459-533: the bit patterns (nan, nan, nan, inf, 0, 3, 1e-36, a denormal or 0 for 1e-46, 1e38, inf, and negative). -/
example : ([0xFFFFFFFE, 0x7FFFFFFF, 0x7FC00000, 0x7F800000, 0, 0x40400000, 0x03AA2425, 0, 0x7E967699, 0x7F800000, 0x83AA2425,
      0x80000000, 0xFE967699, 0xFF800000] : List (BitVec 32)).map (fun b => (IntMath.isFiniteFastmath b, MathFns.isInfFastmath b)) =
    [(false, false), (false, false), (false, false), (false, true), (true, false), (true, false), (true, false), (true, false),
     (true, false), (false, true), (true, false), (true, false), (true, false), (false, true)] := by decide +kernel
end

/-! ## tests/oscs_tests.cc -/
section
open Oscs
/-- `n` calls of `process`, and the last value. -/
def triN : Nat → Tri → Tri
  | 0, t => t
  | n + 1, t => triN n t.process.1
/-- oscs_tests.cc:5-53: the value, as a fraction of the full scale, after 0, 15, 30, 60, 90 and 120 updates. -/
example : (Tri.init.setFreq 120 1).val = 0 ∧
    (([(15, 1 / 4), (30, 1 / 2), (60, 1), (90, 1 / 2), (120, 0)] : List (Nat × ℚ)).all fun p =>
      approx ((triN p.1 (Tri.init.setFreq 120 1)).val / 4294967295) p.2) = true := by decide +kernel
/-- oscs_tests.cc:55-98. -/
example : (OneShot.run 49 ((OneShot.mk' 48000).start (1 / 1000))).2 = List.replicate 48 true ++ [false] ∧
    (OneShot.run 2 ((OneShot.mk' 1).start 1)).2 = [true, false] ∧ (OneShot.run 3 ((OneShot.mk' 2).start 1)).2 = [true, true, false] ∧
    (OneShot.run 3 ((OneShot.mk' 1).start 2)).2 = [true, true, false] := by decide +kernel
end

/-! ## tests/filtered_interp_array_tests.cc -/
section
open FilteredInterp
/-- An array of `N` channels with `NoFilter<float>`. -/
abbrev Arr (N : Nat) := FilteredInterp N ℚ
/-- `NoFilter<float>::add_val`. -/
def nf : ℚ → ℚ → ℚ × ℚ := fun _ x => (x, x)
/-- `mark_new_data_ready()` if asked for, `add_new_readings` of `xs`, `get_interp_values`; the outputs are collected. -/
def fstep {N : Nat} (s : Arr N × List (List ℚ)) (e : Bool × (Fin N → ℚ)) : Arr N × List (List ℚ) :=
  let a := ((if e.1 then s.1.mark else s.1).add nf e.2).get
  (a, s.2 ++ [List.ofFn fun i => a.out i])
/-- A new array with `set_num_updates(n)`, run over the list of frames. -/
def frames {N : Nat} (n : Nat) (l : List (Bool × (Fin N → ℚ))) : List (List ℚ) := (l.foldl fstep ((FilteredInterp.init 0).setNum n, [])).2
/-- filtered_interp_array_tests.cc:9-27. -/
example : frames (N := 1) 4 (List.replicate 8 (false, fun _ => 8)) = List.replicate 8 [0] := by decide +kernel
/-- filtered_interp_array_tests.cc:29-51, 68-87. -/
example : frames (N := 1) 4 ((true, fun _ => 8) :: List.replicate 11 (false, fun _ => 8)) = [[2], [4], [6]] ++ List.replicate 9 [8] := by
  decide +kernel
/-- filtered_interp_array_tests.cc:53-66. -/
example : (frames (N := 1) 3 [(true, fun _ => 1 / 3), (false, fun _ => 1 / 3), (false, fun _ => 1 / 3)])[2]? = some [1 / 3] := by decide +kernel
/-- filtered_interp_array_tests.cc:89-123. -/
example : frames (N := 2) 4 ((true, fun i => if i = 0 then 4 else 8) :: List.replicate 3 (false, fun i => if i = 0 then 4 else 8)) =
    [[1, 2], [2, 4], [3, 6], [4, 8]] := by decide +kernel
/-- filtered_interp_array_tests.cc:125-165. -/
example : frames (N := 1) 4 [(true, fun _ => 8), (false, fun _ => 8), (true, fun _ => 16), (false, fun _ => 16), (true, fun _ => 0),
    (false, fun _ => 0)] = [[2], [4], [10], [16], [8], [0]] := by decide +kernel
/-- filtered_interp_array_tests.cc:167-214. -/
example : frames (N := 1) 4 [(true, fun _ => 4), (true, fun _ => 8)] = [[1], [8]] := by decide +kernel
/-- A second mark changes nothing (filtered_interp_array_tests.cc:170-171, 203-204). -/
example (s : Arr 1) : s.mark.mark = s.mark := rfl
end

/-! ## tests/parameter_tests.cc -/
section
open Latched
/-- `LatchedParam<float, 1, 4096>` after `x = 2.4f` and after `store_changed(10.f)` (parameter_tests.cc:10-16). -/
example : (Latched.init.assign (2.4 : ℚ)) = ⟨2.4, false⟩ ∧
    val? (Latched.store (fun _ => true) (minChangeF 1 4096) (Latched.init.assign (2.4 : ℚ)) 10) = some (⟨10, true⟩, true) := by decide +kernel
/-- parameter_tests.cc:18-26. -/
example : Latched.copyFrom (Latched.init : Latched ℚ) ⟨10, true⟩ = ⟨10, true⟩ ∧ (Latched.didChange (⟨10, true⟩ : Latched ℚ)).2 = true ∧
    (Latched.didChange (Latched.didChange (⟨10, true⟩ : Latched ℚ)).1).2 = false := by decide +kernel
end

/-! ## tests/partition_tests.cc -/
section
open Partition
/-- The order the sort gives (partition_tests.cc:9-10). -/
def ord : List (Nat × Nat) := [(10, 5), (9, 1), (5, 3), (3, 2), (2, 4), (1, 0)]
/-- It is a descending rearrangement of the numbers filled in. -/
example : SortResult (fill 8 [1, 9, 3, 5, 2, 10] []) ord := by constructor <;> decide +kernel
/-- partition_tests.cc:12-20: the indices whose numbers are 10, 3, 2 and 9, 5, 1. -/
example : calcParts (2 ^ 32) 2 8 ord [] = .ok [[5, 2, 4], [1, 3, 0]] ∧
    [5, 2, 4].map (fun i => [1, 9, 3, 5, 2, 10].getD i 0) = [10, 3, 2] ∧ [1, 3, 0].map (fun i => [1, 9, 3, 5, 2, 10].getD i 0) = [9, 5, 1] := by
  decide +kernel
end

end Conform.Numbers
