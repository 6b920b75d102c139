import Verif.FltEven
import Verif.Model.IntMath
import Verif.Model.CalibFloat
import Verif.Model.MathFloat
import Verif.Model.Color
import Verif.Model.Geometry
/-!
# The `static_assert`s in the headers, on the model

Each `example` is the `static_assert` of the lines cited, evaluated on the model by the kernel. Float expressions are evaluated in binary32 with rounding to nearest, ties to even (`Flt.rne`), one rounding per operation, literals included. These
are tests of the model's fidelity, not proofs of a property. Left out: the ones about `sizeof` and about template arguments.
-/
namespace Conform.Headers
open Flt

/-- smallest_integer.hh:24-30. -/
example : [0, 255, 256, 65535, 65536, 2 ^ 32 - 1, 2 ^ 32].map IntMath.smallestUnsigned = [8, 8, 16, 16, 32, 32, 64] := by decide +kernel

/-- smallest_integer.hh:32-39. -/
example : ([(0, 127), (-128, 127), (0, 128), (-129, 0), (0, 32767), (-32768, 32767), (-32768, 32768), (-3293768, 3932768)] : List (Int × Int)).map (fun p => IntMath.smallestSigned p.1 p.2)
    = [some 8, some 8, some 16, some 16, some 16, some 16, some 32, some 32] := by decide +kernel

/-- math.hh:62. -/
example : MathFloat.interpolate rne 1 2 (1 / 4) = MathFloat.interpolate3 rne 1 2 (1 / 4) := by decide +kernel

/-- math.hh:125-134. -/
example : [0, 1, 2, 3, 123, 511, 512, 513, 0x7FFFFFFF, 0x80000001].map (IntMath.nextPowerOf2 32) = [1, 1, 2, 4, 128, 512, 512, 1024, 0x80000000, 0] := by decide +kernel

/-- math.hh:163-169. -/
example : ([-99, -2, -1, 0, 1, 2, 99] : List Int).map (fun v => IntMath.wrap (-2147483648) 2147483647 v 1 2) = [.ok 1, .ok 2, .ok 1, .ok 2, .ok 1, .ok 2, .ok 1] := by decide +kernel

/-- math.hh:207-215; the centre is 0 by default. -/
example : ([-32, -31, -30, -1, 0, 1, 30, 31, 32] : List Int).map (fun v => IntMath.plateau v 60 0) = [.ok (-2), .ok (-1), .ok 0, .ok 0, .ok 0, .ok 0, .ok 0, .ok 1, .ok 2] := by decide +kernel

/-- geometry.hh:106-110. -/
example : Poly.isConcave32 [(1, 1), (2, 1), (2, 2), (1, 2)] = .ok false ∧ Poly.isConcave32 [(1, 1), (2, 1), (2, 0), (2, 2), (1, 2)] = .ok true := by decide +kernel

/-- `Calibrator{1.05f, -.003f}` (calibrator.hh:55-56). -/
def cal : Calibrator := ⟨rne (105 / 100), rne (-3 / 1000)⟩

/-- calibrator.hh:55. -/
example : CalibFloat.reverse rne cal (CalibFloat.adjust rne cal (rne (932 / 100))) = .ok (rne (932 / 100)) := by decide +kernel

/-- calibrator.hh:56. -/
example : (CalibFloat.adjust rne cal <$> CalibFloat.reverse rne cal (rne (932 / 100))) = .ok (rne (932 / 100)) := by decide +kernel

/-- colors_rgb565.hh:89-97. -/
example : (RGB565.of8 0xFF 0 0).red = 0xFF &&& 0xF8 ∧ (RGB565.of8 0xAA 0xFF 0xFF).red = 0xAA &&& 0xF8 ∧ (RGB565.of8 0x55 0xFF 0xFF).red = 0x55 &&& 0xF8
    ∧ (RGB565.of8 0 0xFF 0).green = 0xFF &&& 0xFC ∧ (RGB565.of8 0xFF 0xAA 0xFF).green = 0xAA &&& 0xFC ∧ (RGB565.of8 0xFF 0x55 0xFF).green = 0x55 &&& 0xFC
    ∧ (RGB565.of8 0 0 0xFF).blue = 0xFF &&& 0xF8 ∧ (RGB565.of8 0xFF 0xFF 0xAA).blue = 0xAA &&& 0xF8 ∧ (RGB565.of8 0xFF 0xFF 0x55).blue = 0x55 &&& 0xF8 := by decide +kernel

/-- colors_rgb565.hh:98-102. -/
example : (RGB565.of8 0xFF 0xFF 0xFF).raw = 0xFFFF ∧ (RGB565.of8 0x80 0x80 0x80).raw = 0x8410 ∧ (RGB565.of8 0 0 0).raw = 0 ∧ (RGB565.of888 0xFFAA22).raw = (RGB565.of8 0xFF 0xAA 0x22).raw := by decide +kernel

end Conform.Headers
