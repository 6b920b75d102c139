import Verif.Model.MathFloat
import Verif.Model.HystInt
/-!
# `map_value` between floats and integers

util/math.hh:19-23 with a float input range and an `int` output range, and the other way round. Mixed operations convert the integer to float; the result is converted to the output type.
-/
namespace MapInt
open ParamsInt

/-- `int`: math.hh:19-23. -/
def int32 : Ty := ⟨32, true⟩

/-- `map_value<float, float, int>`: math.hh:19-23. The difference of the output range is an `int`. -/
def toInt (rnd : ℚ → ℚ) (x inMin inMax : ℚ) (outMin outMax : Int) : R Int := do
  let w ← op int32 (outMax - outMin)
  HystInt.toInt int32 (rnd (rnd (rnd (rnd (x - inMin) * rnd w) / rnd (inMax - inMin)) + rnd outMin))

/-- `map_value<T, T, float>` for an integer type `T` of 32 bits: math.hh:19-23. The differences of the input range are integers. A float division by zero is represented as `ub`. -/
def ofInt (rnd : ℚ → ℚ) (t : Ty) (x inMin inMax : Int) (outMin outMax : ℚ) : R ℚ := do
  let a ← op t (x - inMin)
  let d ← op t (inMax - inMin)
  if d = 0 then .ub else .ok (rnd (rnd (rnd (rnd a * rnd (outMax - outMin)) / rnd d) + outMin))

end MapInt
