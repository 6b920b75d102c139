import Verif.Model.InterpFloat
import Verif.Model.HystInt
/-!
# `InterpArray<T, Size, float>` with an integer type `T`

util/interp_array.hh. The two elements are converted to float, blended in binary32, and the result is converted back to `T`, towards zero.
-/
namespace InterpInt
open ParamsInt

/-- The elements as floats: interp_array.hh:32, 47. -/
def floats (rnd : ℚ → ℚ) (data : List Int) : List ℚ := data.map (fun x : Int => rnd x)

/-- `interp_by_index_wrap`: interp_array.hh:25-35. -/
def interpByIndexWrap (rnd : ℚ → ℚ) (t : Ty) (data : List Int) (index : ℚ) : R Int := do
  HystInt.toInt t (← InterpFloat.interpByIndexWrap rnd (floats rnd data) index)

/-- `interp_by_index`: interp_array.hh:41-48. -/
def interpByIndex (rnd : ℚ → ℚ) (t : Ty) (data : List Int) (index : ℚ) : R Int := do
  HystInt.toInt t (← InterpFloat.interpByIndex rnd (floats rnd data) index)

/-- `interp_wrap`: interp_array.hh:51-54. -/
def interpWrap (rnd : ℚ → ℚ) (t : Ty) (data : List Int) (phase : ℚ) : R Int := interpByIndexWrap rnd t data (rnd (phase * rnd data.length))

/-- `interp`: interp_array.hh:59-62. -/
def interp (rnd : ℚ → ℚ) (t : Ty) (data : List Int) (phase : ℚ) : R Int := interpByIndex rnd t data (rnd (phase * rnd ((data.length - 1 : Nat) : ℚ)))

end InterpInt
