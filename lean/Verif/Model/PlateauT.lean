import Verif.Model.IntMath
import Verif.Model.ParamsInt
import Mathlib.Algebra.Order.Field.Rat
import Mathlib.Data.Rat.Floor
/-!
# The dead zone for types other than `int32_t`

util/math.hh: `plateau<width, T>(val, center)` passes its arguments on to `plateau(int32_t, uint32_t, int32_t)` and converts the result back.
-/
namespace PlateauT
open IntMath ParamsInt

/-- `plateau<width, T>` for an integer type `T`: math.hh:202-205. -/
def plateauInt (t : Ty) (width : Nat) (val center : Int) : R Int := conv t <$> plateau (toI32 val) width (toI32 center)

/-- Conversion of a float to `int32_t`: truncation towards 0, undefined if the truncated value does not fit (the arguments of the call in math.hh:204). -/
def truncI32 (q : ℚ) : R Int := if -2147483649 < q ∧ q < 2147483648 then .ok (if 0 ≤ q then ⌊q⌋ else ⌈q⌉) else .ub

/-- `plateau<width, float>`: math.hh:202-205; `rnd` rounds the result to float. -/
def plateauFlt (rnd : ℚ → ℚ) (width : Nat) (val center : ℚ) : R ℚ := do
  let v ← truncI32 val
  let c ← truncI32 center
  let r ← plateau v width c
  .ok (rnd r)

end PlateauT
