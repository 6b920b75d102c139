import Verif.Model.FilterFloat
import Verif.Model.ParamsInt
import Mathlib.Data.Rat.Floor
/-!
# `HysteresisFilter<Numerator, Divisor, T>` with an integer type `T`

util/filter.hh:146-187. The difference is an integer operation, the transfer function is computed in binary32, and the sum (also binary32) is converted back to `T`, towards zero.
-/
namespace HystInt
open ParamsInt

/-- Conversion of a float to the type, towards zero; undefined if the result is not a value of the type: filter.hh:158. -/
def toInt (t : Ty) (x : ℚ) : R Int :=
  let n := if 0 ≤ x then ⌊x⌋ else ⌈x⌉
  if InTy t n then .ok n else .ub

/-- `input - state_`, in `int` for narrower types: filter.hh:158. -/
def diff (t : Ty) (x s : Int) : R Int := if t.w < 32 then .ok (x - s) else op t (x - s)

/-- `add_val`: filter.hh:157-160, 175-181. -/
def addVal (rnd : ℚ → ℚ) (t : Ty) (num div : Nat) (s x : Int) : R Int := do
  let d ← diff t x s
  let y := FilterFloat.hysteresis rnd num div (rnd d)
  toInt t (rnd (rnd s + y))

/-- A sequence of `add_val` calls: filter.hh:157-160. -/
def run (rnd : ℚ → ℚ) (t : Ty) (num div : Nat) : List Int → Int → R Int
  | [], s => .ok s
  | x :: xs, s => do run rnd t num div xs (← addVal rnd t num div s x)

end HystInt
