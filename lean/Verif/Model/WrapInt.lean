import Verif.Model.ParamsInt
/-!
# `wrap` in other integer types

util/math.hh:146-161 for integer types whose arithmetic does not overflow: narrower than `int` (computed in `int`, converted back) or unsigned. Loops are run with fuel; `none` is a loop not finished yet.
-/
namespace WrapInt
open ParamsInt

/-- `wrap<Max, T>(val)` for `T` of at most 32 bits: math.hh:146-151. `Max` is a `uint32_t`: comparison and difference are taken modulo 2^32. -/
def wrapMax (t : Ty) (max : Nat) : Nat → Int → Option Int
  | 0, _ => none
  | f + 1, val => if val % 4294967296 ≥ max then wrapMax t max f (conv t (val - max)) else some val

/-- The first loop of `wrap`: math.hh:156-157. -/
def down (t : Ty) (range max : Int) : Nat → Int → Option Int
  | 0, _ => none
  | f + 1, val => if val > max then down t range max f (conv t (val - range)) else some val

/-- The second loop of `wrap`: math.hh:158-159. -/
def up (t : Ty) (range min : Int) : Nat → Int → Option Int
  | 0, _ => none
  | f + 1, val => if val < min then up t range min f (conv t (val + range)) else some val

/-- `wrap(val, min, max)`: math.hh:153-161, with fuel for each loop. -/
def wrap (t : Ty) (fuel : Nat) (val min max : Int) : Option Int :=
  let range := conv t (max - min + 1)
  (down t range max fuel val).bind (up t range min fuel)

end WrapInt
