import Verif.Flt
/-!
# `wrap` with float arguments

util/math.hh:146-161 with `T = float`, over the rationals with an arbitrary rounding to nearest. Loops are run with fuel; `none` is a loop not finished yet.
-/
namespace WrapFloat

/-- `wrap<Max, float>(val)`: math.hh:146-151. `Max` is a `uint32_t`, converted to float for comparison and difference. -/
def wrapMax (rnd : ℚ → ℚ) (max : Nat) : Nat → ℚ → Option ℚ
  | 0, _ => none
  | f + 1, val => if val ≥ rnd max then wrapMax rnd max f (rnd (val - rnd max)) else some val

/-- The first loop of `wrap`: math.hh:156-157. -/
def down (rnd : ℚ → ℚ) (range max : ℚ) : Nat → ℚ → Option ℚ
  | 0, _ => none
  | f + 1, val => if val > max then down rnd range max f (rnd (val - range)) else some val

/-- The second loop of `wrap`: math.hh:158-159. -/
def up (rnd : ℚ → ℚ) (range min : ℚ) : Nat → ℚ → Option ℚ
  | 0, _ => none
  | f + 1, val => if val < min then up rnd range min f (rnd (val + range)) else some val

/-- `wrap<float>(val, min, max)`: math.hh:153-161, with fuel for each loop. -/
def wrap (rnd : ℚ → ℚ) (fuel : Nat) (val min max : ℚ) : Option ℚ :=
  let range := rnd (rnd (max - min) + 1)
  (down rnd range max fuel val).bind (up rnd range min fuel)

end WrapFloat
