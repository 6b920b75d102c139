import Verif.XFlt
/-!
# `wrap` for every float, including infinities and NaN

util/math.hh:146-161 with `T = float`. Loops are run with fuel; `none` is a loop not finished yet.
-/
namespace XWrap
open XFlt

/-- `wrap<Max, float>(val)`: math.hh:146-151. `Max` is a `uint32_t`, converted to float for comparison and difference. -/
def wrapMax (rnd : ℚ → ℚ) (max : Nat) : Nat → XF → Option XF
  | 0, _ => none
  | f + 1, val => if le (ofQ rnd max) val then wrapMax rnd max f (sub rnd val (ofQ rnd max)) else some val

/-- The first loop of `wrap`: math.hh:156-157. -/
def down (rnd : ℚ → ℚ) (range max : XF) : Nat → XF → Option XF
  | 0, _ => none
  | f + 1, val => if lt max val then down rnd range max f (sub rnd val range) else some val

/-- The second loop of `wrap`: math.hh:158-159. -/
def up (rnd : ℚ → ℚ) (range min : XF) : Nat → XF → Option XF
  | 0, _ => none
  | f + 1, val => if lt val min then up rnd range min f (add rnd val range) else some val

/-- `wrap<float>(val, min, max)`: math.hh:153-161, with fuel for each loop. -/
def wrap (rnd : ℚ → ℚ) (fuel : Nat) (val min max : XF) : Option XF :=
  let range := add rnd (sub rnd max min) (.fin 1)
  (down rnd range max fuel val).bind (up rnd range min fuel)

end XWrap
