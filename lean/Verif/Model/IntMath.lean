import Verif.Basic
/-!
# Integer functions of MathTools

util/math.hh, util/cortex_math.hh, util/smallest_integer.hh. Unsigned values are natural numbers below 2^w, signed values integers;
arithmetic is taken modulo 2^w for unsigned types, and is undefined on overflow for signed ones.
-/

namespace IntMath

/-- `is_power_of_2(unsigned int v)`: math.hh:84-86. -/
def isPowerOf2 (v : Nat) : Bool := v != 0 && (v &&& (v - 1)) == 0

/-- The loop of `log2_floor`: math.hh:90-94. `i` is the value before `i--`. -/
def log2Loop (x : Nat) : Nat → Nat
  | 0 => 0
  | i + 1 => if x &&& (1 <<< i) ≠ 0 then i else log2Loop x i

/-- `log2_floor`: math.hh:88-95. -/
def log2Floor (x : Nat) : Nat := log2Loop x 32

/-- `Log2<N>`: math.hh:74-82. N = 0 does not compile (infinite recursion); here 0. -/
def log2T (n : Nat) : Nat := if h : n ≤ 1 then 0 else log2T (n / 2) + 1
termination_by n
decreasing_by omega

/-- `next_power_of_2` for an unsigned type of `w` bits (8, 16, 32 or 64): math.hh:99-123. The argument of `is_power_of_2` is converted to
`unsigned int` (32 bits). -/
def nextPowerOf2 (w : Nat) (value : Nat) : Nat :=
  if value = 0 ∨ value = 1 then 1
  else if isPowerOf2 (value % 2 ^ 32) then value
  else
    let v := value
    let v := v ||| (v >>> 1)
    let v := v ||| (v >>> 2)
    let v := v ||| (v >>> 4)
    let v := if w > 8 then v ||| (v >>> 8) else v
    let v := if w > 16 then v ||| (v >>> 16) else v
    let v := if w > 32 then v ||| (v >>> 32) else v
    (v + 1) % 2 ^ w

/-- `ipow`: math.hh:136-138. -/
def ipow (a : Nat) : Nat → Nat
  | 0 => 1
  | b + 1 => (a * ipow a b) % 2 ^ 32

/-- `bipolar_type_range` for a type of `bytes` bytes: math.hh:142-144. -/
def bipolarTypeRange (bytes : Nat) : Nat := (ipow 2 (bytes * 8 - 1) + 2 ^ 32 - 1) % 2 ^ 32

/-- `wrap<Max>(val)` for an unsigned type: math.hh:147-151. `none`: does not terminate. -/
def wrapMax (max val : Nat) : Option Nat :=
  if h : val ≥ max then
    if h0 : max = 0 then none else wrapMax max (val - max)
  else some val
termination_by val
decreasing_by omega

/-- The result of an operation in a signed type with values `lo..hi` (the signed arithmetic of math.hh:13-362). -/
def fit (lo hi x : Int) : R Int := if lo ≤ x ∧ x ≤ hi then .ok x else .ub

/-- First loop of `wrap`: math.hh:156-157. A loop that does not terminate is undefined too. -/
def wrapDown (lo hi range max val : Int) : R Int :=
  if h : val > max then
    if h0 : range ≤ 0 then .ub else if lo ≤ val - range ∧ val - range ≤ hi then wrapDown lo hi range max (val - range) else .ub
  else .ok val
termination_by (val - max).toNat
decreasing_by omega

/-- Second loop of `wrap`: math.hh:158-159. -/
def wrapUp (lo hi range min val : Int) : R Int :=
  if h : val < min then
    if h0 : range ≤ 0 then .ub else if lo ≤ val + range ∧ val + range ≤ hi then wrapUp lo hi range min (val + range) else .ub
  else .ok val
termination_by (min - val).toNat
decreasing_by omega

/-- `wrap(val, min, max)` for a signed type with values `lo..hi`: math.hh:154-161. -/
def wrap (lo hi val min max : Int) : R Int := do
  let range ← (do let d ← fit lo hi (max - min); fit lo hi (d + 1))
  let val ← wrapDown lo hi range max val
  wrapUp lo hi range min val

/-- `constrain`: math.hh:26-28. -/
def constrain (val min max : Int) : Int := if val < min then min else if val > max then max else val

/-- `max`: math.hh:31-37. -/
def max (val1 val2 : Int) : Int := if val1 > val2 then val1 else val2

/-- `min`: math.hh:40-46. -/
def min (val1 val2 : Int) : Int := if val1 < val2 then val1 else val2

/-- `between` in a type with values `lo..hi`: math.hh:49-51. -/
def between (tlo thi x low high : Int) : R (Option Int) :=
  if x ≥ low ∧ x ≤ high then (do let d ← fit tlo thi (x - low); .ok (some d)) else .ok none

/-- `abs_diff` in a type with values `lo..hi`: math.hh:176-178. -/
def absDiff (tlo thi x y : Int) : R Int := if x ≥ y then fit tlo thi (x - y) else fit tlo thi (y - x)

/-- `diff` in a type with values `lo..hi`: math.hh:181-183. -/
def diff (tlo thi a b : Int) : R Int := if a > b then fit tlo thi (a - b) else fit tlo thi (b - a)

/-- Conversion of a value to `int32_t` (modulo 2^32, since C++20) (the conversions to `int32_t` in math.hh:13-362 and cortex_math.hh:1-50). -/
def toI32 (x : Int) : Int := (x + 2147483648) % 4294967296 - 2147483648

/-- A signed 32-bit result: undefined on overflow (the `int` arithmetic of math.hh:13-362). -/
def i32 (x : Int) : R Int := fit (-2147483648) 2147483647 x

/-- `plateau(val, width, center)`: math.hh:186-195. `width` is unsigned, so the sums are unsigned, converted to `int32_t`. -/
def plateau (val : Int) (width : Nat) (center : Int) : R Int :=
  let high := toI32 (center + (width / 2 : Nat))
  let low := toI32 (center - (width / 2 : Nat))
  if val > high then i32 (val - high)
  else if val < low then i32 (val - low)
  else .ok 0

/-- `array_adj_diff` (elements of exact arithmetic): math.hh:217-228. -/
def adjDiff : List Int → List Int
  | [] => []
  | [_] => []
  | a :: b :: l => (b - a) :: adjDiff (b :: l)

/-- `swap_bytes16`: math.hh:241-243. -/
def swapBytes16 (h : BitVec 16) : BitVec 16 := ((h &&& 0xFF) <<< 8) ||| (h >>> 8)

/-- `swap_bytes32`: math.hh:245-247. -/
def swapBytes32 (w : BitVec 32) : BitVec 32 :=
  ((w &&& 0x000000FF) <<< 24) ||| ((w &&& 0x0000FF00) <<< 8) ||| ((w &&& 0x00FF0000) >>> 8) ||| (w >>> 24)

/-- `swap_bytes_and_combine`: math.hh:248-250. The 16-bit values are promoted to 32-bit `int`. -/
def swapBytesAndCombine (h1 h2 : BitVec 16) : BitVec 32 :=
  let a := h1.setWidth 32
  let b := h2.setWidth 32
  ((a &&& 0xFF) <<< 24) ||| ((a &&& 0xFF00) <<< 8) ||| ((b &&& 0x00FF) <<< 8) ||| (b >>> 8)

/-- `interpolate<PhaseMax>`: math.hh:65-67. The product `in2 * phase` is signed; the rest is computed in 32-bit unsigned arithmetic, because PhaseMax is
unsigned. -/
def interpolate (phaseMax : Nat) (in1 in2 phase : Int) : R Int := do
  let p ← i32 (in2 * phase)
  let q := (in1 * (((phaseMax : Int) - phase) % 4294967296)) % 4294967296
  let sum := (p + q) % 4294967296
  if phaseMax = 0 then .ub else .ok (toI32 (sum / phaseMax))

/-- `is_finite_fastmath` on the bits of the float: math.hh:321-324. -/
def isFiniteFastmath (b : BitVec 32) : Bool := (b &&& 0x7f800000) != 0x7f800000

/-- `signed_saturate` (portable version): cortex_math.hh:23-34. -/
def signedSaturate (val : Int) (sat : Nat) : Int :=
  if sat ≥ 1 ∧ sat ≤ 32 then
    let max : Int := toI32 (((1 <<< (sat - 1)) % 4294967296 - 1 : Nat))
    let min : Int := -1 - max
    if val > max then max
    else if val < min then min
    else val
  else val

/-- `unsigned_saturate` (portable version): cortex_math.hh:36-46. -/
def unsignedSaturate (val : Int) (sat : Nat) : Int :=
  if sat ≤ 31 then
    let max : Nat := (1 <<< sat) % 4294967296 - 1
    if val > toI32 max then toI32 max
    else if val < 0 then 0
    else toI32 (val % 4294967296)
  else toI32 (val % 4294967296)

/-- `SmallestUnsignedInt<max_val>::type`, as its number of bits: smallest_integer.hh:8-15. -/
def smallestUnsigned (maxVal : Nat) : Nat :=
  if maxVal ≤ 255 then 8 else if maxVal ≤ 65535 then 16 else if maxVal ≤ 4294967295 then 32 else 64

/-- `SmallestSignedInt<min_val, max_val>::type`, as its number of bits: smallest_integer.hh:17-22. `none`: does not compile (the negation
overflows, or the shifted value is negative as an `int64_t` and cannot be narrowed to `uint64_t`). -/
def smallestSigned (minVal maxVal : Int) : Option Nat :=
  if minVal = -9223372036854775808 then none
  else
    let m := if maxVal ≥ -minVal then maxVal else -minVal - 1
    let sh := (m * 2 + 9223372036854775808) % 18446744073709551616 - 9223372036854775808
    if sh < 0 then none else some (smallestUnsigned sh.toNat)

end IntMath
