import Verif.Model.Interp
import Verif.Model.RatMath
import Verif.Model.TableSin
import Verif.Model.TableTan
import Verif.Model.TableExp5
import Verif.Model.TableExp10
import Verif.Model.TablePow9
import Verif.Model.TableLog
/-!
# Functions on the tables of util/math_tables.cc (util/math.hh)

Floats in exact arithmetic (ℚ).
-/

namespace MathTables

/-- A table given in millionths (the arrays of math_tables.cc:1-1391). -/
def tab (d : List Int) : List ℚ := d.map (fun n : Int => (n : ℚ) / 1000000)

/-- `sinTable`: math_tables.cc:2-231. -/
def sinTable : List ℚ := tab sinData
/-- `tanTable`: math_tables.cc:232-489. -/
def tanTable : List ℚ := tab tanData
/-- `exp5Table`: math_tables.cc:490-719. -/
def exp5Table : List ℚ := tab exp5Data
/-- `exp10Table`: math_tables.cc:720-977. -/
def exp10Table : List ℚ := tab exp10Data
/-- `pow9Table`: math_tables.cc:978-1184. -/
def pow9Table : List ℚ := tab pow9Data
/-- `logTable`: math_tables.cc:1185-1391. -/
def logTable : List ℚ := tab logData

end MathTables

namespace MathFns
open MathTables InterpArray

/-- `M_PIF`: math.hh:14-17, the binary32 value of the literal, 13176795 / 2^22. -/
def pif : ℚ := 13176795 / 4194304

/-- `constrain<float>`: math.hh:26-28. -/
def constrain (val min max : ℚ) : ℚ := if val < min then min else if val > max then max else val

/-- `setPitchMultiple`: math.hh:252-262. A zero divisor is represented as `ub`. -/
def setPitchMultiple (val : ℚ) : R ℚ :=
  if val ≥ 0 then interp exp5Table (constrain val 0 1)
  else do
    let invertPitch := val * (-1)
    let d ← interp exp5Table (constrain invertPitch 0 1)
    if d = 0 then .ub else .ok (1 / d)

/-- `audioFreqToNorm`: math.hh:264-271. -/
def audioFreqToNorm (input : ℚ) : R ℚ := do
  let input := constrain input 20 20000
  let temp1 ← interp logTable (RatMath.mapValue input 20 20000 0 1)
  .ok ((temp1 - 299573 / 100000) / (690776 / 100000))

/-- The loop of `pow2`: math.hh:277-286 (with `x` a finite number it ends; see `Pow2Float` for rounding). -/
def pow2Loop (x res : ℚ) : R ℚ :=
  if x < 1 then do
    let e ← interp exp5Table x
    .ok (res * e)
  else pow2Loop (x - 1) (res * 32)
  termination_by ⌊x⌋.toNat
  decreasing_by
    rename_i h
    have h1 : (1 : ℤ) ≤ ⌊x⌋ := Int.le_floor.mpr (by push_cast; exact not_lt.mp h)
    rw [Int.floor_sub_one]
    omega

/-- `pow2`: math.hh:274-288. -/
def pow2 (x : ℚ) : R ℚ := pow2Loop (x / 5) 1

/-- One turn of the loop of `pow2` that does not leave it: math.hh:282-285, with float rounding. -/
def pow2Step (rnd : ℚ → ℚ) (s : ℚ × ℚ) : ℚ × ℚ := (rnd (s.1 - 1), rnd (s.2 * 32))

/-- `sin`: math.hh:291-293. -/
def sin (x : ℚ) : R ℚ := interpWrap sinTable (x / (2 * pif))
/-- `sin01`: math.hh:296-298. -/
def sin01 (x : ℚ) : R ℚ := interpWrap sinTable x
/-- `cos`: math.hh:300-302. -/
def cos (x : ℚ) : R ℚ := interpWrap sinTable (x / (2 * pif) + 1 / 4)
/-- `cos_close`: math.hh:304-306. -/
def cosClose (x : ℚ) : R ℚ := closestWrap sinTable (x / (2 * pif) + 1 / 4)
/-- `tan`: math.hh:308-310. -/
def tan (x : ℚ) : R ℚ := interpWrap tanTable (x / pif)
/-- `tan_close`: math.hh:312-314. -/
def tanClose (x : ℚ) : R ℚ := closestWrap tanTable (x / pif)

/-- `is_inf_fastmath`: math.hh:326-328, on the bits of the float: the comparison of the magnitude with the largest finite float is a comparison of the bits, and false for NaN. -/
def isInfFastmath (b : BitVec 32) : Bool :=
  let a := b &&& 0x7fffffff#32
  if a > 0x7f800000#32 then false else decide (a > 0x7f7fffff#32)

/-- `randomNumber<float>`: math.hh:69-72 (and `map_value`: math.hh:21-23), `r` is what `std::rand()` returned. -/
def randomFloat (randMax r : Nat) (minNum maxNum : ℚ) : ℚ := ((r : ℚ) - 0) * (maxNum - minNum) / ((randMax : ℚ) - 0) + minNum

/-- `randomNumber<int>`: math.hh:69-72, with a `long` of `w` bits; overflow is undefined. -/
def randomInt (w : Nat) (randMax r : Nat) (minNum maxNum : Int) : R Int := do
  let a ← IntMath.fit (-2 ^ (w - 1)) (2 ^ (w - 1) - 1) ((r : Int) - 0)
  let b ← IntMath.i32 (maxNum - minNum)
  let p ← IntMath.fit (-2 ^ (w - 1)) (2 ^ (w - 1) - 1) (a * b)
  let d ← IntMath.fit (-2 ^ (w - 1)) (2 ^ (w - 1) - 1) ((randMax : Int) - 0)
  if d = 0 then .ub
  else do
    let q ← IntMath.fit (-2 ^ (w - 1)) (2 ^ (w - 1) - 1) (Int.tdiv p d)
    let s ← IntMath.fit (-2 ^ (w - 1)) (2 ^ (w - 1) - 1) (q + minNum)
    .ok (IntMath.toI32 s)

end MathFns
