import Verif.Model.MathFns
import Verif.Model.MathFloat
import Verif.Model.InterpFloat
/-!
# setPitchMultiple, audioFreqToNorm, pow2, cos_close, tan and tan_close of util/math.hh with float rounding

Every operation and every literal is rounded by `rnd` (see `Verif/Flt.lean`); `id` is exact arithmetic. Infinities are not modelled.
-/

namespace ExpFloat
open MathTables MathFns

/-- The float values of the literals of `exp5Table`: math_tables.cc:490-719. -/
def exp5R (rnd : ℚ → ℚ) : List ℚ := exp5Table.map rnd
/-- The float values of the literals of `logTable`: math_tables.cc:1185-1391. -/
def logR (rnd : ℚ → ℚ) : List ℚ := logTable.map rnd
/-- The float values of the literals of `sinTable`: math_tables.cc:2-231. -/
def sinR (rnd : ℚ → ℚ) : List ℚ := sinTable.map rnd
/-- The float values of the literals of `tanTable`: math_tables.cc:232-489. -/
def tanR (rnd : ℚ → ℚ) : List ℚ := tanTable.map rnd

/-- `setPitchMultiple`: math.hh:252-262. A zero divisor is represented as `ub`. -/
def setPitchMultiple (rnd : ℚ → ℚ) (val : ℚ) : R ℚ :=
  if val ≥ 0 then InterpFloat.interp rnd (exp5R rnd) (constrain val 0 1)
  else do
    let invertPitch := rnd (val * (-1))
    let d ← InterpFloat.interp rnd (exp5R rnd) (constrain invertPitch 0 1)
    if d = 0 then .ub else .ok (rnd (1 / d))

/-- `audioFreqToNorm`: math.hh:264-271. -/
def audioFreqToNorm (rnd : ℚ → ℚ) (input : ℚ) : R ℚ := do
  let input := constrain input 20 20000
  let temp1 ← InterpFloat.interp rnd (logR rnd) (MathFloat.mapValue rnd input 20 20000 0 1)
  .ok (rnd (rnd (temp1 - rnd (299573 / 100000)) / rnd (690776 / 100000)))

/-- The loop of `pow2`: math.hh:277-286; `none` if it has not ended after `fuel` turns. -/
def pow2Loop (rnd : ℚ → ℚ) : Nat → ℚ → ℚ → Option (R ℚ)
  | 0, _, _ => none
  | fuel + 1, x, res =>
    if x < 1 then
      some (do
        let e ← InterpFloat.interp rnd (exp5R rnd) x
        .ok (rnd (res * e)))
    else pow2Loop rnd fuel (rnd (x - 1)) (rnd (res * 32))

/-- `pow2`: math.hh:274-288. -/
def pow2 (rnd : ℚ → ℚ) (fuel : Nat) (x : ℚ) : Option (R ℚ) := pow2Loop rnd fuel (rnd (x / 5)) 1

/-- `cos_close`: math.hh:304-306. -/
def cosClose (rnd : ℚ → ℚ) (x : ℚ) : R ℚ := InterpFloat.closestWrap rnd (sinR rnd) (rnd (rnd (x / rnd (2 * pif)) + 1 / 4))
/-- `tan`: math.hh:308-310. -/
def tan (rnd : ℚ → ℚ) (x : ℚ) : R ℚ := InterpFloat.interpWrap rnd (tanR rnd) (rnd (x / pif))
/-- `tan_close`: math.hh:312-314. -/
def tanClose (rnd : ℚ → ℚ) (x : ℚ) : R ℚ := InterpFloat.closestWrap rnd (tanR rnd) (rnd (x / pif))

end ExpFloat
