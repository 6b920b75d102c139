import Verif.Model.IntMath
import Mathlib.Algebra.Order.Field.Rat
import Mathlib.Data.Rat.Defs
/-!
# Floating-point functions of MathTools, in exact arithmetic

util/math.hh. `float` is replaced by the rational numbers: rounding, infinities and NaN are not modelled.
-/

namespace RatMath

/-- `map_value` on floats: math.hh:21-23. -/
def mapValue (x inMin inMax outMin outMax : ℚ) : ℚ := (x - inMin) * (outMax - outMin) / (inMax - inMin) + outMin

/-- `map_value` on 32-bit signed integers: math.hh:21-23. Division truncates; overflow and division by zero are undefined. -/
def mapValueI (x inMin inMax outMin outMax : Int) : R Int := do
  let a ← IntMath.i32 (x - inMin)
  let b ← IntMath.i32 (outMax - outMin)
  let p ← IntMath.i32 (a * b)
  let d ← IntMath.i32 (inMax - inMin)
  if d = 0 then .ub
  else do
    let q ← IntMath.i32 (p.tdiv d)
    IntMath.i32 (q + outMin)

/-- `map_value` on 32-bit unsigned integers: math.hh:21-23. Everything modulo 2^32. -/
def mapValueU (x inMin inMax outMin outMax : BitVec 32) : R (BitVec 32) :=
  if inMax - inMin = 0 then .ub else .ok ((x - inMin) * (outMax - outMin) / (inMax - inMin) + outMin)

/-- `interpolate(float, float, float)`: math.hh:53-55. -/
def interpolate (in1 in2 phase : ℚ) : ℚ := in1 * (1 - phase) + in2 * phase

/-- `interpolate3`: math.hh:58-60. -/
def interpolate3 (in1 in2 phase : ℚ) : ℚ := in1 + phase * (in2 - in1)

/-- `f_abs`: math.hh:171-173. -/
def fAbs (x : ℚ) : ℚ := if x ≥ 0 then x else -x

/-- `faster_sine`: math.hh:236-239. -/
def fasterSine (x : ℚ) : ℚ :=
  let x := x * 2 - 1
  4 * (x - x * fAbs x)

/-- `hysteresis_gate`: math.hh:337-344. -/
def hysteresisGate (turnOff turnOn last new : ℚ) : ℚ :=
  let feedbackAmt := (turnOn - turnOff) * (1 / 2)
  let feedback := feedbackAmt * last
  let testSignal := new + feedback
  let threshold := (turnOn + turnOff) * (1 / 2)
  if testSignal > threshold then 1 else 0

/-- `hysteresis_feedback`: math.hh:358-361. -/
def hysteresisFeedback (coef thresh last new : ℚ) : ℚ := if new + last * coef > thresh then 1 else 0

end RatMath
