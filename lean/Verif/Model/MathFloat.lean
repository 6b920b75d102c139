import Verif.Model.RatMath
import Verif.Model.Params
/-!
# Floating-point functions of MathTools and the signal analyser with rounded arithmetic

util/math.hh, util/analyzed_signal.hh. Every operation is rounded by `rnd` (see `Verif/Flt.lean`); `id` is exact arithmetic. Infinities and NaN are not modelled.
-/

namespace MathFloat

/-- `map_value` on floats: math.hh:19-23. -/
def mapValue (rnd : ℚ → ℚ) (x inMin inMax outMin outMax : ℚ) : ℚ := rnd (rnd (rnd (rnd (x - inMin) * rnd (outMax - outMin)) / rnd (inMax - inMin)) + outMin)

/-- `interpolate(float, float, float)`: math.hh:53-55. -/
def interpolate (rnd : ℚ → ℚ) (in1 in2 phase : ℚ) : ℚ := rnd (rnd (in1 * rnd (1 - phase)) + rnd (in2 * phase))

/-- `interpolate3`: math.hh:58-60. -/
def interpolate3 (rnd : ℚ → ℚ) (in1 in2 phase : ℚ) : ℚ := rnd (in1 + rnd (phase * rnd (in2 - in1)))

/-- `randomNumber<float>`: math.hh:69-72 (and `map_value`: math.hh:19-23); `r` is what `std::rand()` returned. The differences with 0 are taken in `long` and converted to float for the product and the quotient. -/
def randomFloat (rnd : ℚ → ℚ) (randMax r : Nat) (minNum maxNum : ℚ) : ℚ := rnd (rnd (rnd (rnd r * rnd (maxNum - minNum)) / rnd randMax) + minNum)

/-- `faster_sine`: math.hh:236-239. -/
def fasterSine (rnd : ℚ → ℚ) (x : ℚ) : ℚ :=
  let x := rnd (rnd (x * 2) - 1)
  rnd (4 * rnd (x - rnd (x * RatMath.fAbs x)))

/-- `hysteresis_gate`: math.hh:337-344. -/
def hysteresisGate (rnd : ℚ → ℚ) (turnOff turnOn last new : ℚ) : ℚ :=
  let feedbackAmt := rnd (rnd (turnOn - turnOff) * (1 / 2))
  let feedback := rnd (feedbackAmt * last)
  let testSignal := rnd (new + feedback)
  let threshold := rnd (rnd (turnOn + turnOff) * (1 / 2))
  if testSignal > threshold then 1 else 0

/-- `hysteresis_feedback`: math.hh:358-361. -/
def hysteresisFeedback (rnd : ℚ → ℚ) (coef thresh last new : ℚ) : ℚ := if rnd (new + rnd (last * coef)) > thresh then 1 else 0

/-- `AnalyzedSignal<k>`: analyzed_signal.hh:35-40. -/
def initInt (rnd : ℚ → ℚ) (k : Nat) : Analyzed := Analyzed.init (rnd (1 / rnd k))

/-- `AnalyzedSig::update`: analyzed_signal.hh:15-22. -/
def update (rnd : ℚ → ℚ) (s : Analyzed) (v : ℚ) : Analyzed :=
  let s := if v < s.min then { s with min := v } else s
  let s := if v > s.max then { s with max := v } else s
  let s := { s with iir := rnd (s.iir + rnd (s.coef * rnd (v - s.iir))) }
  { s with avg := s.iir }

end MathFloat
