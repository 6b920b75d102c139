import Verif.Model.SineOsc
/-!
# sin, sin01 and cos of util/math.hh with float rounding

Every operation is rounded by `rnd` (see `Verif/Flt.lean`); `id` is exact arithmetic. The table look-up is that of `Verif/Model/SineOsc.lean`.
-/

namespace TrigFloat

/-- `sin`: math.hh:291-293. -/
def sin (rnd : ℚ → ℚ) (x : ℚ) : R ℚ := SineOsc.interpWrapR rnd (SineOsc.sinTableR rnd) (rnd (x / rnd (2 * MathFns.pif)))
/-- `sin01`: math.hh:296-298. -/
def sin01 (rnd : ℚ → ℚ) (x : ℚ) : R ℚ := SineOsc.interpWrapR rnd (SineOsc.sinTableR rnd) x
/-- `cos`: math.hh:300-302. -/
def cos (rnd : ℚ → ℚ) (x : ℚ) : R ℚ := SineOsc.interpWrapR rnd (SineOsc.sinTableR rnd) (rnd (rnd (x / rnd (2 * MathFns.pif)) + 1 / 4))

end TrigFloat
