import Verif.Model.Filter
/-! # Smoothing filters with rounded arithmetic: util/filter.hh

`rnd` rounds a result to binary32 (or is the identity: exact arithmetic); every operation is rounded separately. Infinities are not modelled. -/

namespace FilterFloat

/-- `TransferQuadratic<Divisor>::Process`: filter.hh:167-173. -/
def quadratic (rnd : ℚ → ℚ) (divisor : Nat) (x : ℚ) : ℚ :=
  let fact := rnd (1 / rnd divisor)
  rnd (rnd (|x| * x) * fact)

/-- `TransferHysteresis<Numerator, Divisor>::Process`: filter.hh:175-181. -/
def hysteresis (rnd : ℚ → ℚ) (num div : Nat) (x : ℚ) : ℚ :=
  let flat := rnd (rnd num / rnd div)
  rnd (x - Filter.clampQ x (-flat) flat)

/-- `NonLinearOnePoleLp::add_val` (`T` = float); the state is its only member: filter.hh:146-165. -/
def onePole (rnd : ℚ → ℚ) (transfer : ℚ → ℚ) (state input : ℚ) : ℚ := rnd (state + transfer (rnd (input - state)))

/-- `SmoothOversampler::add_val`: filter.hh:76-84; state and result are `Filter.Smooth`. -/
def smoothAdd (rnd : ℚ → ℚ) (size : Nat) (o : Filter.Smooth) (x : Nat) : Filter.Smooth :=
  let buff := (o.buff + x) % Filter.W
  if o.idx + 1 ≥ size then ⟨0, rnd (rnd buff / rnd size), 0⟩ else ⟨buff, o.value, o.idx + 1⟩

end FilterFloat
