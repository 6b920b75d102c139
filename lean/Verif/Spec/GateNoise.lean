import Mathlib.Algebra.Order.Field.Rat
import Verif.Spec.Noise
/-! # Specification for C238: a gate function used as its comment says, and how often its output changes -/

namespace GateNoise

/-- The outputs of a gate fed with samples, when each output is passed back as the last output of the next call. -/
def outputs (gate : ℚ → ℚ → ℚ) : ℚ → List ℚ → List ℚ
  | _, [] => []
  | last, x :: xs => gate last x :: outputs gate (gate last x) xs

/-- How often the output differs from the one before. -/
def switches : ℚ → List ℚ → Nat
  | _, [] => 0
  | last, o :: os => (if o ≠ last then 1 else 0) + switches o os

end GateNoise
