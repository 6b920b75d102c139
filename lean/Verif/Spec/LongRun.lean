import Mathlib.Logic.Function.Iterate
/-! # Specification: cycles of a ramp (C229) -/

namespace LongRun

/-- How often a sequence of values falls during its first `n` steps: a ramp starts a new cycle each time. -/
def falls (v : Nat → Nat) : Nat → Nat
  | 0 => 0
  | n + 1 => falls v n + if v (n + 1) < v n then 1 else 0

end LongRun
