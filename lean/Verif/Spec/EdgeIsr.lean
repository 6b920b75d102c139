import Verif.Model.EdgeIsr
/-! # Specification: what a query should answer, and the moments of a call (C214) -/

namespace EdgeIsr.Spec

/-- What the query asks, of the last two states given to the detector: the one before (`p`) and the latest (`c`). -/
def truth (q : Query) (p c : Bool) : Bool :=
  match q with
  | .changed _ => decide (p ≠ c)
  | .wentHigh => decide (p = false ∧ c = true)
  | .wentLow => decide (p = true ∧ c = false)
  | .stayingHigh => decide (p = true ∧ c = true)
  | .stayingLow => decide (p = false ∧ c = false)

/-- The pairs (state before, latest state) at each moment of a call: when it starts, and after each of the updates `bs` that come during it. -/
def moments (p c : Bool) : List Bool → List (Bool × Bool)
  | [] => [(p, c)]
  | b :: bs => (p, c) :: moments c b bs

end EdgeIsr.Spec
