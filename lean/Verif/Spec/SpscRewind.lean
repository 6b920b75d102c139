import Verif.Model.SpscRewind
import Verif.Spec.Spsc
/-! # Which schedules and states are meant -/
namespace Spsc.Spec
open Spsc

/-- The producer does nothing but `put`, the consumer nothing. -/
def OnlyPuts (as : List (Act T)) : Prop := ∀ a ∈ as, (∃ b, a = .pStep b) ∨ ∃ x, a = .pCall (.put x)

/-- The producer is not inside `num_free()` or `full()`. -/
def notAsking : PPc w T → Bool
  | .free0 .. => false
  | .freeH .. => false
  | .freeT .. => false
  | _ => true

end Spsc.Spec
