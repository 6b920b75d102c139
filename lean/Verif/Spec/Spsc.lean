import Verif.Model.Spsc
/-!
# What a FIFO should do, read off the observed calls only

These definitions only look at the list of observed events (oldest first).
-/
namespace Spsc.Spec
open Spsc

/-- Items for which `put` reported success, in order. -/
def accepted : List (Ev T) → List T
  | [] => []
  | .putRet x true :: es => x :: accepted es
  | _ :: es => accepted es

/-- What left the FIFO, in order: `some x` for an item handed to the consumer, `none` for one discarded unseen
(by `remove_first` or `reset`). -/
def taken : List (Ev T) → List (Option T)
  | [] => []
  | .getRet (some x) :: es => some x :: taken es
  | .getOrDefaultRet true x :: es => some x :: taken es
  | .removeRet true :: es => none :: taken es
  | .resetRet n :: es => List.replicate n none ++ taken es
  | _ :: es => taken es

/-- What the FIFO holds after the events `es` if it started out holding `start`: everything that went in, less
as many items (oldest first) as went out. -/
def content (start : List T) (es : List (Ev T)) : List T := (start ++ accepted es).drop (taken es).length

/-- Every item taken is the oldest not yet taken: the i-th thing to leave is the i-th thing that went in, and
no more left than went in. -/
def InOrder (start : List T) (es : List (Ev T)) : Prop :=
  (taken es).length ≤ (start ++ accepted es).length ∧
  ∀ (i : Nat) (x : T), (taken es)[i]? = some (some x) → (start ++ accepted es)[i]? = some x

/-- No producer-side `reset` in the schedule. -/
def NoProducerReset (as : List (Act T)) : Prop := ∀ a ∈ as, a ≠ Act.pCall POp.reset

end Spsc.Spec
