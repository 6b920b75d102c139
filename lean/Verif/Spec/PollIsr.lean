import Verif.Model.PollIsr
/-! # Specification: changes of the sampled state and answers (C215) -/

namespace PollIsr.Spec

/-- How often the sampled state differs from the sample before it (the one before the first: `cur`). -/
def diffs (cur : Bool) : List Event → Nat
  | [] => 0
  | .sample b :: l => (if b = cur then 0 else 1) + diffs b l
  | _ :: l => diffs cur l

/-- How often a change became visible: by a poll that found one, or by `reset()`. -/
def raised : List Event → Nat
  | [] => 0
  | .change :: l => raised l + 1
  | .reset :: l => raised l + 1
  | _ :: l => raised l

/-- How many polls found a change. -/
def found : List Event → Nat
  | [] => 0
  | .change :: l => found l + 1
  | _ :: l => found l

/-- How often `take_change` answered "yes". -/
def yes : List Event → Nat
  | [] => 0
  | .answer true :: l => yes l + 1
  | _ :: l => yes l

/-- Is "yes" owed? From a visible change on, until "yes" is answered. -/
def owed (o : Bool) : List Event → Bool
  | [] => o
  | .change :: l => owed true l
  | .reset :: l => owed true l
  | .answer b :: l => owed (if b then false else o) l
  | .sample _ :: l => owed o l

/-- No "no" is answered while "yes" is owed, and no "yes" while it is not. -/
def fair (o : Bool) : List Event → Prop
  | [] => True
  | .change :: l => fair true l
  | .reset :: l => fair true l
  | .answer b :: l => b = o ∧ fair false l
  | .sample _ :: l => fair o l

end PollIsr.Spec
