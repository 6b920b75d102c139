import Verif.Basic
/-! # Specification: every change of a raw sample (C208) -/

namespace Entry.Spec

/-- Presses and releases if every change counts: `prev` is the sample before. -/
def everyChange (prev : Bool) : List Bool → List (Bool × Bool)
  | [] => []
  | b :: l => (!prev && b, prev && !b) :: everyChange b l

/-- `n` bounces: high, low, high, low, ... -/
def bounces : Nat → List Bool
  | 0 => []
  | n + 1 => true :: false :: bounces n

end Entry.Spec
