import Mathlib.Algebra.Order.Field.Rat
/-! # Specification of a partition of a list of numbers (C187) -/
namespace PartitionNum.Spec

/-- The sum of the values whose indices are in a part. -/
def sumOf (vals : List ℚ) (part : List Nat) : ℚ := (part.map (fun i => vals.getD i 0)).sum

/-- The sum of part `p`, including its initial value (0 if none was given). -/
def total (vals init : List ℚ) (parts : List (List Nat)) (p : Nat) : ℚ := init.getD p 0 + sumOf vals (parts.getD p [])

end PartitionNum.Spec
