/-! # Specification of a partition of a list of values -/
namespace Partition.Spec

/-- The sum of the values whose indices are in a part. -/
def sumOf (vals : List Nat) (part : List Nat) : Nat := (part.map (fun i => vals.getD i 0)).sum

/-- The sum of part `p`, including its initial value (0 if none was given). -/
def total (vals init : List Nat) (parts : List (List Nat)) (p : Nat) : Nat := init.getD p 0 + sumOf vals (parts.getD p [])

end Partition.Spec
