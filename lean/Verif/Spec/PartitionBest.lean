/-! # Specification: how well values can be split into parts at all -/
namespace Partition.Best

/-- The sum of the values that an assignment `f` of the elements to parts gives to part `q`. -/
def load (vals : List Nat) (f : Nat → Nat) (q : Nat) : Nat :=
  (((List.range vals.length).filter (fun i => f i == q)).map (fun i => vals.getD i 0)).sum

/-- `f` gives every element to one of `N` parts so that no part, with its initial value, exceeds `limit`. -/
def Splits (N : Nat) (vals init : List Nat) (f : Nat → Nat) (limit : Nat) : Prop :=
  (∀ i, i < vals.length → f i < N) ∧ ∀ q, q < N → init.getD q 0 + load vals f q ≤ limit

end Partition.Best
