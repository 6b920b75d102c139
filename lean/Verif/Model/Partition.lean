import Verif.Basic
/-!
# `Partition` (util/partition.hh)

`N` = NumPartitions, `M` = MaxElements; `T` is an unsigned type with `W` values. An `IdVal` is the pair (val, id).
-/
namespace Partition

/-- Filling `ordered`: partition.hh:28-31; `push_back` on a full FixedVector does nothing (fixed_vector.hh). -/
def fill (M : Nat) : List Nat → List (Nat × Nat) → List (Nat × Nat)
  | [], o => o
  | v :: vals, o => fill M vals (if o.length < M then o ++ [(v, o.length)] else o)

/-- What `std::ranges::sort(ordered, std::greater{}, &IdVal::val)` may give: any rearrangement in descending order of val (ties in any order): partition.hh:33. -/
def SortResult (o o' : List (Nat × Nat)) : Prop := o'.Perm o ∧ o'.Pairwise (fun a b => b.1 ≤ a.1)

/-- Copying `initial_vals` into `sums`, out of bounds if there are more than `N`: partition.hh:35-39. -/
def initSums : List Nat → Nat → List Nat → R (List Nat)
  | [], _, sums => .ok sums
  | v :: l, i, sums => do
    let sums ← arrSet sums i v
    initSums l (i + 1) sums

/-- The scan of `std::ranges::min_element`: the first smallest (partition.hh:43). -/
def minGo : List Nat → Nat → Nat → Nat → Nat
  | [], _, best, _ => best
  | x :: l, i, best, bv => if x < bv then minGo l (i + 1) i x else minGo l (i + 1) best bv

/-- `std::ranges::min_element` and `distance`: partition.hh:43-44; on an empty range it is `end()`. -/
def minElement (s : List Nat) : Nat :=
  match s with
  | [] => 0
  | x :: l => minGo l 1 0 x

/-- One round of the last loop: partition.hh:43-46. -/
def place (W M : Nat) (st : List Nat × List (List Nat)) (e : Nat × Nat) : R (List Nat × List (List Nat)) := do
  let idx := minElement st.1
  let s ← arrGet st.1 idx
  let sums ← arrSet st.1 idx ((s + e.1) % W)
  let p ← arrGet st.2 idx
  let parts ← arrSet st.2 idx (if p.length < M then p ++ [e.2] else p)
  .ok (sums, parts)

/-- The last loop: partition.hh:42-47. -/
def placeAll (W M : Nat) : List (Nat × Nat) → List Nat × List (List Nat) → R (List Nat × List (List Nat))
  | [], st => .ok st
  | e :: l, st => do
    let st ← place W M st e
    placeAll W M l st

/-- `calc_partitions`, given the result of the sort: partition.hh:18-48. Whatever was in `parts` before is cleared (19-21). -/
def calcParts (W N M : Nat) (ordered : List (Nat × Nat)) (initialVals : List Nat) : R (List (List Nat)) := do
  let sums ← initSums initialVals 0 (List.replicate N 0)
  let st ← placeAll W M ordered (sums, List.replicate N [])
  .ok st.2

end Partition
