import Verif.Basic
import Verif.Mem
import Mathlib.Algebra.Order.Field.Rat
/-!
# `Partition` of signed and float values (util/partition.hh)

As `Partition`, for an arithmetic type `T` whose values are rationals (integers or floats; no infinities, no NaN). `add` is the addition of the type: it may round or be undefined. An `IdVal` is the pair (val, id).
-/
namespace PartitionNum

/-- Filling `ordered`: partition.hh:28-31; `push_back` on a full FixedVector does nothing (fixed_vector.hh). -/
def fill (M : Nat) : List ℚ → List (ℚ × Nat) → List (ℚ × Nat)
  | [], o => o
  | v :: vals, o => fill M vals (if o.length < M then o ++ [(v, o.length)] else o)

/-- What `std::ranges::sort(ordered, std::greater{}, &IdVal::val)` may give: any rearrangement in descending order of val (ties in any order): partition.hh:33. -/
def SortResult (o o' : List (ℚ × Nat)) : Prop := o'.Perm o ∧ o'.Pairwise (fun a b => b.1 ≤ a.1)

/-- Copying `initial_vals` into `sums`, out of bounds if there are more than `N`: partition.hh:35-39. -/
def initSums : List ℚ → Nat → List ℚ → R (List ℚ)
  | [], _, sums => .ok sums
  | v :: l, i, sums => do
    let sums ← arrSet sums i v
    initSums l (i + 1) sums

/-- The scan of `std::ranges::min_element`: the first smallest (partition.hh:43). -/
def minGo : List ℚ → Nat → Nat → ℚ → Nat
  | [], _, best, _ => best
  | x :: l, i, best, bv => if x < bv then minGo l (i + 1) i x else minGo l (i + 1) best bv

/-- `std::ranges::min_element` and `distance`: partition.hh:43-44; on an empty range it is `end()`. -/
def minElement (s : List ℚ) : Nat :=
  match s with
  | [] => 0
  | x :: l => minGo l 1 0 x

/-- One round of the last loop: partition.hh:43-46. -/
def place (add : ℚ → ℚ → R ℚ) (M : Nat) (st : List ℚ × List (List Nat)) (e : ℚ × Nat) : R (List ℚ × List (List Nat)) := do
  let idx := minElement st.1
  let s ← arrGet st.1 idx
  let s' ← add s e.1
  let sums ← arrSet st.1 idx s'
  let p ← arrGet st.2 idx
  let parts ← arrSet st.2 idx (if p.length < M then p ++ [e.2] else p)
  .ok (sums, parts)

/-- The last loop: partition.hh:42-47. -/
def placeAll (add : ℚ → ℚ → R ℚ) (M : Nat) : List (ℚ × Nat) → List ℚ × List (List Nat) → R (List ℚ × List (List Nat))
  | [], st => .ok st
  | e :: l, st => do
    let st ← place add M st e
    placeAll add M l st

/-- `calc_partitions`, given the result of the sort: partition.hh:18-48. Whatever was in `parts` before is cleared (19-21). -/
def calcParts (add : ℚ → ℚ → R ℚ) (N M : Nat) (ordered : List (ℚ × Nat)) (initialVals : List ℚ) : R (List (List Nat)) := do
  let sums ← initSums initialVals 0 (List.replicate N 0)
  let st ← placeAll add M ordered (sums, List.replicate N [])
  .ok st.2

/-- `+=` of a signed integer type of `w` bits, not narrower than `int`: undefined on overflow (partition.hh:45). -/
def addInt (w : Nat) (a b : ℚ) : R ℚ := if -2 ^ (w - 1) ≤ a + b ∧ a + b < 2 ^ (w - 1) then .ok (a + b) else .ub

/-- `+=` of floats (partition.hh:45). -/
def addFloat (rnd : ℚ → ℚ) (a b : ℚ) : R ℚ := .ok (rnd (a + b))

end PartitionNum
