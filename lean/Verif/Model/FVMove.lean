import Verif.Model.FixedVector
/-!
# `FixedVector` of elements that change when they are moved from (util/fixed_vector.hh)

The model in `Verif/Model/FixedVector.lean` takes a moved-from element to keep its value, which is right for plain data.  Here `mv x` is the
state in which moving leaves an element `x` (for a smart pointer: null); `std::move` and `std::move_backward` are element-by-element loops.
Assigning a parameter (`data[i] = el`) copies, as in the source.  That forming `&data[M]` breaks the precondition of the subscript
is C123 and not repeated here.
-/
namespace FixedVector
variable {T : Type}

/-- `std::move(f, f + n, d)`: the algorithm called at fixed_vector.hh:123, 134. -/
def moveFwd (mv : T → T) : Nat → List T → Nat → Nat → R (List T)
  | 0, data, _, _ => .ok data
  | n + 1, data, f, d => do
    let x ← arrGet data f
    let data ← arrSet data f (mv x)
    let data ← arrSet data d x
    moveFwd mv n data (f + 1) (d + 1)

/-- `std::move_backward(f, f + n, d + n)`: the algorithm called at fixed_vector.hh:108. -/
def moveBwd (mv : T → T) : Nat → List T → Nat → Nat → R (List T)
  | 0, data, _, _ => .ok data
  | n + 1, data, f, d => do
    let x ← arrGet data (f + n)
    let data ← arrSet data (f + n) (mv x)
    let data ← arrSet data (d + n) x
    moveBwd mv n data f d

/-- `insert(index, d)`: fixed_vector.hh:99-112. -/
def insertM (mv : T → T) (s : St T) (index : Nat) (d : T) : R (St T) := do
  if s.back ≥ maxSize s ∨ index > s.back then pure s
  else if index = s.back then do
    let (s, _) ← pushBack s d
    pure s
  else do
    let data ← moveBwd mv (s.back - index) s.data index (index + 1)
    let data ← arrSet data index d
    pure ⟨data, s.back + 1⟩

/-- `erase(index)`: fixed_vector.hh:114-125. -/
def eraseM (mv : T → T) (s : St T) (index : Nat) : R (St T) := do
  if s.back = 0 ∨ index ≥ s.back then pure s
  else if index = s.back - 1 then pure { s with back := s.back - 1 }
  else do
    let data ← moveFwd mv (s.back - (index + 1)) s.data (index + 1) index
    pure ⟨data, s.back - 1⟩

/-- `erase(first, last)` with pointers to elements number `first` and `last`: fixed_vector.hh:127-137.  If `last` lies beyond `end()` the loop
of `std::move` does not end inside the array: undefined. -/
def eraseRangeM (mv : T → T) (s : St T) (first last : Nat) : R (St T) := do
  if s.back = 0 ∨ last ≤ first then pure s
  else if s.back < last then .ub
  else do
    let data ← moveFwd mv (s.back - last) s.data last first
    pure ⟨data, s.back - (last - first)⟩

/-- A call, including the two that uncover elements without assigning them (fixed_vector.hh:59-73). -/
inductive OpM (T : Type) where
  | base (op : Op T)
  | pushOver
  | resizeOver (n : Nat)
  deriving DecidableEq, Repr

/-- One call with its result (fixed_vector.hh:9-164). -/
def stepM (mv : T → T) (dflt : T) (s : St T) : OpM T → R (St T × List (Out T))
  | .base (.insert i x) => do let s ← insertM mv s i x; pure (s, [])
  | .base (.erase i) => do let s ← eraseM mv s i; pure (s, [])
  | .base (.eraseRange f l) => do let s ← eraseRangeM mv s f l; pure (s, [])
  | .base op => step false dflt s op
  | .pushOver => let (s, i) := pushBackForOverwrite s; pure (s, [.num i])
  | .resizeOver n => let (s, b) := resizeForOverwrite s n; pure (s, [.bool b])

/-- A sequence of calls with all results (fixed_vector.hh:9-164). -/
def runM (mv : T → T) (dflt : T) (s : St T) : List (OpM T) → R (St T × List (Out T))
  | [] => pure (s, [])
  | op :: ops => do
    let (s, o) ← stepM mv dflt s op
    let (s, os) ← runM mv dflt s ops
    pure (s, o ++ os)

end FixedVector
