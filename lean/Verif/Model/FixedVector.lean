import Verif.Mem
/-!
# `FixedVector` (util/fixed_vector.hh)

The capacity `M` is `data.length`.  Sizes and indices are `size_t`/`unsigned` values, modelled as naturals (nothing in
the class can overflow: every computed value is at most `M + 1`).  A moved-from element is modelled as keeping its value.

`&data[i]` with `i = M` only forms the past-the-end address, but `std::array::operator[]` formally requires `i < M`
and hardened standard libraries trap; the parameter `hard` of `addr` chooses between the two readings.
-/
namespace FixedVector

/-- Members: fixed_vector.hh:10-11. -/
structure St (T : Type) where
  data : List T
  back : Nat
  deriving DecidableEq, Repr

variable {T : Type}

/-- Constructor from values: fixed_vector.hh:14-18 (the rest of the array is value-initialised). -/
def ofValues (M : Nat) (dflt : T) (ts : List T) : St T := ⟨ts ++ List.replicate (M - ts.length) dflt, ts.length⟩

/-- `&data[i]` (fixed_vector.hh:108, 123). -/
def addr (hard : Bool) (data : List T) (i : Nat) : R Nat :=
  if i < data.length ∨ (hard = false ∧ i = data.length) then .ok i else .ub

/-- `std::move(first, last, dest)` and `std::move_backward(first, last, dest + (last - first))` within one array:
elements `[f, l)` are copied to start at `d` (fixed_vector.hh:108, 123, 134). -/
def moveRange (data : List T) (f l d : Nat) : R (List T) :=
  if f ≤ l ∧ l ≤ data.length ∧ d + (l - f) ≤ data.length then
    .ok (data.take d ++ (data.drop f).take (l - f) ++ data.drop (d + (l - f)))
  else .ub

/-- `operator[]`: fixed_vector.hh:21-27. -/
def at' (s : St T) (i : Nat) : R T := arrGet s.data i

/-- `back`: fixed_vector.hh:29-34. -/
def back (dflt : T) (s : St T) : R T :=
  if s.back > 0 then arrGet s.data (s.back - 1) else pure dflt

/-- `push_back`: fixed_vector.hh:36-43. -/
def pushBack (s : St T) (el : T) : R (St T × Bool) := do
  if s.back ≥ s.data.length then pure (s, false)
  else
    let d ← arrSet s.data s.back el
    pure (⟨d, s.back + 1⟩, true)

/-- The fill loop of `resize`: fixed_vector.hh:50-52. -/
def fillFrom (data : List T) (i n : Nat) (el : T) : R (List T) :=
  match n with
  | 0 => pure data
  | n + 1 => do
    let d ← arrSet data i el
    fillFrom d (i + 1) n el

/-- `resize`: fixed_vector.hh:46-57. -/
def resize (s : St T) (num : Nat) (el : T) : R (St T × Bool) := do
  let newBack := min num s.data.length
  let d ← if newBack > s.back then fillFrom s.data s.back (newBack - s.back) el else pure s.data
  pure (⟨d, newBack⟩, decide (num = newBack))

/-- `resize_for_overwrite`: fixed_vector.hh:59-62. -/
def resizeForOverwrite (s : St T) (num : Nat) : St T × Bool :=
  let s := { s with back := min num s.data.length }
  (s, decide (num = s.back))

/-- `push_back_for_overwrite`: fixed_vector.hh:65-73. -/
def pushBackForOverwrite (s : St T) : St T × Nat :=
  if s.back ≥ s.data.length then (s, s.data.length)
  else ({ s with back := s.back + 1 }, s.back)

/-- `pop_back`: fixed_vector.hh:75-81. -/
def popBack (dflt : T) (s : St T) : R (St T × T) := do
  if s.back = 0 then pure (s, dflt)
  else
    let s := { s with back := s.back - 1 }
    let v ← arrGet s.data s.back
    pure (s, v)

/-- `size`: fixed_vector.hh:83-85. -/
def size (s : St T) : Nat := s.back

/-- `max_size`: fixed_vector.hh:87-89. -/
def maxSize (s : St T) : Nat := s.data.length

/-- `available`: fixed_vector.hh:91-93. -/
def available (s : St T) : Nat := maxSize s - size s

/-- `clear`: fixed_vector.hh:95-97. -/
def clear (s : St T) : St T := { s with back := 0 }

/-- `insert(index, d)`: fixed_vector.hh:99-112. -/
def insert (hard : Bool) (s : St T) (index : Nat) (d : T) : R (St T) := do
  if s.back ≥ maxSize s ∨ index > s.back then pure s
  else if index = s.back then do
    let (s, _) ← pushBack s d
    pure s
  else do
    let f ← addr hard s.data index
    let l ← addr hard s.data s.back
    let e ← addr hard s.data (s.back + 1)
    let data ← moveRange s.data f l (e - (l - f))
    let data ← arrSet data index d
    pure ⟨data, s.back + 1⟩

/-- `erase(index)`: fixed_vector.hh:114-125. -/
def erase (hard : Bool) (s : St T) (index : Nat) : R (St T) := do
  if s.back = 0 ∨ index ≥ s.back then pure s
  else if index = s.back - 1 then pure { s with back := s.back - 1 }
  else do
    let f ← addr hard s.data (index + 1)
    let l ← addr hard s.data s.back
    let e ← addr hard s.data index
    let data ← moveRange s.data f l e
    pure ⟨data, s.back - 1⟩

/-- `erase(first, last)` with pointers to elements number `first` and `last`: fixed_vector.hh:127-137. -/
def eraseRange (s : St T) (first last : Nat) : R (St T) := do
  if s.back = 0 ∨ last ≤ first then pure s
  else do
    let data ← moveRange s.data last s.back first
    pure ⟨data, s.back - (last - first)⟩

/-- iteration from `begin()` to `end()`, also `span()`: fixed_vector.hh:141-163. -/
def toList (s : St T) : List T := s.data.take s.back

/-- A call (the member functions of fixed_vector.hh:9-164). -/
inductive Op (T : Type) where
  | push (x : T)
  | pop
  | back
  | get (i : Nat)
  | insert (i : Nat) (x : T)
  | erase (i : Nat)
  | eraseRange (f l : Nat)
  | resize (n : Nat) (x : T)
  | clear
  | size
  | available
  | iterate
  deriving DecidableEq, Repr

/-- What a call returns (fixed_vector.hh:9-164). -/
inductive Out (T : Type) where
  | val (x : T)
  | num (n : Nat)
  | bool (b : Bool)
  | list (l : List T)
  deriving DecidableEq, Repr

/-- One call with its result (fixed_vector.hh:9-164). -/
def step (hard : Bool) (dflt : T) (s : St T) : Op T → R (St T × List (Out T))
  | .push x => do let (s, b) ← pushBack s x; pure (s, [.bool b])
  | .pop => do let (s, x) ← popBack dflt s; pure (s, [.val x])
  | .back => do let x ← back dflt s; pure (s, [.val x])
  | .get i => do let x ← at' s i; pure (s, [.val x])
  | .insert i x => do let s ← insert hard s i x; pure (s, [])
  | .erase i => do let s ← erase hard s i; pure (s, [])
  | .eraseRange f l => do let s ← eraseRange s f l; pure (s, [])
  | .resize n x => do let (s, b) ← resize s n x; pure (s, [.bool b])
  | .clear => pure (clear s, [])
  | .size => pure (s, [.num (size s)])
  | .available => pure (s, [.num (available s)])
  | .iterate => pure (s, [.list (toList s)])

/-- A sequence of calls with all results (fixed_vector.hh:9-164). -/
def run (hard : Bool) (dflt : T) (s : St T) : List (Op T) → R (St T × List (Out T))
  | [] => pure (s, [])
  | op :: ops => do
    let (s, o) ← step hard dflt s op
    let (s, os) ← run hard dflt s ops
    pure (s, o ++ os)

end FixedVector
