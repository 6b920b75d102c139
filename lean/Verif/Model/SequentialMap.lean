import Verif.Model.FixedVector
/-!
# `SequentialMap` (util/sequential_map.hh)

The map is a `FixedVector` of pairs; `N` is the length of its array.  An iterator is modelled by the index it points at,
a returned `ValT &` by the index of the pair it belongs to.  `for (auto &pair : data)` and the iterator loops visit
`FixedVector.toList`.
-/
namespace SequentialMap

/-- `DataT data`: sequential_map.hh:12-13. -/
abbrev St (K V : Type) := FixedVector.St (K × V)

variable {K V : Type} [DecidableEq K]

/-- The search loops of sequential_map.hh:24-28, 41-45, 78-82, 87-91: index of the first pair with that key,
counted from `i`; `none` if the loop runs to the end. -/
def search (key : K) : List (K × V) → Nat → Option Nat
  | [], _ => none
  | p :: l, i => if p.1 = key then some i else search key l (i + 1)

/-- `operator[]` (non-const): sequential_map.hh:23-37.  Returns the index of the pair whose value is referred to.
`newsize--` on 0 gives a huge `size_t`, so the subscript is out of bounds: modelled by failing. -/
def index (s : St K V) (key : K) : R (St K V × Nat) :=
  match search key (FixedVector.toList s) 0 with
  | some i => pure (s, i)
  | none => do
    let (s, newsize) := FixedVector.pushBackForOverwrite s
    let newsize ← if newsize = FixedVector.maxSize s then
        (if newsize = 0 then R.ub else pure (newsize - 1)) else pure newsize
    let old ← arrGet s.data newsize
    let d ← arrSet s.data newsize (key, old.2)
    pure ({ s with data := d }, newsize)

/-- `m[key] = v`: an assignment through the reference returned by `operator[]` (sequential_map.hh:23-35). -/
def assign (s : St K V) (key : K) (v : V) : R (St K V) := do
  let (s, i) ← index s key
  let old ← arrGet s.data i
  let d ← arrSet s.data i (old.1, v)
  pure { s with data := d }

/-- `v = m[key]` on a non-const map: a read through the reference returned by `operator[]` (sequential_map.hh:23-35). -/
def read (s : St K V) (key : K) : R (St K V × V) := do
  let (s, i) ← index s key
  let p ← arrGet s.data i
  pure (s, p.2)

/-- `v = m[key]` on a const map: sequential_map.hh:15-21.  The `return ValT{}` of line 20 returns a reference to a
temporary that is destroyed on return; reading through it is undefined. -/
def readConst (s : St K V) (key : K) : R V :=
  match search key (FixedVector.toList s) 0 with
  | some i => do let p ← arrGet s.data i; pure p.2
  | none => .ub

/-- `insert`: sequential_map.hh:40-54. Returns iterator position and flag. -/
def insert (s : St K V) (entry : K × V) : R (St K V × Nat × Bool) :=
  match search entry.1 (FixedVector.toList s) 0 with
  | some i => pure (s, i, false)
  | none => do
    let (s, newsize) := FixedVector.pushBackForOverwrite s
    if newsize = FixedVector.maxSize s then pure (s, s.back, false)
    else
      let old ← arrGet s.data newsize
      let d ← arrSet s.data newsize (entry.1, old.2)
      pure ({ s with data := d }, s.back - 1, true)

/-- `size`: sequential_map.hh:56-58. -/
def size (s : St K V) : Nat := FixedVector.size s

/-- `max_size`: sequential_map.hh:60-62. -/
def maxSize (s : St K V) : Nat := FixedVector.maxSize s

/-- `clear`: sequential_map.hh:64-66. -/
def clear (s : St K V) : St K V := FixedVector.clear s

/-- `empty`: sequential_map.hh:68-70. -/
def empty (s : St K V) : Bool := decide (FixedVector.size s = 0)

/-- `is_full`: sequential_map.hh:72-74. -/
def isFull (s : St K V) : Bool := decide (FixedVector.size s = FixedVector.maxSize s)

/-- `find`, both overloads: sequential_map.hh:77-92. -/
def find (s : St K V) (key : K) : Nat := (search key (FixedVector.toList s) 0).getD s.back

/-- `erase`: sequential_map.hh:96-102. -/
def erase (s : St K V) (key : K) : R (St K V × Nat) := do
  let it := find s key
  if it ≠ s.back then do
    let s ← FixedVector.eraseRange s it (it + 1)
    pure (s, 1)
  else pure (s, 0)

/-- `contains`: sequential_map.hh:104-110. -/
def contains (s : St K V) (key : K) : Bool := (FixedVector.toList s).any (fun p => decide (p.1 = key))

/-- A call (the member functions of sequential_map.hh:5-125). -/
inductive Op (K V : Type) where
  | assign (k : K) (v : V)
  | read (k : K)
  | readConst (k : K)
  | contains (k : K)
  | find (k : K)
  | erase (k : K)
  | clear
  | size
  | empty
  | isFull
  | iterate
  deriving DecidableEq, Repr

/-- What a call returns (sequential_map.hh:5-125). -/
inductive Out (K V : Type) where
  | val (v : V)
  | num (n : Nat)
  | bool (b : Bool)
  | list (l : List (K × V))
  deriving DecidableEq, Repr

/-- One call with its result; `iterate` runs from `begin()` to `end()` (sequential_map.hh:112-124). -/
def step (s : St K V) : Op K V → R (St K V × List (Out K V))
  | .assign k v => do let s ← assign s k v; pure (s, [])
  | .read k => do let (s, v) ← read s k; pure (s, [.val v])
  | .readConst k => do let v ← readConst s k; pure (s, [.val v])
  | .contains k => pure (s, [.bool (contains s k)])
  | .find k => pure (s, [.num (find s k)])
  | .erase k => do let (s, n) ← erase s k; pure (s, [.num n])
  | .clear => pure (clear s, [])
  | .size => pure (s, [.num (size s)])
  | .empty => pure (s, [.bool (empty s)])
  | .isFull => pure (s, [.bool (isFull s)])
  | .iterate => pure (s, [.list (FixedVector.toList s)])

/-- A sequence of calls with all results (sequential_map.hh:5-125). -/
def run (s : St K V) : List (Op K V) → R (St K V × List (Out K V))
  | [] => pure (s, [])
  | op :: ops => do
    let (s, o) ← step s op
    let (s, os) ← run s ops
    pure (s, o ++ os)

end SequentialMap
