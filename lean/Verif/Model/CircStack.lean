import Verif.Mem
/-!
# `CircularStack` (util/circular_stack.hh)

`M` is `MaxElements` (an `int`, positive).  The indices are `int`s that stay in `0..M`, modelled as naturals.
-/
namespace CircStack

/-- Members: circular_stack.hh:11-17. -/
structure St (T : Type) where
  data : List T
  top : Nat
  bottom : Nat
  full : Bool
  deriving DecidableEq, Repr

variable {T : Type}

/-- Default constructor: circular_stack.hh:20 (the elements of `data` are indeterminate: any list of length `M`). -/
def init (data : List T) : St T := ⟨data, 0, 0, false⟩

/-- Variadic constructor: circular_stack.hh:22-25: `data{t...}`, the rest of the array value-initialised; the indices
keep their default member initialisers. -/
def ofValues (M : Nat) (dflt : T) (ts : List T) : St T := ⟨ts ++ List.replicate (M - ts.length) dflt, 0, 0, false⟩

/-- `push_back`: circular_stack.hh:27-39. -/
def pushBack (M : Nat) (s : St T) (el : T) : R (St T) := do
  let d ← arrSet s.data s.top el
  let top := s.top + 1
  let top := if top ≥ M then 0 else top
  let bottom := if s.full then top else s.bottom
  let full := if top = bottom then true else s.full
  pure ⟨d, top, bottom, full⟩

/-- `size`: circular_stack.hh:77-84. -/
def size (M : Nat) (s : St T) : Nat :=
  if s.full then M
  else if s.top ≥ s.bottom then s.top - s.bottom
  else s.top + M - s.bottom

/-- `pop_back`: circular_stack.hh:41-53. -/
def popBack (M : Nat) (s : St T) : R (St T × Option T) := do
  if size M s = 0 then pure (s, none)
  else
    let top := if s.top = 0 then M - 1 else s.top - 1
    let s := { s with top := top, full := false }
    let v ← arrGet s.data s.top
    pure (s, some v)

/-- `back`: circular_stack.hh:55-61. -/
def back (M : Nat) (s : St T) : R (Option T) := do
  if size M s = 0 then pure none
  else
    let t := if s.top = 0 then M - 1 else s.top - 1
    let v ← arrGet s.data t
    pure (some v)

/-- `pop_back_or_zero`: circular_stack.hh:63-75 (`dflt` is `T{}`). -/
def popBackOrZero (M : Nat) (dflt : T) (s : St T) : R (St T × T) := do
  if size M s = 0 then pure (s, dflt)
  else
    let top := if s.top = 0 then M - 1 else s.top - 1
    let s := { s with top := top, full := false }
    let v ← arrGet s.data s.top
    pure (s, v)

/-- `clear`: circular_stack.hh:90-94. -/
def clear (s : St T) : St T := { s with top := 0, bottom := 0, full := false }

/-- `empty`: circular_stack.hh:96-102. -/
def empty (s : St T) : Bool := if s.full then false else if s.top = s.bottom then true else false

/-- A call (the member functions of circular_stack.hh:8-103). -/
inductive Op (T : Type) where
  | push (x : T)
  | pop
  | popOrZero
  | back
  | clear
  | size
  | empty
  deriving DecidableEq, Repr

/-- What a call returns (circular_stack.hh:8-103). -/
inductive Out (T : Type) where
  | opt (o : Option T)
  | val (x : T)
  | num (n : Nat)
  | bool (b : Bool)
  deriving DecidableEq, Repr

/-- One call with its result (circular_stack.hh:8-103). -/
def step (M : Nat) (dflt : T) (s : St T) : Op T → R (St T × List (Out T))
  | .push x => do let s ← pushBack M s x; pure (s, [])
  | .pop => do let (s, o) ← popBack M s; pure (s, [.opt o])
  | .popOrZero => do let (s, x) ← popBackOrZero M dflt s; pure (s, [.val x])
  | .back => do let o ← back M s; pure (s, [.opt o])
  | .clear => pure (clear s, [])
  | .size => pure (s, [.num (size M s)])
  | .empty => pure (s, [.bool (empty s)])

/-- A sequence of calls with all results (circular_stack.hh:8-103). -/
def run (M : Nat) (dflt : T) (s : St T) : List (Op T) → R (St T × List (Out T))
  | [] => pure (s, [])
  | op :: ops => do
    let (s, o) ← step M dflt s op
    let (s, os) ← run M dflt s ops
    pure (s, o ++ os)

end CircStack
