import Verif.Model.CircBufIsr
/-! # Specification: exactly when an interrupt may put an item during `get()` (C184) -/

namespace CircBufIsr.When
variable {T : Type}

/-- The items that should be in the buffer, oldest first; whether there were none when the running `get()` looked; how many of the items that were there
then are still there. -/
structure Abs (T : Type) where
  q : List T
  none : Bool
  seen : Nat
  deriving DecidableEq, Repr

/-- An item put into a full buffer takes the place of the oldest; an answer takes its item out. -/
def next (N : Nat) (a : Abs T) : Event T → Abs T
  | .put x => if a.q.length = N then ⟨a.q.tail ++ [x], a.none, a.seen - 1⟩ else { a with q := a.q ++ [x] }
  | .call => a
  | .look => ⟨a.q, a.q.isEmpty, a.q.length⟩
  | .answer r => { a with q := if r.isSome then a.q.tail else a.q }

/-- The right answers: "nothing" if there was nothing when `get()` looked; otherwise the oldest item. -/
def Right (a : Abs T) : Event T → Prop
  | .answer none => a.none = true
  | .answer (some v) => a.q.head? = some v
  | _ => True

/-- Every answer is right. -/
def AllRight (N : Nat) (a : Abs T) : List (Event T) → Prop
  | [] => True
  | e :: l => Right a e ∧ AllRight N (next N a e) l

/-- The items that should be there in the end. -/
def final (N : Nat) (a : Abs T) : List (Event T) → Abs T
  | [] => a
  | e :: l => final N (next N a e) l

/-- Moments at which an interrupt may put an item, by the point the main program has reached in `get()`: always outside, and between finding the buffer non-empty and reading `tail_`; before reading `head_` if two places are
free; between reading `head_` and comparing it if the buffer was then empty, or has a free place, or the item dropped is not the last of those that were there; from reading `tail_` to clearing `full_` if a place is free; after that if two are. -/
def May (N : Nat) (pc : Pc T) (a : Abs T) : Prop :=
  match pc with
  | .idle => True
  | .half => a.q.length + 2 ≤ N
  | .cmp _ => a.none = true ∨ a.q.length < N ∨ a.seen ≠ 1
  | .read => True
  | .index _ => a.q.length < N
  | .got _ => a.q.length < N
  | .cleared _ => a.q.length + 2 ≤ N
  | .inc _ _ => a.q.length + 2 ≤ N

/-- The interrupt puts items only when it may. -/
def Allowed (N : Nat) (s : St T) (a : Abs T) : List (Act T) → Prop
  | [] => True
  | act :: l => (∀ x, act = .put x → May N s.pc a) ∧ ∀ s' es, step N s act = .ok (s', es) → Allowed N s' (final N a es) l

end CircBufIsr.When
