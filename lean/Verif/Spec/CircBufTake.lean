import Verif.Model.CircBufTake
/-! # Specification: the answers of a queue of at most N items that is emptied at any moment (C204) -/

namespace CircBufTake.Spec
variable {T : Type}

/-- How far a `put` is: none is running; its item is not yet in the buffer; the item is in, `head_` and `tail_` are not yet compared; they are. -/
inductive Phase where
  | out | before | fresh | after
  deriving DecidableEq, Repr

/-- The items that should be in the buffer, oldest first, and how far a `put` is. -/
structure Abs (T : Type) where
  q : List T
  ph : Phase
  deriving DecidableEq, Repr

/-- An item put into a full buffer takes the place of the oldest; an answer takes its item out. -/
def next (N : Nat) (a : Abs T) : Event T → Abs T
  | .call _ => { a with ph := .before }
  | .dropped => a
  | .added x => ⟨if a.q.length = N then a.q.tail ++ [x] else a.q ++ [x], .fresh⟩
  | .compared => { a with ph := .after }
  | .done => { a with ph := .out }
  | .answer _ => { a with q := a.q.tail }
  | .removed => { a with q := a.q.tail }

/-- The right answer is the oldest item, or "nothing" if there is none. -/
def Right (a : Abs T) : Event T → Prop
  | .answer r => r = a.q.head?
  | _ => True

/-- Every answer is right. -/
def AllRight (N : Nat) (a : Abs T) : List (Event T) → Prop
  | [] => True
  | e :: l => Right a e ∧ AllRight N (next N a e) l

/-- The items that should be there in the end. -/
def final (N : Nat) (a : Abs T) : List (Event T) → Abs T
  | [] => a
  | e :: l => final N (next N a e) l

/-- An interrupt may take an item: always outside `put`; in a `put` if there are fewer than N items, and, while the new item is in and `head_` and `tail_` are not yet compared, if it leaves at least one. -/
def May (N : Nat) (a : Abs T) : Prop :=
  match a.ph with
  | .out => True
  | .fresh => 2 ≤ a.q.length ∧ a.q.length < N
  | _ => a.q.length < N

/-- Interrupts take items only when they may. -/
def Room (N : Nat) (a : Abs T) : List (Event T) → Prop
  | [] => True
  | .answer r :: l => May N a ∧ Room N (next N a (.answer r)) l
  | .removed :: l => May N a ∧ Room N (next N a .removed) l
  | e :: l => Room N (next N a e) l

end CircBufTake.Spec
