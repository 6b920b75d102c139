import Verif.Model.CircBufIsr
/-! # Specification: the answers of a queue of at most N items into which items are put at any moment (C184) -/

namespace CircBufIsr.Spec
variable {T : Type}

/-- The items that should be in the buffer, oldest first; whether a `get()` is running; whether there were none when it looked. -/
structure Abs (T : Type) where
  q : List T
  inside : Bool
  none : Bool
  deriving DecidableEq, Repr

/-- An item put into a full buffer takes the place of the oldest; an answer takes its item out. -/
def next (N : Nat) (a : Abs T) : Event T → Abs T
  | .put x => { a with q := if a.q.length = N then a.q.tail ++ [x] else a.q ++ [x] }
  | .call => { a with inside := true }
  | .look => { a with none := a.q.isEmpty }
  | .answer r => { a with q := if r.isSome then a.q.tail else a.q, inside := false }

/-- The right answers: "nothing" if there was nothing when `get()` looked; otherwise the oldest item. -/
def Right (a : Abs T) : Event T → Prop
  | .answer none => a.none = true
  | .answer (some v) => a.q.head? = some v
  | _ => True

/-- Every answer is right. -/
def AllRight (N : Nat) (a : Abs T) : List (Event T) → Prop
  | [] => True
  | e :: l => Right a e ∧ AllRight N (next N a e) l

/-- The items that should be there in the end. -/
def final (N : Nat) (a : Abs T) : List (Event T) → Abs T
  | [] => a
  | e :: l => final N (next N a e) l

/-- Every item put during a `get()` finds two free places. -/
def Room (N : Nat) (a : Abs T) : List (Event T) → Prop
  | [] => True
  | .put x :: l => (a.inside = true → a.q.length + 2 ≤ N) ∧ Room N (next N a (.put x)) l
  | e :: l => Room N (next N a e) l

end CircBufIsr.Spec
