import Verif.Model.CircBufTake
/-!
# Specification: exactly when an interrupt may take an item during `put()` (C204)

Here a `put` into a full buffer does two things, at the moments at which the program does them: it drops the oldest item, and later
adds the new one.
-/

namespace CircBufTake.When
variable {T : Type}

/-- How far a `put` is: none is running; `put(x)` has begun; it has dropped the oldest item; the new item is in, `head_` and `tail_` are not yet compared; they are.
`untouched`: this `put` found the buffer full, and nothing has been taken since it dropped the oldest item. -/
inductive Phase (T : Type) where
  | out
  | begun (x : T)
  | dropped (untouched : Bool)
  | added (untouched : Bool)
  | compared
  deriving DecidableEq, Repr

/-- The items that should be in the buffer, oldest first, and how far a `put` is. -/
structure Abs (T : Type) where
  q : List T
  ph : Phase T
  deriving DecidableEq, Repr

/-- Something was taken. -/
def touch : Phase T → Phase T
  | .dropped _ => .dropped false
  | .added _ => .added false
  | p => p

/-- Has anything been taken since this `put` dropped an item? -/
def untouched : Phase T → Bool
  | .dropped u => u
  | _ => false

/-- Effect of an event. -/
def next (a : Abs T) : Event T → Abs T
  | .call x => { a with ph := .begun x }
  | .dropped => ⟨a.q.tail, .dropped true⟩
  | .added x => ⟨a.q ++ [x], .added (untouched a.ph)⟩
  | .compared => { a with ph := .compared }
  | .done => { a with ph := .out }
  | .answer _ => ⟨a.q.tail, touch a.ph⟩
  | .removed => ⟨a.q.tail, touch a.ph⟩

/-- Nothing is dropped unless the buffer is full, nothing is added to a full buffer, and an answer is the oldest item, or "nothing" if there is none. -/
def Right (N : Nat) (a : Abs T) : Event T → Prop
  | .dropped => a.q.length = N
  | .added _ => a.q.length < N
  | .answer r => r = a.q.head?
  | _ => True

/-- Everything is right. -/
def AllRight (N : Nat) (a : Abs T) : List (Event T) → Prop
  | [] => True
  | e :: l => Right N a e ∧ AllRight N (next a e) l

/-- The items that should be there in the end. -/
def final (a : Abs T) : List (Event T) → Abs T
  | [] => a
  | e :: l => final (next a e) l

/-- Moments at which an interrupt may take an item: outside `put`; in a `put` that has not yet dropped or added anything, if there are fewer than N items;
once the oldest item has been dropped; once the new item is in, if one is left and there are fewer than N (or N and nothing taken since the drop);
after the comparison, if there are fewer than N. -/
def May (N : Nat) (a : Abs T) : Prop :=
  match a.ph with
  | .out => True
  | .begun _ => a.q.length < N
  | .dropped _ => True
  | .added u => (2 ≤ a.q.length ∧ a.q.length < N) ∨ (a.q.length = N ∧ u = true)
  | .compared => a.q.length < N

/-- Interrupts take items only when they may. -/
def Allowed (N : Nat) (a : Abs T) : List (Event T) → Prop
  | [] => True
  | .answer r :: l => May N a ∧ Allowed N (next a (.answer r)) l
  | .removed :: l => May N a ∧ Allowed N (next a .removed) l
  | e :: l => Allowed N (next a e) l

end CircBufTake.When
