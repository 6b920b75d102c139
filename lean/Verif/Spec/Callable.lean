import Verif.Model.Callable
/-! # Specification: what is at the bottom of a `Function` (C206) -/

namespace Callable.Spec

/-- There is something to call: an object or a non-null function, however often it has been put into larger `Function`s. -/
inductive Real : Fun → Prop
  | object (c : Nat) (st : List Nat) : Real (.object c st)
  | fn (p : Nat) : Real (.fn (some p))
  | wrap (f : Fun) : Real f → Real (.wrap f)

/-- The answers of an object whose state is handed from call to call. -/
def answers {A B : Type} (sem : Nat → List Nat → A → List Nat × B) (c : Nat) : List Nat → List A → List B
  | _, [] => []
  | st, a :: l => (sem c st a).2 :: answers sem c (sem c st a).1 l

/-- Put into `n` larger `Function`s, one in the other. -/
def wrapped : Nat → Fun → Fun
  | 0, f => f
  | n + 1, f => .wrap (wrapped n f)

end Callable.Spec
