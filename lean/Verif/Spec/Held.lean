import Verif.Model.CircBuf
import Verif.Model.CircStack
/-!
# Specification: which objects a container still holds

A container of fixed storage is a ring of places. `q` are the elements in it, oldest first; `g` are the objects in the
other places, in the order in which the next elements will replace them.
-/
namespace CircBuf.Held
variable {T : Type}

/-- The elements and the left-overs after one call. An element that is read or removed becomes the left-over that is replaced last;
`reset` leaves everything in place and starts replacing at the oldest element. -/
def step (N : Nat) (st : List T × List T) : Op T → List T × List T
  | .put x => if st.1.length = N then (st.1.tail ++ [x], st.2) else (st.1 ++ [x], st.2.tail)
  | .get | .removeFirst => match st.1 with
    | [] => st
    | a :: q => (q, st.2 ++ [a])
  | .reset => ([], st.1 ++ st.2)

/-- … after a sequence of calls. -/
def run (N : Nat) (st : List T × List T) : List (Op T) → List T × List T
  | [] => st
  | op :: ops => run N (step N st op) ops

/-- The items put, in order. -/
def puts : List (Op T) → List T
  | [] => []
  | .put x :: ops => x :: puts ops
  | _ :: ops => puts ops

/-- The last `n` elements of a list. -/
def last (n : Nat) (l : List T) : List T := l.drop (l.length - n)

end CircBuf.Held

namespace CircStack.Held
variable {T : Type}

/-- The elements (bottom first), the left-overs in the order in which the next elements will replace them, and the place of the bottom in the array. -/
structure Ring (T : Type) where
  q : List T
  g : List T
  start : Nat

/-- One call. A popped element becomes the left-over that is replaced first. `clear` leaves everything in place and starts again at the
first place of the array. -/
def step (M : Nat) (st : Ring T) : Op T → Ring T
  | .push x => if st.q.length = M then ⟨st.q.drop 1 ++ [x], st.g, (st.start + 1) % M⟩ else ⟨st.q ++ [x], st.g.drop 1, st.start⟩
  | .pop | .popOrZero => match st.q.getLast? with
    | none => st
    | some x => ⟨st.q.dropLast, x :: st.g, st.start⟩
  | .clear => ⟨[], (st.q ++ st.g).drop (M - st.start) ++ (st.q ++ st.g).take (M - st.start), 0⟩
  | .back | .size | .empty => st

/-- A sequence of calls. -/
def run (M : Nat) (st : Ring T) : List (Op T) → Ring T
  | [] => st
  | op :: ops => run M (step M st op) ops

end CircStack.Held
