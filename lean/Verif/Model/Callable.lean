import Verif.Basic
/-!
# What a `Function` or `Callback` holds, and calling it (util/callable.hh)

A `FunctionSized` of one size may be stored in a larger one, being a callable itself; a function pointer is a callable too, also a null one. Callables are taken to be trivially copyable, so that the memberwise copy of a `FunctionSized` is a
copy of its callable (callables with a destructor are in `Owners`, Model/Small.lean). `sem` is what a callable of class `c` with captured state `st` does with an argument: new state and answer; `fsem` what the function at an address answers.
-/
namespace Callable

/-- A `FunctionSized`: default-constructed; holding a callable object; holding a function pointer; holding a smaller `FunctionSized`: callable.hh:23-31, 66-73, 81-86. -/
inductive Fun where
  | empty
  | object (c : Nat) (st : List Nat)
  | fn (p : Option Nat)
  | wrap (f : Fun)
  deriving DecidableEq, Repr

/-- `operator bool`: callable.hh:46-48. `m_callback` is set by the constructor from a callable, whatever the callable (line 28). -/
def isSet : Fun → Bool
  | .empty => false
  | _ => true

/-- `call` and `operator()`, through `invoke<Callable>`: callable.hh:38-44, 51-57. Calling a null pointer is undefined; the callable is used in place, so its state changes. -/
def call {A B : Type} (sem : Nat → List Nat → A → List Nat × B) (fsem : Nat → A → B) : Fun → A → R (Fun × B)
  | .empty, _ => .ub
  | .object c st, a => .ok (.object c (sem c st a).1, (sem c st a).2)
  | .fn none, _ => .ub
  | .fn (some p), a => .ok (.fn (some p), fsem p a)
  | .wrap f, a => do
    let (f, b) ← call sem fsem f a
    .ok (.wrap f, b)

/-- Calls one after the other, with their answers (callable.hh:38-44). -/
def calls {A B : Type} (sem : Nat → List Nat → A → List Nat × B) (fsem : Nat → A → B) (f : Fun) : List A → R (Fun × List B)
  | [] => .ok (f, [])
  | a :: l => do
    let (f, b) ← call sem fsem f a
    let (f, bs) ← calls sem fsem f l
    .ok (f, b :: bs)

/-- The address of `m_data` in a `FunctionSized` at address `addr`, with pointers of `ptr` bytes: two pointers come first, and `m_data` is aligned to 8 (callable.hh:66-73). -/
def dataAddr (ptr addr : Nat) : Nat := addr + (2 * ptr + 7) / 8 * 8

/-- `requires(sizeof(Callable) <= buffer_size ...)`, callable.hh:26: a callable of this size is accepted, whatever its alignment. -/
def accepts (bufferSize size _align : Nat) : Bool := decide (size ≤ bufferSize)

end Callable
