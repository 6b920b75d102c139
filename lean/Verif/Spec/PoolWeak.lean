import Verif.Model.PoolWeak
/-! # What the clients of a thread-safe pool must keep to (C157) -/

namespace PoolWeak.Spec

/-- A thread accesses and destroys only entries it owns; it calls `clear` only when nothing is owned, no other call is running, and every earlier access to an entry happens before the call. -/
def Allowed (s : St) (t : Nat) : Act → Prop
  | .read i => s.own i = some t
  | .write i => s.own i = some t
  | .destroy i => s.own i = some t
  | .startClear => (∀ i, s.own i = none) ∧ (∀ u, s.loc u = .idle) ∧ ∀ i u, s.acc i u ≤ s.vc t u
  | _ => True

/-- Everything in the schedule is allowed, and nobody else does anything while a thread is inside `clear`. -/
def Disciplined (N : Nat) : St → List (Nat × Act) → Prop
  | _, [] => True
  | s, (t, a) :: l => t < N ∧ Allowed s t a ∧ (∀ u i w, u ≠ t → s.loc u ≠ .clearing i w) ∧ ∀ s' e, step N s t a = some (s', e) → Disciplined N s' l

/-- Who owns entry `i` according to the results of create and destroy, oldest first (`clear` not counted). -/
def owners (i : Nat) : List Event → List Nat → List Nat
  | [], o => o
  | .created t j :: l, o => owners i l (if j = i then t :: o else o)
  | .destroyed _ j ok :: l, o => owners i l (if j = i ∧ ok = true then [] else o)
  | .failed _ :: l, o => owners i l o

end PoolWeak.Spec
