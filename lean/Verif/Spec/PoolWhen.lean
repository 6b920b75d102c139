import Verif.Model.PoolWeak
/-! # Specification: exactly when `clear()` of a thread-safe pool may be called, and what others may do during it (C158) -/

namespace PoolWeak.When

/-- A thread accesses and destroys only entries it owns. It calls `clear` only when nobody else owns an entry, nobody else is in `clear` with something left to do, and every earlier access to an entry happens before the call. A `create()`
that runs during a `clear()` may take an entry only if `clear()` is past it. Two threads are synchronised only while neither is inside `clear()`. -/
def Allowed (s : St) (t : Nat) : Act → Prop
  | .read i => s.own i = some t
  | .write i => s.own i = some t
  | .destroy i => s.own i = some t
  | .startClear => (∀ i u, s.own i = some u → u = t) ∧ (∀ u i w, u ≠ t → s.loc u = .clearing i w → s.flags.length ≤ i) ∧ ∀ i u, s.acc i u ≤ s.vc t u
  | .cas => ∀ j, s.loc t = .creating j → s.flags[j]? = some false → ∀ u i w, s.loc u = .clearing i w → j < i
  | .sync u => ∀ i w, s.loc u ≠ .clearing i w
  | _ => True

/-- Everything in the schedule is allowed. -/
def Disciplined (N : Nat) : St → List (Nat × Act) → Prop
  | _, [] => True
  | s, (t, a) :: l => t < N ∧ Allowed s t a ∧ ∀ s' e, step N s t a = some (s', e) → Disciplined N s' l

/-- What clients may rely on whenever they like: going on with a call, and reading what they own. -/
def Clients (N : Nat) : St → List (Nat × Act) → Prop
  | _, [] => True
  | s, (t, a) :: l => t < N ∧ (a = .cas ∨ a = .endCreate ∨ a = .clearStep ∨ ∃ i, a = .read i ∧ s.own i = some t) ∧ ∀ s' e, step N s t a = some (s', e) → Clients N s' l

end PoolWeak.When
