/-!
# Outcomes with undefined behaviour

`R α` is the result of running a piece of C++: either it finishes with a value, or it executed something
the C++ standard leaves undefined (out-of-bounds access, signed overflow, division by zero, ...).
-/

inductive R (α : Type u) where
  | ok (a : α)
  | ub
  deriving DecidableEq, Repr

namespace R

@[simp] def bind (x : R α) (f : α → R β) : R β :=
  match x with
  | ok a => f a
  | ub => ub

instance : Monad R where
  pure := ok
  bind := bind

@[simp] theorem pure_eq (a : α) : (pure a : R α) = ok a := rfl
@[simp] theorem bind_ok (a : α) (f : α → R β) : (ok a >>= f) = f a := rfl
@[simp] theorem bind_ub (f : α → R β) : ((ub : R α) >>= f) = ub := rfl
@[simp] theorem map_ok (a : α) (f : α → β) : f <$> (ok a) = ok (f a) := rfl
@[simp] theorem map_ub (f : α → β) : f <$> (ub : R α) = ub := rfl

theorem ok_inj {a b : α} : (ok a = ok b) ↔ a = b := by
  constructor
  · intro h; cases h; rfl
  · intro h; rw [h]

end R

/-- Reading element `i` of a C array (`List` of its elements): undefined outside the array. -/
def arrGet (l : List α) (i : Nat) : R α :=
  match l[i]? with
  | some a => .ok a
  | none => .ub

/-- Writing element `i` of a C array: undefined outside the array. -/
def arrSet (l : List α) (i : Nat) (a : α) : R (List α) :=
  if i < l.length then .ok (l.set i a) else .ub

theorem arrGet_lt {l : List α} {i : Nat} (h : i < l.length) : arrGet l i = .ok l[i] := by
  simp [arrGet, h]

theorem arrGet_some {l : List α} {i : Nat} {a : α} (h : l[i]? = some a) : arrGet l i = .ok a := by
  simp [arrGet, h]

theorem arrGet_eq_ok {l : List α} {i : Nat} {a : α} : arrGet l i = .ok a ↔ l[i]? = some a := by
  unfold arrGet; split <;> simp_all

theorem arrGet_ub {l : List α} {i : Nat} : arrGet l i = .ub ↔ l.length ≤ i := by
  unfold arrGet
  split
  · next a h =>
    have := (List.getElem?_eq_some_iff.mp h).1
    simp; omega
  · next h => simp_all

theorem arrSet_lt {l : List α} {i : Nat} {a : α} (h : i < l.length) : arrSet l i a = .ok (l.set i a) := by
  simp [arrSet, h]

theorem arrSet_ub {l : List α} {i : Nat} {a : α} : arrSet l i a = .ub ↔ l.length ≤ i := by
  unfold arrSet
  split
  · simp; omega
  · simp; omega
