import Mathlib.Algebra.Order.Field.Rat
/-! # Specification of parameters and meters -/

namespace Params.Spec

/-- A history of a change-detecting parameter: setting a value, or asking whether it changed. -/
inductive Op (α : Type) where
  | set (v : α)
  | check
  deriving DecidableEq

/-- The value after a history. -/
def value {α : Type} (init : α) : List (Op α) → α
  | [] => init
  | .set v :: ops => value v ops
  | .check :: ops => value init ops

/-- Somewhere since the last `check` a value was set that differed from the value at that moment. -/
def ChangedSinceCheck {α : Type} (init : α) (ops : List (Op α)) : Prop :=
  ∃ pre v post, ops = pre ++ .set v :: post ∧ .check ∉ post ∧ v ≠ value init pre

/-- The value at the time of the last `check` (`z` if there was none). -/
def valueAtLastCheck {α : Type} (z init : α) : List (Op α) → α
  | [] => z
  | .set v :: ops => valueAtLastCheck z v ops
  | .check :: ops => valueAtLastCheck init init ops

/-- `m` is the least and `M` the greatest of a list of values. -/
def Extremes {α : Type} [LE α] (m M : α) (xs : List α) : Prop := (m ∈ xs ∧ ∀ x ∈ xs, m ≤ x) ∧ (M ∈ xs ∧ ∀ x ∈ xs, x ≤ M)

/-- Calls on an array of interpolated readings. -/
inductive Call (N : Nat) where
  | mark
  | add (read : Fin N → ℚ)
  | get

end Params.Spec
