import Mathlib.Data.Finset.Card
import Mathlib.Data.Finset.Range
import Verif.Basic
/-! # Specification: how often a value is drawn -/
namespace RandomDraw.Spec

/-- Of the `randMax + 1` results of `std::rand()`, the number that make the function return `v`. -/
def draws {α : Type} [DecidableEq α] (randMax : Nat) (f : Nat → α) (v : α) : Nat :=
  ((Finset.range (randMax + 1)).filter fun r => f r = v).card

end RandomDraw.Spec
