import Mathlib.Algebra.Order.Field.Rat
import Mathlib.Algebra.Order.Ring.Abs
/-! # A signal and noise on it -/

namespace Schmitt.Spec

/-- How far the signal has travelled in all, up and down. -/
def travel : List ℚ → ℚ
  | u :: v :: l => |v - u| + travel (v :: l)
  | _ => 0

/-- Every sample is within `ε` of the signal. -/
def Noisy (ε : ℚ) : List ℚ → List ℚ → Prop := List.Forall₂ (fun u x => |x - u| ≤ ε)

/-- The comparison of numbers (`float`'s `<` without NaN). -/
def less (a b : ℚ) : Bool := decide (a < b)

end Schmitt.Spec
