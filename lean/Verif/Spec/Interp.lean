import Verif.Basic
import Mathlib.Algebra.Order.Field.Rat
/-! # Specification of interpolation -/

namespace Interp.Spec

/-- The point a fraction `t` of the way from `a` to `b`. -/
def lerp (a b t : ℚ) : ℚ := a + (b - a) * t

/-- `x` lies between `a` and `b`. -/
def Between (a b x : ℚ) : Prop := min a b ≤ x ∧ x ≤ max a b

/-- Element `k` of a table (0 if there is none). -/
def at' (l : List ℚ) (k : Nat) : ℚ := l.getD k 0

/-- The table never decreases. -/
def Monotone (l : List ℚ) : Prop := ∀ i j, i ≤ j → j < l.length → at' l i ≤ at' l j

end Interp.Spec
