import Mathlib.Algebra.Order.Field.Rat
import Mathlib.Algebra.Order.Ring.Abs
import Verif.Spec.Interp
/-! # What it means that an interpolated table has no jumps -/

namespace Interp.Spec

/-- Neighbouring elements of the table differ by at most `D`. -/
def Smooth (l : List ℚ) (D : ℚ) : Prop := ∀ k, k + 1 < l.length → |at' l (k + 1) - at' l k| ≤ D

/-- ... and so do the last and the first one: the table holds one period of a wave. -/
def SmoothRing (l : List ℚ) (D : ℚ) : Prop := Smooth l D ∧ |at' l 0 - at' l (l.length - 1)| ≤ D

/-- `f` changes by at most `L` times the change of its argument, between `lo` and `hi`. -/
def Lipschitz (L lo hi : ℚ) (f : ℚ → ℚ) : Prop := ∀ u v, lo ≤ u → u ≤ hi → lo ≤ v → v ≤ hi → |f u - f v| ≤ L * |u - v|

end Interp.Spec
