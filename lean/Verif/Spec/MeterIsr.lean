import Verif.Model.MeterIsr
import Mathlib.Order.Lattice
/-!
# What a meter should show
-/
namespace MeterIsrSpec
open MeterIsr

/-- `x` is the least of `a` and the values in `l`. -/
def IsLeast {T : Type} [LE T] (x a : T) (l : List T) : Prop := x ∈ a :: l ∧ ∀ y ∈ a :: l, x ≤ y

/-- `x` is the greatest of `a` and the values in `l`. -/
def IsGreatest {T : Type} [LE T] (x a : T) (l : List T) : Prop := x ∈ a :: l ∧ ∀ y ∈ a :: l, y ≤ x

/-- The outcome is that of the main program's call made before, between or after the interrupts' calls. -/
def OneAfterAnother {T : Type} [LT T] [DecidableLT T] (m : Meter T) (main : Op T) (isr : List (Op T)) (out : Meter T) :
    Prop :=
  ∃ before after, isr = before ++ after ∧ out = calls (call (calls m before) main) after

end MeterIsrSpec
