import Verif.Model.Color
/-! # Specification: colours close to each other -/
namespace Color

/-- No channel differs by more than `k`. -/
def Near (k : Nat) (c d : Color) : Prop :=
  (c.r ≤ d.r + k ∧ d.r ≤ c.r + k) ∧ (c.g ≤ d.g + k ∧ d.g ≤ c.g + k) ∧ (c.b ≤ d.b + k ∧ d.b ≤ c.b + k)

instance (k : Nat) (c d : Color) : Decidable (Near k c d) := by unfold Near; infer_instance

/-- No channel of `c` is brighter. -/
def Darker (c d : Color) : Prop := c.r ≤ d.r ∧ c.g ≤ d.g ∧ c.b ≤ d.b

instance (c d : Color) : Decidable (Darker c d) := by unfold Darker; infer_instance

end Color
