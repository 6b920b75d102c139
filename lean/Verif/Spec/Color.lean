import Verif.Model.Color
/-! # Specification of colours -/

namespace Color.Spec

/-- A colour with 8-bit channels. -/
def Valid (c : Color) : Prop := c.r < 256 ∧ c.g < 256 ∧ c.b < 256

/-- Apply a function per channel. -/
def map2 (f : Nat → Nat → Nat) (a b : Color) : Color := ⟨f a.r b.r, f a.g b.g, f a.b b.b⟩

/-- A 16-bit 565 colour with the given fields: rrrrrggggggbbbbb. -/
def pack (r5 g6 b5 : Nat) : Nat := r5 * 2048 + g6 * 32 + b5

/-- `x` lies between `a` and `b`. -/
def Between (a b x : Nat) : Prop := min a b ≤ x ∧ x ≤ max a b

end Color.Spec
