import Verif.Model.IntMath
/-! # Specification of the integer functions -/

namespace IntMath.Spec

/-- A power of two. -/
def IsPow2 (v : Nat) : Prop := ∃ k : Nat, v = 2 ^ k

/-- `r` is the least power of two that is at least `v`. -/
def LeastPow2 (v r : Nat) : Prop := IsPow2 r ∧ v ≤ r ∧ ∀ p, IsPow2 p → v ≤ p → r ≤ p

/-- Clamping. -/
def clamp (lo hi v : Int) : Int := if v < lo then lo else if hi < v then hi else v

/-- A signed type of `w` bits represents `v`. -/
def fitsSigned (w : Nat) (v : Int) : Prop := -2 ^ (w - 1) ≤ v ∧ v < 2 ^ (w - 1)

/-- An unsigned type of `w` bits represents `v`. -/
def fitsUnsigned (w : Nat) (v : Nat) : Prop := v < 2 ^ w

end IntMath.Spec
