/-! # Specification: blocks, and rounding up -/
namespace Alloc.Spec

/-- A block of memory: first byte and number of bytes. -/
structure Block where
  start : Nat
  size : Nat
  deriving DecidableEq, Repr

/-- Byte `x` belongs to the block. -/
def Block.has (b : Block) (x : Nat) : Prop := b.start ≤ x ∧ x < b.start + b.size

/-- `r` is the least multiple of `a` that is at least `x`. -/
def IsRoundUp (a x r : Nat) : Prop := a ∣ r ∧ x ≤ r ∧ ∀ m, a ∣ m → x ≤ m → r ≤ m

def total (l : List Block) : Nat := (l.map (·.size)).sum

end Alloc.Spec
