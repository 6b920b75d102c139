import Mathlib.Algebra.Order.Field.Rat
/-! # Specification of the filters -/

namespace Filter.Spec

/-- The last `n` samples, samples before the first one counting as 0. -/
def lastN (n : Nat) (xs : List Nat) : List Nat := (List.replicate n 0 ++ xs).drop xs.length

/-- The last complete block of `n` samples, where blocks start at multiples of `n`. -/
def lastBlock (n : Nat) (xs : List α) : List α := (xs.drop ((xs.length / n - 1) * n)).take n

/-- Mean of a list of rationals. -/
def mean (l : List ℚ) : ℚ := l.sum / l.length

/-- `x` lies between `a` and `b`. -/
def Between (a b x : ℚ) : Prop := min a b ≤ x ∧ x ≤ max a b

/-- Resizable block averaging, on the samples themselves: `cur` is the unfinished block, `out` the mean of the last finished one. -/
structure Blocks where
  cur : List ℚ
  out : ℚ
  size : Nat

/-- Operations on a resizing oversampler. -/
inductive Op where
  | setSize (n : Nat)
  | add (x : ℚ)
  | reset

/-- A block is finished as soon as it has `size` samples (or more, when the size was reduced); the output is then its mean. -/
def Blocks.finish (b : Blocks) : Blocks := if b.size ≤ b.cur.length then { b with cur := [], out := mean b.cur } else b

/-- One operation. -/
def Blocks.step (b : Blocks) : Op → Blocks
  | .setSize n => ({ b with size := n } : Blocks).finish
  | .add x => ({ b with cur := b.cur ++ [x] } : Blocks).finish
  | .reset => { b with cur := [], out := 0 }

end Filter.Spec
