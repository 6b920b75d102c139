import Mathlib.Data.Rat.Defs
/-!
# The block of samples that is still being collected

`openBlock size have_ xs`: blocks of `size` samples are collected; `have_` samples of a block are already there when
the samples `xs` come; these of `xs` belong to the block that is not yet full at the end.
-/
namespace FilterIsrSpec

/-- The samples of `xs` after the last full block. -/
def openBlock (size have_ : Nat) (xs : List ℚ) : List ℚ := xs.drop (xs.length - (have_ + xs.length) % size)

end FilterIsrSpec
