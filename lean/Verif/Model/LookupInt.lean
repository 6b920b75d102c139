import Verif.Mem
import Verif.Model.ParamsInt
/-!
# `LookupTable` of integers (util/lookup_table.hh)

`LookupTable<NumPoints, T>` for an integer type `T`. `S` is the width of `std::size_t` (32 or 64). Types narrower than `int` are promoted to `int` (32 bits).
-/
namespace LookupInt
open ParamsInt

/-- The type in which an expression of two `T`s is computed (`int` for narrower types): lookup_table.hh:47, 58. -/
def prom (t : Ty) : Ty := if t.w < 32 then ⟨32, true⟩ else t

/-- An arithmetic result in the promoted type: undefined if that is signed and the result is out of range (lookup_table.hh:47, 58). -/
def arith (t : Ty) (x : Int) : R Int := op (prom t) x

/-- A value `q` of the promoted type times `NumPoints - 1`, a `size_t`: unsigned if `size_t` is at least as wide, else in the type of `q`: lookup_table.hh:47. -/
def timesSize (S : Nat) (t : Ty) (q : Int) (n : Nat) : R Int :=
  if (prom t).w ≤ S then .ok (q * n % 2 ^ S) else op (prom t) (q * n)

/-- `idx`: lookup_table.hh:47. Division by zero is undefined. -/
def index (S : Nat) (t : Ty) (N : Nat) (min max val : Int) : R Int := do
  let a ← arith t (val - min)
  let b ← arith t (max - min)
  if b = 0 then .ub
  else
    let q ← arith t (a.tdiv b)
    let x ← timesSize S t q (N - 1)
    .ok (conv t x)

/-- `lookup`, `operator()`: lookup_table.hh:46-64. In the last branch `phase` is `idx - uint32_t(idx)` (56), converted to `T`. -/
def lookup (S : Nat) (t : Ty) (points : List Int) (min max val : Int) : R Int := do
  let idx ← index S t points.length min max val
  if idx ≤ 0 then arrGet points 0
  else if (points.length : Int) - 1 ≤ idx then arrGet points (points.length - 1)
  else
    let lowerIdx : Nat := (idx % 2 ^ 32).toNat
    let phase := conv t (idx - (lowerIdx : Int))
    let lower ← arrGet points lowerIdx
    let upper ← arrGet points (lowerIdx + 1)
    let d ← arith t (upper - lower)
    let m ← arith t (phase * d)
    let r ← arith t (lower + m)
    .ok (conv t r)

end LookupInt
