import Verif.Model.Filter
import Verif.Model.ParamsInt
/-!
# Integer filters with a sample type other than `unsigned`

util/filter.hh, for any integer type `T` of at most 32 bits (ParamsInt.Ty). The accumulator is `unsigned` whatever the sample type is: sums are taken modulo 2^32, the shift is logical, and the result is converted to `T`.
-/
namespace FilterInt
open ParamsInt

/-- `MovingAverage<Size, T>`: filter.hh:27-29. -/
structure MovingAverage where
  sum : Int
  buff : List Int
  idx : Nat
  deriving DecidableEq, Repr

/-- Initial state: filter.hh:12, 27-29. -/
def MovingAverage.init (size : Nat) : MovingAverage := ⟨0, List.replicate size 0, 0⟩

/-- `sum_ >> oversample_shift_`, converted to `T`: filter.hh:19, 22, 26, 49, 60. -/
def shifted (t : Ty) (size : Nat) (sum : Int) : Int := conv t ((sum.toNat >>> IntMath.log2T size : Nat) : Int)

/-- `val`: filter.hh:21-23. -/
def MovingAverage.val (t : Ty) (size : Nat) (m : MovingAverage) : Int := shifted t size m.sum

/-- `add_val` (with `inc_index`): filter.hh:14-20, 31-33. -/
def MovingAverage.addVal (t : Ty) (size : Nat) (m : MovingAverage) (x : Int) : R (MovingAverage × Int) := do
  let old ← arrGet m.buff m.idx
  let sum := (m.sum - old) % 4294967296
  let buff ← arrSet m.buff m.idx x
  let sum := (sum + x) % 4294967296
  let m' : MovingAverage := ⟨sum, buff, (m.idx + 1) &&& (size - 1)⟩
  .ok (m', shifted t size m'.sum)

/-- A sequence of `add_val` calls, with the values returned (filter.hh:5-34). -/
def MovingAverage.run (t : Ty) (size : Nat) : List Int → MovingAverage → R (MovingAverage × List Int)
  | [], m => .ok (m, [])
  | x :: xs, m => do
    let (m, v) ← m.addVal t size x
    let (m, vs) ← run t size xs m
    .ok (m, v :: vs)

/-- `Oversampler<Size, T>`: filter.hh:61-63. -/
structure Oversampler where
  buff : Int
  value : Int
  idx : Nat
  deriving DecidableEq, Repr

/-- Initial state: filter.hh:44, 61-63. -/
def Oversampler.init : Oversampler := ⟨0, 0, 0⟩

/-- `add_val`; the value returned is the new `val_`: filter.hh:46-54. -/
def Oversampler.addVal (t : Ty) (size : Nat) (o : Oversampler) (x : Int) : Oversampler :=
  let buff := (o.buff + x) % 4294967296
  if o.idx + 1 ≥ size then ⟨0, shifted t size buff, 0⟩ else ⟨buff, o.value, o.idx + 1⟩

/-- `SmoothOversampler<Size, T>`: filter.hh:90-92. -/
structure Smooth where
  buff : Int
  value : ℚ
  idx : Nat
  deriving DecidableEq, Repr

/-- Initial state: filter.hh:74, 90-92. -/
def Smooth.init : Smooth := ⟨0, 0, 0⟩

/-- `add_val`: filter.hh:76-84; the quotient is exact here, a float there. -/
def Smooth.addVal (size : Nat) (o : Smooth) (x : Int) : Smooth :=
  let buff := (o.buff + x) % 4294967296
  if o.idx + 1 ≥ size then ⟨0, (buff : ℚ) / size, 0⟩ else ⟨buff, o.value, o.idx + 1⟩

end FilterInt
