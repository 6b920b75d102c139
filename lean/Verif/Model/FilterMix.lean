import Verif.Model.Filter
import Verif.Mem
import Verif.Flt
/-!
# Averages of float samples

util/filter.hh: `MovingAverage<Size, float>` and `Oversampler<Size, float>`, whose accumulator is an `unsigned` all the same, and ResizingOversampler, which is all float. `rnd` rounds to binary32. Infinities are not modelled.
-/
namespace FilterMix

/-- Conversion of a float to `unsigned`: truncation; undefined if the truncated value is not in range (filter.hh:15, 17, 47). -/
def toU (q : ℚ) : R Nat := if -1 < q ∧ q < 4294967296 then .ok ⌊q⌋.toNat else .ub

/-- `MovingAverage<Size, float>`: filter.hh:27-29. -/
structure MovingAverage where
  sum : Nat
  buff : List ℚ
  idx : Nat
  deriving DecidableEq

/-- Initial state: filter.hh:12, 27-29. -/
def MovingAverage.init (size : Nat) : MovingAverage := ⟨0, List.replicate size 0, 0⟩

/-- `add_val` (with `inc_index`): filter.hh:14-20, 31-33. The accumulator is converted to float, the difference or sum is taken in float and converted back; the shifted accumulator is converted to float. -/
def MovingAverage.addVal (rnd : ℚ → ℚ) (size : Nat) (m : MovingAverage) (x : ℚ) : R (MovingAverage × ℚ) := do
  let old ← arrGet m.buff m.idx
  let sum ← toU (rnd (rnd m.sum - old))
  let buff ← arrSet m.buff m.idx x
  let sum ← toU (rnd (rnd sum + x))
  .ok (⟨sum, buff, (m.idx + 1) &&& (size - 1)⟩, rnd ((sum >>> IntMath.log2T size : Nat) : ℚ))

/-- A sequence of `add_val` calls, with the values returned (filter.hh:5-34). -/
def MovingAverage.run (rnd : ℚ → ℚ) (size : Nat) : List ℚ → MovingAverage → R (MovingAverage × List ℚ)
  | [], m => .ok (m, [])
  | x :: xs, m => do
    let (m, v) ← m.addVal rnd size x
    let (m, vs) ← run rnd size xs m
    .ok (m, v :: vs)

/-- `Oversampler<Size, float>`: filter.hh:61-63. -/
structure Oversampler where
  buff : Nat
  value : ℚ
  idx : Nat
  deriving DecidableEq

/-- Initial state: filter.hh:44, 61-63. -/
def Oversampler.init : Oversampler := ⟨0, 0, 0⟩

/-- `add_val`; the value returned is the new `val_`: filter.hh:46-54. -/
def Oversampler.addVal (rnd : ℚ → ℚ) (size : Nat) (o : Oversampler) (x : ℚ) : R Oversampler := do
  let buff ← toU (rnd (rnd o.buff + x))
  if o.idx + 1 ≥ size then .ok ⟨0, rnd ((buff >>> IntMath.log2T size : Nat) : ℚ), 0⟩ else .ok ⟨buff, o.value, o.idx + 1⟩

/-- A sequence of `add_val` calls (filter.hh:36-64). -/
def Oversampler.run (rnd : ℚ → ℚ) (size : Nat) : List ℚ → Oversampler → R Oversampler
  | [], o => .ok o
  | x :: xs, o => do let o ← o.addVal rnd size x; run rnd size xs o

/-- `ResizingOversampler::set_size` with rounding: filter.hh:102-109. `buff_ / 0.f` is represented as `ub`. -/
def setSize (rnd : ℚ → ℚ) (o : Filter.Resizing) (n : Nat) : R Filter.Resizing :=
  if o.idx ≥ n then
    if o.idx = 0 then .ub else .ok ⟨0, rnd (o.buff / rnd o.idx), 0, n⟩
  else .ok { o with size := n }

/-- `ResizingOversampler::add_val` with rounding: filter.hh:111-119. A division by a size of 0 is represented as `ub`. -/
def addVal (rnd : ℚ → ℚ) (o : Filter.Resizing) (x : ℚ) : R Filter.Resizing :=
  if o.idx + 1 ≥ o.size then
    if o.size = 0 then .ub else .ok ⟨0, rnd (rnd (o.buff + x) / rnd o.size), 0, o.size⟩
  else .ok ⟨rnd (o.buff + x), o.value, o.idx + 1, o.size⟩

end FilterMix
