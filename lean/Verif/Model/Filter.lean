import Verif.Basic
import Verif.Model.IntMath
import Mathlib.Algebra.Order.Field.Rat
import Mathlib.Data.Rat.Defs
/-!
# Filters

util/filter.hh. The accumulators of the integer filters are `unsigned` (32 bits): natural numbers with arithmetic modulo 2^32. The sample type `T` is
`unsigned`. Float filters are in exact arithmetic (ℚ).
-/

namespace Filter

/-- Number of values of the accumulator type `unsigned`: filter.hh:8, 40, 70. -/
def W : Nat := 4294967296

/-- The conditions of the `static_assert`s: filter.hh:6, 9, 38, 41 (`pow2` false: filter.hh:71, which does not ask for a power of two). -/
def compiles (pow2 : Bool) (size bits : Nat) : Bool := (!pow2 || IntMath.isPowerOf2 size) && decide (IntMath.log2T size + bits ≤ 32)

/-- `MovingAverage`: filter.hh:27-29. -/
structure MovingAverage where
  sum : Nat
  buff : List Nat
  idx : Nat
  deriving DecidableEq, Repr

namespace MovingAverage

/-- Initial state: filter.hh:12, 27-29. -/
def init (size : Nat) : MovingAverage := ⟨0, List.replicate size 0, 0⟩

/-- `val`: filter.hh:21-23, 26. -/
def val (size : Nat) (m : MovingAverage) : Nat := m.sum >>> IntMath.log2T size

/-- `add_val` (with `inc_index`): filter.hh:14-20, 31-33; `size` is the template parameter `Size`. -/
def addVal (size : Nat) (m : MovingAverage) (x : Nat) : R (MovingAverage × Nat) := do
  let old ← arrGet m.buff m.idx
  let sum := (m.sum + W - old) % W
  let buff ← arrSet m.buff m.idx x
  let sum := (sum + x) % W
  let m' : MovingAverage := ⟨sum, buff, (m.idx + 1) &&& (size - 1)⟩
  .ok (m', m'.sum >>> IntMath.log2T size)

/-- A sequence of `add_val` calls, with the values returned (filter.hh:5-34). -/
def run (size : Nat) : List Nat → MovingAverage → R (MovingAverage × List Nat)
  | [], m => .ok (m, [])
  | x :: xs, m => do
    let (m, v) ← addVal size m x
    let (m, vs) ← run size xs m
    .ok (m, v :: vs)

end MovingAverage

/-- `Oversampler`: filter.hh:61-63. -/
structure Oversampler where
  buff : Nat
  value : Nat
  idx : Nat
  deriving DecidableEq, Repr

namespace Oversampler

/-- Initial state: filter.hh:44, 61-63. -/
def init : Oversampler := ⟨0, 0, 0⟩

/-- `add_val`: filter.hh:46-54. -/
def addVal (size : Nat) (o : Oversampler) (x : Nat) : Oversampler :=
  let buff := (o.buff + x) % W
  if o.idx + 1 ≥ size then ⟨0, buff >>> IntMath.log2T size, 0⟩ else ⟨buff, o.value, o.idx + 1⟩

/-- `val`, and the value returned by `add_val`: filter.hh:53, 55-57. -/
def val (o : Oversampler) : Nat := o.value

end Oversampler

/-- `SmoothOversampler`: filter.hh:90-92. -/
structure Smooth where
  buff : Nat
  value : ℚ
  idx : Nat

namespace Smooth

/-- Initial state: filter.hh:74, 90-92. -/
def init : Smooth := ⟨0, 0, 0⟩

/-- `add_val`: filter.hh:76-84; the quotient is exact here, a float there. -/
def addVal (size : Nat) (o : Smooth) (x : Nat) : Smooth :=
  let buff := (o.buff + x) % W
  if o.idx + 1 ≥ size then ⟨0, (buff : ℚ) / size, 0⟩ else ⟨buff, o.value, o.idx + 1⟩

/-- `val`: filter.hh:83, 85-87. -/
def val (o : Smooth) : ℚ := o.value

end Smooth

/-- `ResizingOversampler`: filter.hh:140-143. -/
structure Resizing where
  buff : ℚ
  value : ℚ
  idx : Nat
  size : Nat

namespace Resizing

/-- `ResizingOversampler()`: filter.hh:97, 140-143. -/
def init : Resizing := ⟨0, 0, 0, 1⟩
/-- `ResizingOversampler(size)`: filter.hh:98-100. -/
def ofSize (size : Nat) : Resizing := ⟨0, 0, 0, size⟩

/-- `set_size`: filter.hh:102-109. `buff_ / 0.f` (0/0, not a number) is represented as `ub`. -/
def setSize (o : Resizing) (n : Nat) : R Resizing :=
  if o.idx ≥ n then
    if o.idx = 0 then .ub else .ok ⟨0, o.buff / o.idx, 0, n⟩
  else .ok { o with size := n }

/-- `add_val`: filter.hh:111-119. A division by a size of 0 is represented as `ub`. -/
def addVal (o : Resizing) (x : ℚ) : R Resizing :=
  if o.idx + 1 ≥ o.size then
    if o.size = 0 then .ub else .ok ⟨0, (o.buff + x) / o.size, 0, o.size⟩
  else .ok ⟨o.buff + x, o.value, o.idx + 1, o.size⟩

/-- `val`: filter.hh:118, 121-123. -/
def val (o : Resizing) : ℚ := o.value

/-- `reset`: filter.hh:125-129. -/
def reset (o : Resizing) : Resizing := { o with buff := 0, value := 0, idx := 0 }

/-- `operator=`: filter.hh:131-137. -/
def assign (_this that : Resizing) : Resizing := ⟨that.buff, that.value, that.idx, that.size⟩

end Resizing

/-- `TransferQuadratic<Divisor>::Process`: filter.hh:167-173. -/
def quadratic (divisor : Nat) (x : ℚ) : ℚ := |x| * x * (1 / divisor)

/-- `std::clamp` (filter.hh:146-182). -/
def clampQ (x lo hi : ℚ) : ℚ := if x < lo then lo else if hi < x then hi else x

/-- `TransferHysteresis<Numerator, Divisor>::Process`: filter.hh:175-181. -/
def hysteresis (num div : Nat) (x : ℚ) : ℚ := x - clampQ x (-((num : ℚ) / div)) ((num : ℚ) / div)

/-- `NonLinearOnePoleLp::add_val` (`T` = float); the state is its only member: filter.hh:146-165. -/
def onePole (transfer : ℚ → ℚ) (state input : ℚ) : ℚ := state + transfer (input - state)

/-- The interface of a filter as used by `CascadingFilter`: state, initial value, `add_val` (new state, value returned), `val` (new state, value returned) (filter.hh:209-221). -/
structure F (α : Type) where
  S : Type
  init : S
  add : S → α → S × α
  val : S → S × α

/-- `NoFilter`: filter.hh:189-204. -/
def noFilter (α : Type) (zero : α) : F α := ⟨α, zero, fun _ x => (x, x), fun s => (s, s)⟩

/-- `CascadingFilter`: filter.hh:208-221. -/
def cascade (f1 f2 : F α) : F α where
  S := f1.S × f2.S
  init := (f1.init, f2.init)
  add := fun s x => let r := f1.add s.1 x; ((r.1, s.2), r.2)
  val := fun s => let r1 := f1.val s.1; let r2 := f2.add s.2 r1.2; ((r1.1, r2.1), r2.2)

end Filter
