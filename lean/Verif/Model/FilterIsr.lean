import Verif.Model.Filter
import Verif.Model.ReadIsr
/-!
# Filters shared with an interrupt

First: the main program adds samples, an interrupt reads `val()`.  A call is the list of the states after each of its
stores, in program order.  Second: an interrupt adds samples (each call complete), the main program calls `reset` or
`set_size`; a list of samples stands for each moment at which interrupts may come.  The members are ordinary variables;
that the compiler keeps their stores in program order is assumed.
-/
namespace FilterIsr
open Filter

/-- `MovingAverage::add_val`: filter.hh:14-20, 31-33: the four stores. -/
def avgSteps (size : Nat) (m : MovingAverage) (x : Nat) : R (List MovingAverage) := do
  let old ← arrGet m.buff m.idx
  let s1 : MovingAverage := { m with sum := (m.sum + W - old) % W }
  let buff ← arrSet s1.buff s1.idx x
  let s2 : MovingAverage := { s1 with buff := buff }
  let s3 : MovingAverage := { s2 with sum := (s2.sum + x) % W }
  .ok [s1, s2, s3, { s3 with idx := (s3.idx + 1) &&& (size - 1) }]

/-- `Oversampler::add_val`: filter.hh:46-54. -/
def overSteps (size : Nat) (o : Oversampler) (x : Nat) : List Oversampler :=
  let s1 : Oversampler := { o with buff := (o.buff + x) % W }
  let s2 : Oversampler := { s1 with idx := s1.idx + 1 }
  if s2.idx ≥ size then
    let s3 : Oversampler := { s2 with value := s2.buff >>> IntMath.log2T size }
    let s4 : Oversampler := { s3 with idx := 0 }
    [s1, s2, s3, s4, { s4 with buff := 0 }]
  else [s1, s2]

/-- `SmoothOversampler::add_val`: filter.hh:76-84; exact arithmetic. -/
def smoothSteps (size : Nat) (o : Smooth) (x : Nat) : List Smooth :=
  let s1 : Smooth := { o with buff := (o.buff + x) % W }
  let s2 : Smooth := { s1 with idx := s1.idx + 1 }
  if s2.idx ≥ size then
    let s3 : Smooth := { s2 with value := (s2.buff : ℚ) / size }
    let s4 : Smooth := { s3 with idx := 0 }
    [s1, s2, s3, s4, { s4 with buff := 0 }]
  else [s1, s2]

/-- `ResizingOversampler::reset`: filter.hh:125-129. -/
def resetSteps (o : Resizing) : List Resizing :=
  let s1 : Resizing := { o with buff := 0 }
  let s2 : Resizing := { s1 with value := 0 }
  [s1, s2, { s2 with idx := 0 }]

/-- Interrupts, each of which adds one sample: filter.hh:111-119. -/
def feed (o : Resizing) : List ℚ → R Resizing
  | [] => .ok o
  | x :: xs => do
    let o ← Resizing.addVal o x
    feed o xs

/-- `ResizingOversampler::reset` with interrupts that add `g1` after the store to `buff_` and `g2` after the store to
`val_`: filter.hh:125-129. -/
def resetI (o : Resizing) (g1 g2 : List ℚ) : R Resizing := do
  let o ← feed { o with buff := 0 } g1
  let o ← feed { o with value := 0 } g2
  .ok { o with idx := 0 }

/-- `ResizingOversampler::set_size` with interrupts that add `g0` after the comparison, `g1` after `buff_` has been
loaded, `g2` before `val_` is stored, `g3` before `idx_`, `g4` before `buff_` and `g5` before `size_` is:
filter.hh:102-109. -/
def setSizeI (o : Resizing) (n : Nat) (g0 g1 g2 g3 g4 g5 : List ℚ) : R Resizing :=
  if o.idx ≥ n then do
    let o ← feed o g0
    let b := o.buff
    let o ← feed o g1
    if o.idx = 0 then .ub
    else do
      let q := b / o.idx
      let o ← feed o g2
      let o ← feed { o with value := q } g3
      let o ← feed { o with idx := 0 } g4
      let o ← feed { o with buff := 0 } g5
      .ok { o with size := n }
  else do
    let o ← feed o g0
    .ok { o with size := n }

end FilterIsr
