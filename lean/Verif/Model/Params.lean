import Verif.Basic
import Mathlib.Algebra.Order.Field.Rat
import Mathlib.Data.Rat.Defs
import Mathlib.Logic.Function.Iterate
/-!
# Interpolated parameters, change detection, meters

util/interp_param.hh, util/filtered_interp_array.hh, util/parameter.hh, util/analyzed_signal.hh. Floating-point values are exact rationals.
-/

/-- `InterpParam<float, n>`: interp_param.hh:3-29. -/
structure InterpParam where
  cur : ℚ
  step : ℚ

namespace InterpParam
/-- Constructor: interp_param.hh:5-9. -/
def init : InterpParam := ⟨0, 0⟩
/-- `set_new_value`: interp_param.hh:11-14 (`n` is a positive template parameter). -/
def setNew (n : Nat) (p : InterpParam) (v : ℚ) : InterpParam := { p with step := (v - p.cur) / n }
/-- `next`; the returned value is the new `cur`: interp_param.hh:16-19. -/
def next (p : InterpParam) : InterpParam := { p with cur := p.cur + p.step }
end InterpParam

/-- `InterpParam<int, n>`: interp_param.hh:3-29, integers without overflow (a simplification: the values are unbounded). -/
structure InterpParamInt where
  cur : Int
  step : Int

namespace InterpParamInt
/-- `set_new_value`: interp_param.hh:11-14; C++ division truncates. -/
def setNew (n : Nat) (p : InterpParamInt) (v : Int) : InterpParamInt := { p with step := (v - p.cur).tdiv n }
/-- `next`: interp_param.hh:16-19. -/
def next (p : InterpParamInt) : InterpParamInt := { p with cur := p.cur + p.step }
end InterpParamInt

/-- `InterpParamVar<float>`: interp_param.hh:31-65. -/
structure InterpParamVar where
  cur : ℚ
  target : ℚ
  step : ℚ

namespace InterpParamVar
/-- Constructor: interp_param.hh:33-37. -/
def init : InterpParamVar := ⟨0, 0, 0⟩
/-- `set_new_value`: interp_param.hh:39-45. -/
def setNew (p : InterpParamVar) (v : ℚ) (n : Nat) : InterpParamVar :=
  let p := { p with target := v }
  if n > 0 then { p with step := (v - p.cur) / n } else p
/-- `next`: interp_param.hh:47-50. -/
def next (p : InterpParamVar) : InterpParamVar := { p with cur := p.cur + p.step }
/-- `snap_to_target`: interp_param.hh:56-59. -/
def snap (p : InterpParamVar) : InterpParamVar := { p with cur := p.target }
end InterpParamVar

/-- `InterpParamVariable<float>`: interp_param.hh:67-105. -/
structure InterpParamVariable where
  cur : ℚ
  target : ℚ
  step : ℚ
  num : Nat

namespace InterpParamVariable
/-- Constructor: interp_param.hh:69-74. -/
def init (n : Nat := 256) : InterpParamVariable := ⟨0, 0, 0, n⟩
/-- `set_new_value`: interp_param.hh:76-80; with 0 updates a division by zero. -/
def setNew (p : InterpParamVariable) (v : ℚ) : R InterpParamVariable :=
  if p.num = 0 then .ub else .ok { p with target := v, step := (v - p.cur) / p.num }
/-- `next`: interp_param.hh:82-85. -/
def next (p : InterpParamVariable) : InterpParamVariable := { p with cur := p.cur + p.step }
/-- `set_num_updates`: interp_param.hh:91-93. -/
def setNum (p : InterpParamVariable) (n : Nat) : InterpParamVariable := { p with num := n }
end InterpParamVariable

/-- `FilteredInterpArray<N, Filter, float>`: filtered_interp_array.hh:16-72. Arrays of N elements are functions of the index, so that the loops over all channels, whose iterations are independent,
are pointwise. `_new_data_ready` is set from another thread (an interrupt); every call is one step. -/
structure FilteredInterp (N : Nat) (φ : Type) where
  interps : Fin N → InterpParamVar
  filters : Fin N → φ
  ready : Bool
  count : Nat
  num : Nat

namespace FilteredInterp
variable {N : Nat} {φ : Type}

/-- Initial state: filtered_interp_array.hh:67-71. -/
def init (f : φ) : FilteredInterp N φ := ⟨fun _ => .init, fun _ => f, false, 0, 256⟩

/-- `mark_new_data_ready`: filtered_interp_array.hh:20-22. -/
def mark (s : FilteredInterp N φ) : FilteredInterp N φ := { s with ready := true }

/-- `add_new_readings`: filtered_interp_array.hh:27-39; `addVal` is the filter's `add_val`, returning its new state and its output. -/
def add (addVal : φ → ℚ → φ × ℚ) (s : FilteredInterp N φ) (read : Fin N → ℚ) : FilteredInterp N φ :=
  if s.ready then
    let num := if s.count > 0 then s.count else s.num
    { interps := fun i => (s.interps i).setNew (addVal (s.filters i) (read i)).2 num
      filters := fun i => (addVal (s.filters i) (read i)).1
      ready := false, count := 0, num := num }
  else s

/-- `get_interp_values`: filtered_interp_array.hh:43-56; the counter is a 32-bit unsigned. The value written for channel `i` is the new `(interps i).cur`. -/
def get (s : FilteredInterp N φ) : FilteredInterp N φ :=
  let c := (s.count + 1) % 2 ^ 32
  { s with count := c, interps := fun i => if c ≥ s.num then (s.interps i).snap else (s.interps i).next }

/-- The value passed to `output_fn` for channel `i` by the last `get` (filtered_interp_array.hh:18-72). -/
def out (s : FilteredInterp N φ) (i : Fin N) : ℚ := (s.interps i).cur

/-- `set_num_updates`: filtered_interp_array.hh:58-60. -/
def setNum (s : FilteredInterp N φ) (n : Nat) : FilteredInterp N φ := { s with num := n }
end FilteredInterp

/-- `LatchedParam<T, num, den>`: parameter.hh:4-45. -/
structure Latched (α : Type) where
  val : α
  changed : Bool
  deriving DecidableEq

namespace Latched
variable {α : Type}
/-- Initial state: parameter.hh:8-9. -/
def init [Zero α] : Latched α := ⟨0, false⟩
/-- `min_change` of a floating-point LatchedParam: parameter.hh:6. -/
def minChangeF (num den : Nat) : ℚ := num / den
/-- `min_change` of an integer LatchedParam: parameter.hh:6. -/
def minChangeI (num den : Nat) : Int := (num / den : Nat)
/-- `store_changed`: parameter.hh:15-22 with `abs_diff` of math.hh:176-178. `fits` tells whether a difference can be represented (signed integers: otherwise undefined). -/
def store [Sub α] [LinearOrder α] (fits : α → Bool) (minChange : α) (p : Latched α) (x : α) : R (Latched α × Bool) :=
  let d := if x ≥ p.val then x - p.val else p.val - x
  if fits d then .ok (if d ≥ minChange then (⟨x, true⟩, true) else (p, false)) else .ub
/-- `did_change`: parameter.hh:24-30. -/
def didChange (p : Latched α) : Latched α × Bool := if p.changed then ({ p with changed := false }, true) else (p, false)
/-- `operator=(T)`: parameter.hh:32-34. -/
def assign (p : Latched α) (x : α) : Latched α := { p with val := x }
/-- Copy assignment: parameter.hh:36-40. -/
def copyFrom (_p x : Latched α) : Latched α := ⟨x.val, x.changed⟩
end Latched

/-- `Parameter<T>`: parameter.hh:47-90. -/
structure Param (α : Type) where
  cur : α
  changed : Bool

namespace Param
variable {α : Type} [DecidableEq α]
/-- Constructors: parameter.hh:50-56, 88-89. -/
def init (v : α) : Param α := ⟨v, true⟩
/-- `setValue` and `operator=`: parameter.hh:58-63, 83-85. -/
def set (p : Param α) (v : α) : Param α := if v ≠ p.cur then ⟨v, true⟩ else p
/-- `isChanged`: parameter.hh:69-73. -/
def isChanged (p : Param α) : Param α × Bool := ({ p with changed := false }, p.changed)
end Param

/-- `RefParameter<T>` with the variable it refers to: parameter.hh:93-129. -/
structure RefParam (α : Type) where
  ref : α
  last : α

namespace RefParam
variable {α : Type} [DecidableEq α]
/-- Constructor: parameter.hh:96-99. -/
def init [Zero α] (v : α) : RefParam α := ⟨v, 0⟩
/-- `setValue`, or a direct write to the variable: parameter.hh:101-103, 122-124. -/
def set (p : RefParam α) (v : α) : RefParam α := { p with ref := v }
/-- `isChanged`: parameter.hh:106-112. -/
def isChanged (p : RefParam α) : RefParam α × Bool := if p.ref = p.last then (p, false) else ({ p with last := p.ref }, true)
end RefParam

/-- `PeakMeter<T>`: analyzed_signal.hh:42-60. -/
structure Peak (α : Type) where
  min : α
  max : α
  deriving DecidableEq

namespace Peak
variable {α : Type} [LinearOrder α]
/-- Initial state and `reset`, with the limits `numeric_limits<T>::min()` and `max()`: analyzed_signal.hh:46-47, 56-59. -/
def init (limMin limMax : α) : Peak α := ⟨limMax, limMin⟩
/-- `update`: analyzed_signal.hh:49-54. -/
def update (p : Peak α) (v : α) : Peak α :=
  let p := if v < p.min then { p with min := v } else p
  if v > p.max then { p with max := v } else p
end Peak

/-- `numeric_limits<float>::max()`: (2 - 2^-23) * 2^127 (analyzed_signal.hh:10, 46, 57). -/
def fltMax : ℚ := (2 ^ 24 - 1) * 2 ^ 104
/-- `numeric_limits<float>::min()`: the least positive normal value 2^-126 (analyzed_signal.hh:11, 47, 58). -/
def fltMin : ℚ := 1 / 2 ^ 126

/-- `AnalyzedSig`: analyzed_signal.hh:5-33. -/
structure Analyzed where
  min : ℚ
  max : ℚ
  avg : ℚ
  iir : ℚ
  coef : ℚ

namespace Analyzed
/-- Constructor: analyzed_signal.hh:6-13. -/
def init (c : ℚ) : Analyzed := ⟨fltMax, fltMin, 0, 0, c⟩
/-- `AnalyzedSignal<k>`: analyzed_signal.hh:35-40. -/
def initInt (k : Nat) : Analyzed := init (1 / k)
/-- `update`: analyzed_signal.hh:15-22. -/
def update (s : Analyzed) (v : ℚ) : Analyzed :=
  let s := if v < s.min then { s with min := v } else s
  let s := if v > s.max then { s with max := v } else s
  let s := { s with iir := s.iir + s.coef * (v - s.iir) }
  { s with avg := s.iir }
/-- `reset_to`: analyzed_signal.hh:24-29. -/
def resetTo (s : Analyzed) (v : ℚ) : Analyzed := { s with avg := v, iir := v, min := v, max := v }
end Analyzed
