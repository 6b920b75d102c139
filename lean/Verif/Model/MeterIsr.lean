/-!
# `PeakMeter`, and `min`/`max` of `AnalyzedSig`, shared with an interrupt (util/analyzed_signal.hh)

A call of the main program is split at its accesses to memory; in the gaps an interrupt makes complete calls.  Samples
are of any type in which `<` is decidable (for `float`: the samples are no NaN).  `hi` and `lo` are what a reset stores:
the largest and smallest (for `float`: smallest positive) value for `PeakMeter`, the given value for `reset_to`.
-/
namespace MeterIsr

/-- `min` and `max`: analyzed_signal.hh:10-11, 46-47. -/
structure Meter (T : Type) where
  min : T
  max : T
  deriving DecidableEq, Repr

/-- A call of an interrupt: `update` (15-22, 49-54), or `reset`/`reset_to` storing these two values (24-29, 56-59). -/
inductive Op (T : Type) where
  | update (v : T)
  | reset (hi lo : T)
  deriving DecidableEq, Repr

variable {T : Type} [LT T] [DecidableLT T]

/-- `update`: analyzed_signal.hh:49-54 (16-19). -/
def update (m : Meter T) (v : T) : Meter T :=
  let m := if v < m.min then { m with min := v } else m
  if m.max < v then { m with max := v } else m

/-- A complete call: analyzed_signal.hh:15-29, 49-59. -/
def call (m : Meter T) : Op T → Meter T
  | .update v => update m v
  | .reset hi lo => ⟨hi, lo⟩

/-- Calls one after another (analyzed_signal.hh:15-29, 49-59). -/
def calls (m : Meter T) (os : List (Op T)) : Meter T := os.foldl call m

/-- `update(v)` by the main program, with the calls `g1` of interrupts between comparing with `min` and storing it, `g2`
before comparing with `max`, `g3` between that and storing it: analyzed_signal.hh:50-53 (16-19). -/
def mainUpdate (m : Meter T) (v : T) (g1 g2 g3 : List (Op T)) : Meter T :=
  let below := decide (v < m.min)
  let m := calls m g1
  let m := if below then { m with min := v } else m
  let m := calls m g2
  let above := decide (m.max < v)
  let m := calls m g3
  if above then { m with max := v } else m

/-- `reset()` or `reset_to()` by the main program, with the calls `g` between storing `min` and `max`:
analyzed_signal.hh:57-58, 27-28. -/
def mainReset (m : Meter T) (hi lo : T) (g : List (Op T)) : Meter T :=
  let m := { m with min := hi }
  let m := calls m g
  { m with max := lo }

end MeterIsr
