import Verif.Model.FilterFloat
import Verif.Model.MathFloat
import Verif.XFlt
/-!
# Filters and analysers of floats for every float, including infinities and NaN (util/filter.hh, util/analyzed_signal.hh)
-/
namespace XFilter
open XFlt

/-- `TransferQuadratic<Divisor>::Process`: filter.hh:167-173. -/
def quadratic (rnd : ℚ → ℚ) (divisor : Nat) (x : XF) : XF :=
  let fact := div rnd (.fin 1) (ofQ rnd divisor)
  mul rnd (mul rnd (XFlt.abs x) x) fact

/-- `std::clamp`: as used in filter.hh:179. -/
def clamp (v lo hi : XF) : XF := if lt v lo then lo else if lt hi v then hi else v

/-- `TransferHysteresis<Numerator, Divisor>::Process`: filter.hh:175-181. -/
def hysteresis (rnd : ℚ → ℚ) (num dv : Nat) (x : XF) : XF :=
  let flat := div rnd (ofQ rnd num) (ofQ rnd dv)
  sub rnd x (clamp x (neg flat) flat)

/-- `NonLinearOnePoleLp::add_val` (`T` = float); the state is its only member: filter.hh:146-165. -/
def onePole (rnd : ℚ → ℚ) (transfer : XF → XF) (state input : XF) : XF := add rnd state (transfer (sub rnd input state))

/-- `ResizingOversampler`: filter.hh:96, 140-143. -/
structure Over where
  buff : XF
  val : XF
  idx : Nat
  size : Nat
  deriving DecidableEq

/-- `ResizingOversampler(size)`: filter.hh:98-100, 140-143. -/
def Over.init (size : Nat) : Over := ⟨.fin 0, .fin 0, 0, size⟩

/-- `add_val`: filter.hh:111-119. -/
def Over.addVal (rnd : ℚ → ℚ) (o : Over) (x : XF) : Over :=
  let o := { o with buff := add rnd o.buff x, idx := (o.idx + 1) % 2 ^ 32 }
  if o.idx ≥ o.size then { o with val := div rnd o.buff (ofQ rnd o.size), idx := 0, buff := .fin 0 } else o

/-- `set_size`: filter.hh:102-109. A zero divisor is positive. -/
def Over.setSize (rnd : ℚ → ℚ) (o : Over) (n : Nat) : Over :=
  let o := if o.idx ≥ n then { o with val := div rnd o.buff (ofQ rnd o.idx), idx := 0, buff := .fin 0 } else o
  { o with size := n }

/-- `reset`: filter.hh:125-129. -/
def Over.reset (o : Over) : Over := { o with buff := .fin 0, val := .fin 0, idx := 0 }

/-- `AnalyzedSig`: analyzed_signal.hh:5-33. -/
structure Analyzed where
  min : XF
  max : XF
  avg : XF
  iir : XF
  coef : XF
  deriving DecidableEq

/-- `update`: analyzed_signal.hh:15-22. -/
def Analyzed.update (rnd : ℚ → ℚ) (s : Analyzed) (v : XF) : Analyzed :=
  let s := if lt v s.min then { s with min := v } else s
  let s := if lt s.max v then { s with max := v } else s
  let s := { s with iir := add rnd s.iir (mul rnd s.coef (sub rnd v s.iir)) }
  { s with avg := s.iir }

/-- `reset_to`: analyzed_signal.hh:24-29. -/
def Analyzed.resetTo (s : Analyzed) (v : XF) : Analyzed := { s with avg := v, iir := v, min := v, max := v }

/-- `PeakMeter<float>`: analyzed_signal.hh:42-60. -/
structure Peak where
  min : XF
  max : XF
  deriving DecidableEq

/-- `reset` (and the initial state): analyzed_signal.hh:46-47, 56-59. -/
def Peak.init : Peak := ⟨.fin maxF, .fin (1 / 2 ^ 126)⟩

/-- `update`: analyzed_signal.hh:49-54. -/
def Peak.update (s : Peak) (v : XF) : Peak :=
  let s := if lt v s.min then { s with min := v } else s
  if lt s.max v then { s with max := v } else s

end XFilter
