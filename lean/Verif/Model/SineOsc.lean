import Verif.Model.MathFns
import Verif.Model.Oscs
/-!
# util/oscs.hh: SineOscillator

Floating-point operations are rounded by `rnd` (see `Verif/Flt.lean`); `id` is exact arithmetic. The state is that of the phase accumulator (oscs.hh:170).
-/

namespace SineOsc
open InterpArray

/-- `InterpArray<float, Size>::interp_wrap`: interp_array.hh:25-35, 51-54, with rounding; the table holds floats. -/
def interpWrapR (rnd : ℚ → ℚ) (data : List ℚ) (phase : ℚ) : R ℚ := do
  let index := rnd (phase * rnd data.length)
  let idx0 ← Color.trunc 4294967296 index
  let ph := rnd (index - rnd idx0)
  let i0 := wrapIdx data.length idx0
  let i1 := if i0 = data.length - 1 then 0 else i0 + 1
  let d1 ← arrGet data i1
  let d0 ← arrGet data i0
  .ok (rnd (rnd (d1 * ph) + rnd (d0 * rnd (1 - ph))))

/-- `PhaseAccum::process_float`: oscs.hh:110-112, 123 (`_to_float_convert`), with rounding. -/
def processFloatR (rnd : ℚ → ℚ) (s : Oscs.Accum) : Oscs.Accum × ℚ := (s.process.1, rnd (rnd s.process.2 * rnd (1 / rnd 4294967295)))

/-- The sine table as floats: math_tables.cc:2-231. -/
def sinTableR (rnd : ℚ → ℚ) : List ℚ := MathTables.sinTable.map rnd

/-- `SineOscillator(uint32_t freq)`: oscs.hh:135-137. -/
def ofFreq (rate freq : Nat) : Oscs.Accum := Oscs.Accum.ofFreq rate freq
/-- `SineOscillator()`: oscs.hh:138. -/
def init : Oscs.Accum := Oscs.Accum.init
/-- `update`: oscs.hh:140-142. -/
def update (s : Oscs.Accum) : Oscs.Accum := s.update
/-- `process_bipolar`: oscs.hh:148-150. -/
def processBipolar (rnd : ℚ → ℚ) (s : Oscs.Accum) : R (Oscs.Accum × ℚ) := do
  let v ← interpWrapR rnd (sinTableR rnd) (processFloatR rnd s).2
  .ok ((processFloatR rnd s).1, v)
/-- `process_unipolar`: oscs.hh:153-155. -/
def processUnipolar (rnd : ℚ → ℚ) (s : Oscs.Accum) : R (Oscs.Accum × ℚ) := do
  let r ← processBipolar rnd s
  .ok (r.1, rnd (rnd (r.2 * (1 / 2)) + 1 / 2))
/-- `process`: oscs.hh:158-160, 172 (`_to_u32_convert`). -/
def process (rnd : ℚ → ℚ) (s : Oscs.Accum) : R (Oscs.Accum × Nat) := do
  let r ← processUnipolar rnd s
  let n ← Color.trunc 4294967296 (rnd (r.2 * 4294967040))
  .ok (r.1, n)
/-- `val`: oscs.hh:143-145. -/
def val (rnd : ℚ → ℚ) (s : Oscs.Accum) : R (Oscs.Accum × Nat) := process rnd s
/-- `set_frequency`: oscs.hh:162-164. -/
def setFreq (rate : Nat) (s : Oscs.Accum) (freq : Nat) : Oscs.Accum := s.setFreq rate freq
/-- `set_phase`: oscs.hh:165-167. -/
def setPhase (s : Oscs.Accum) (phase : Nat) : Oscs.Accum := s.setPhase phase

end SineOsc
