import Verif.Model.SineOsc
/-!
# Oscillators, one-shots and LED animations with rounded arithmetic: util/oscs.hh, util/rgbled.hh

Every floating-point operation, and every conversion of an integer to float, is rounded by `rnd` (see `Verif/Flt.lean`); `id` is exact arithmetic. Infinities are not
modelled. `PhaseAccum::process_float` is `SineOsc.processFloatR`. `rate` is the template parameter `UpdateRateHz` (positive).
-/

namespace OscsFloat
open Oscs

/-- `TriangleOscillator::process_float`: oscs.hh:53-55. -/
def triProcessFloat (rnd : ℚ → ℚ) (t : Tri) : Tri × ℚ := (t.process.1, rnd (rnd t.process.2 / rnd 4294967295))

/-- `TriangleOscillator::set_frequency(float)`: oscs.hh:73-75; converting a float outside the range of `uint32_t` is undefined. -/
def triSetFreqF (rnd : ℚ → ℚ) (rate : Nat) (t : Tri) (freq : ℚ) : R Tri := do
  let i ← Color.trunc W (rnd (freq * rnd (freqUnits rate)))
  .ok { t with inc := i }

/-- `DownCounter::set_period_ms`: oscs.hh:199-201; division by zero gives infinity, whose conversion is undefined. -/
def downSetPeriodMs (rnd : ℚ → ℚ) (rate : Nat) (d : Down) (ms : Nat) : R Down := do
  if ms = 0 then .ub
  else
    let i ← Color.trunc W (rnd (rnd (freqUnits rate) / rnd (rnd ms / 1000)))
    .ok { d with inc := i }

/-- `OneShot(update_rate_hz)`: oscs.hh:215-218. -/
def oneShot (rnd : ℚ → ℚ) (rate : ℚ) : OneShot := ⟨rnd (1 / rate), 0⟩

/-- `OneShot::update`: oscs.hh:225-231. -/
def update (rnd : ℚ → ℚ) (o : OneShot) : OneShot × Bool := if o.width > 0 then ({ o with width := rnd (o.width - o.inc) }, true) else (o, false)

/-- `OneShot::set_update_rate_hz`: oscs.hh:237-240. -/
def setRate (rnd : ℚ → ℚ) (o : OneShot) (hz : ℚ) : OneShot := if hz > 0 then { o with inc := rnd (1 / hz) } else o

/-- `n` calls of `OneShot::update`, with their results (oscs.hh:214-245). -/
def run (rnd : ℚ → ℚ) : Nat → OneShot → OneShot × List Bool
  | 0, o => (o, [])
  | n + 1, o => let (o', b) := update rnd o; let (o'', l) := run rnd n o'; (o'', b :: l)

/-- `MixedRgbLed::flash_once_ms`: rgbled.hh:31-37; `1000.f / ms` (infinite for 0) is converted to the `uint32_t` argument of `set_frequency`. -/
def flashOnceMs (rnd : ℚ → ℚ) (rate : Nat) (l : RgbLed) (c : Color) (ms : ℚ) : R RgbLed := do
  if ms = 0 then .ub
  else
    let f ← Color.trunc W (rnd (1000 / ms))
    .ok { l with flashCol := c, flasher := l.flasher.reset.setFreq rate f, smooth := false }

/-- `MixedRgbLed::fade_once_ms`: rgbled.hh:39-42. -/
def fadeOnceMs (rnd : ℚ → ℚ) (rate : Nat) (l : RgbLed) (c : Color) (ms : ℚ) : R RgbLed := do
  let l ← flashOnceMs rnd rate l c ms
  .ok { l with smooth := true }

/-- `MixedRgbLed::breathe`: rgbled.hh:46-49. -/
def breathe (rnd : ℚ → ℚ) (rate : Nat) (l : RgbLed) (c : Color) (freq : ℚ) : R RgbLed := do
  let f ← triSetFreqF rnd rate l.fader freq
  .ok { l with breatheCol := c, fader := f }

end OscsFloat
