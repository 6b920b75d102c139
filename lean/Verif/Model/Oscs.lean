import Verif.Model.Color
/-!
# Oscillators and the RGB LED animator

util/oscs.hh and util/rgbled.hh. `uint32_t` values are natural numbers below 2^32 with arithmetic modulo 2^32; float values are exact rational
numbers. `rate` is the template parameter `UpdateRateHz` (positive). `SineOscillator` is modelled in `Verif/Model/SineOsc.lean`.
-/

namespace Oscs

/-- 2^32, the number of values of a `uint32_t` (the `uint32_t` members of oscs.hh:29-245). -/
def W : Nat := 4294967296

/-- `freq_units`: oscs.hh:82-83, 122-124, 207-209. -/
def freqUnits (rate : Nat) : Nat := 0xFFFFFFFF / rate

/-- `TriangleOscillator`: oscs.hh:84-85. -/
structure Tri where
  phase : Nat
  inc : Nat
  deriving DecidableEq, Repr

namespace Tri

/-- `TriangleOscillator()`: oscs.hh:33-35, 84. -/
def init : Tri := ⟨0, 0⟩

/-- `TriangleOscillator(uint32_t freq)`: oscs.hh:30-32. -/
def ofFreq (rate freq : Nat) : Tri := ⟨0, freq * freqUnits rate % W⟩

/-- `update`: oscs.hh:37-39. -/
def update (t : Tri) : Tri := { t with phase := (t.phase + t.inc) % W }

/-- `val`: oscs.hh:42-44; `max_ - phase_ * 2` and `phase_ * 2` are `uint32_t` expressions. -/
def val (t : Tri) : Nat :=
  if t.phase > 0xFFFFFFFF / 2 then (0xFFFFFFFF + W - t.phase * 2 % W) % W else t.phase * 2 % W

/-- `process`: oscs.hh:47-50. -/
def process (t : Tri) : Tri × Nat := (t.update, t.update.val)

/-- `process_float`: oscs.hh:53-55. -/
def processFloat (t : Tri) : Tri × ℚ := (t.process.1, (t.process.2 : ℚ) / 4294967295)

/-- `set_period_ms`: oscs.hh:57-59. -/
def setPeriodMs (rate : Nat) (t : Tri) (ms : Nat) : R Tri :=
  if ms / 1000 = 0 then .ub else .ok { t with inc := freqUnits rate / (ms / 1000) }

/-- `set_period_sec`: oscs.hh:60-62. -/
def setPeriodSec (rate : Nat) (t : Tri) (sec : Nat) : R Tri :=
  if sec = 0 then .ub else .ok { t with inc := freqUnits rate / sec }

/-- `set_frequency(uint32_t)`: oscs.hh:65-67. -/
def setFreq (rate : Nat) (t : Tri) (freq : Nat) : Tri := { t with inc := freq * freqUnits rate % W }

/-- `set_frequency(int)`: oscs.hh:69-71; the product is computed in `uint32_t`. -/
def setFreqI (rate : Nat) (t : Tri) (freq : Int) : Tri := { t with inc := ((freq * freqUnits rate) % W).toNat }

/-- `set_frequency(float)`: oscs.hh:73-75; converting a float outside the range of `uint32_t` is undefined. -/
def setFreqF (rate : Nat) (t : Tri) (freq : ℚ) : R Tri := do
  let i ← Color.trunc W (freq * freqUnits rate)
  .ok { t with inc := i }

/-- `set_phase`: oscs.hh:77-79. -/
def setPhase (t : Tri) (phase : Nat) : Tri := { t with phase := phase }

end Tri

/-- `PhaseAccum`: oscs.hh:125-126. -/
structure Accum where
  phase : Nat
  inc : Nat
  deriving DecidableEq, Repr

namespace Accum

/-- `PhaseAccum()`: oscs.hh:94-96. -/
def init : Accum := ⟨0, 0⟩
/-- `PhaseAccum(uint32_t freq)`: oscs.hh:91-93. -/
def ofFreq (rate freq : Nat) : Accum := ⟨0, freq * freqUnits rate % W⟩
/-- `update`: oscs.hh:97-99. -/
def update (t : Accum) : Accum := { t with phase := (t.phase + t.inc) % W }
/-- `val`: oscs.hh:100-102. -/
def val (t : Accum) : Nat := t.phase
/-- `process`, `Process`: oscs.hh:103-109. -/
def process (t : Accum) : Accum × Nat := (t.update, t.update.val)
/-- `process_float`: oscs.hh:110-112, in exact arithmetic. -/
def processFloat (t : Accum) : Accum × ℚ := (t.process.1, (t.process.2 : ℚ) * (1 / 4294967295))
/-- `set_frequency`: oscs.hh:114-116. -/
def setFreq (rate : Nat) (t : Accum) (freq : Nat) : Accum := { t with inc := freq * freqUnits rate % W }
/-- `set_phase`: oscs.hh:117-119. -/
def setPhase (t : Accum) (phase : Nat) : Accum := { t with phase := phase }

end Accum

/-- `DownCounter`: oscs.hh:210-211. -/
structure Down where
  inc : Nat
  phase : Nat
  deriving DecidableEq, Repr

namespace Down

/-- Initial values: oscs.hh:210-211. -/
def init : Down := ⟨0xFFFFFFFF, 0xFFFFFFFF⟩
/-- `reset`: oscs.hh:178-180. -/
def reset (t : Down) : Down := { t with phase := 0xFFFFFFFF }
/-- `update`: oscs.hh:182-190. -/
def update (t : Down) : Down :=
  let p := if t.inc = 0 then 0 else t.phase
  if p > t.inc then { t with phase := p - t.inc } else { t with phase := 0 }
/-- `val`: oscs.hh:192-194. -/
def val (t : Down) : Nat := t.phase
/-- `set_frequency`: oscs.hh:196-198. -/
def setFreq (rate : Nat) (t : Down) (freq : Nat) : Down := { t with inc := freq * freqUnits rate % W }
/-- `set_period_ms`: oscs.hh:199-201; the quotient is a float (division by zero gives infinity), whose conversion to `uint32_t` may be undefined. -/
def setPeriodMs (rate : Nat) (t : Down) (ms : Nat) : R Down := do
  if ms = 0 then .ub
  else
    let i ← Color.trunc W ((freqUnits rate : ℚ) / (ms / 1000))
    .ok { t with inc := i }
/-- `set_phase`: oscs.hh:202-204. -/
def setPhase (t : Down) (phase : Nat) : Down := { t with phase := phase }

end Down

/-- `OneShot`: oscs.hh:243-244. -/
structure OneShot where
  inc : ℚ
  width : ℚ

namespace OneShot

/-- `OneShot(update_rate_hz)`: oscs.hh:215-218. -/
def mk' (rate : ℚ) : OneShot := ⟨1 / rate, 0⟩
/-- `start`: oscs.hh:220-222. -/
def start (o : OneShot) (w : ℚ) : OneShot := { o with width := w }
/-- `update`: oscs.hh:225-231. -/
def update (o : OneShot) : OneShot × Bool := if o.width > 0 then ({ o with width := o.width - o.inc }, true) else (o, false)
/-- `stop`: oscs.hh:233-235. -/
def stop (o : OneShot) : OneShot := { o with width := 0 }
/-- `set_update_rate_hz`: oscs.hh:237-240. -/
def setRate (o : OneShot) (hz : ℚ) : OneShot := if hz > 0 then { o with inc := 1 / hz } else o

/-- `n` calls of `update`, with their results (oscs.hh:214-245). -/
def run : Nat → OneShot → OneShot × List Bool
  | 0, o => (o, [])
  | n + 1, o => let (o', b) := o.update; let (o'', l) := run n o'; (o'', b :: l)

end OneShot
end Oscs

/-- `MixedRgbLed`: rgbled.hh:94-103; the three LED drivers are represented by the colour last passed to them. -/
structure RgbLed where
  fader : Oscs.Tri
  flasher : Oscs.Down
  background : Color
  breatheCol : Color
  flashCol : Color
  smooth : Bool
  cal : Nat × Nat × Nat
  deriving DecidableEq, Repr

namespace RgbLed
open Oscs

/-- `MixedRgbLed()`: rgbled.hh:13, 97-103 (colours off, red, white: colors.hh:145-150). -/
def init : RgbLed := ⟨Tri.init, Down.init, ⟨0, 0, 0⟩, ⟨255, 0, 0⟩, ⟨255, 255, 255⟩, false, (128, 128, 128)⟩

/-- `set_base_color`: rgbled.hh:21-23. -/
def setBase (l : RgbLed) (c : Color) : RgbLed := { l with background := c }
/-- `blend_base_color`: rgbled.hh:24-26. -/
def blendBase (l : RgbLed) (c : Color) : RgbLed := { l with background := l.background.blendHalf c }
/-- `add_base_color` (portable `operator+`): rgbled.hh:27-29. -/
def addBase (l : RgbLed) (c : Color) : RgbLed := { l with background := l.background.add c }

/-- `flash_once_ms`: rgbled.hh:31-37; `1000.f / ms` (infinite for 0) is converted to the `uint32_t` argument of `set_frequency`. -/
def flashOnceMs (rate : Nat) (l : RgbLed) (c : Color) (ms : ℚ) : R RgbLed := do
  if ms = 0 then .ub
  else
    let f ← Color.trunc W (1000 / ms)
    .ok { l with flashCol := c, flasher := l.flasher.reset.setFreq rate f, smooth := false }

/-- `fade_once_ms`: rgbled.hh:39-42. -/
def fadeOnceMs (rate : Nat) (l : RgbLed) (c : Color) (ms : ℚ) : R RgbLed := do
  let l ← flashOnceMs rate l c ms
  .ok { l with smooth := true }

/-- `breathe`: rgbled.hh:46-49. -/
def breathe (rate : Nat) (l : RgbLed) (c : Color) (freq : ℚ) : R RgbLed := do
  let f ← l.fader.setFreqF rate freq
  .ok { l with breatheCol := c, fader := f }

/-- `reset_breathe`: rgbled.hh:51-54. -/
def resetBreathe (rate : Nat) (l : RgbLed) : RgbLed := { l with fader := (l.fader.setFreqI rate 0).setPhase 0 }

/-- `set_color(col)`: rgbled.hh:56-60: the values passed to the three drivers. -/
def setColor (c : Color) : Color := c
/-- `set_color(col, uint8_t)`: rgbled.hh:61-65. -/
def setColor8 (c : Color) (br : Nat) : Color := Color.mk8 ((c.r * br) >>> 8) ((c.g * br) >>> 8) ((c.b * br) >>> 8)
/-- `set_color(col, float)`: rgbled.hh:66-70. -/
def setColorF (c : Color) (br : ℚ) : R Color := do
  let r ← Color.trunc 256 (c.r * br)
  let g ← Color.trunc 256 (c.g * br)
  let b ← Color.trunc 256 (c.b * br)
  .ok (Color.mk8 r g b)
/-- `set_color_calibration`: rgbled.hh:72-74. -/
def setCal (l : RgbLed) (a : Nat × Nat × Nat) : RgbLed := { l with cal := a }
/-- `update_oscillators`: rgbled.hh:76-79. -/
def updateOscillators (l : RgbLed) : RgbLed := { l with fader := l.fader.update, flasher := l.flasher.update }

/-- `update_animation`: rgbled.hh:82-91: the new state and the colour shown. -/
def updateAnimation (l : RgbLed) : RgbLed × Color :=
  let l := l.updateOscillators
  let c := l.background
  let c := if l.flasher.val ≠ 0 then (if l.smooth then c.blend32 l.flashCol l.flasher.val else l.flashCol)
    else if l.fader.val ≠ 0 then c.blend32 l.breatheCol l.fader.val else c
  let c := c.adjust l.cal.1 l.cal.2.1 l.cal.2.2
  (l, setColor c)

/-- `n` calls of `update_animation`, with the colours shown (rgbled.hh:11-108). -/
def run : Nat → RgbLed → RgbLed × List Color
  | 0, l => (l, [])
  | n + 1, l => let (l', c) := l.updateAnimation; let (l'', cs) := run n l'; (l'', c :: cs)

end RgbLed
