import Verif.Model.XMath
import Verif.Model.AudioFrame
import Verif.Model.OscsFloat
import Verif.Model.ColorFloat
/-!
# Floats converted to integers, for every float including infinities and NaN (util/audio_frame.hh, util/oscs.hh, util/colors.hh, util/colors_rgb565.hh, util/rgbled.hh)
-/
namespace XAudio
open XFlt AudioFrame Oscs

/-- `scaleOutput`: audio_frame.hh:33-49; the types are those of `AudioFrame.Ty`. -/
def scaleOutput (rnd : ℚ → ℚ) (t : Ty) (val : XF) : R Int :=
  let k := ofQ rnd t.kMaxValue
  if t.signed then
    if t.bits > t.used then do
      let v ← toSigned t.bits (mul rnd val k)
      .ok (t.conv (IntMath.signedSaturate (wrapS 32 v) 24))
    else
      let v := XMath.constrain val (.fin (-1)) (div rnd (sub rnd k (.fin 1)) k)
      toSigned t.bits (mul rnd v k)
  else do
    let v := XMath.constrain (add rnd (mul rnd val (.fin (1 / 2))) (.fin (1 / 2))) (.fin 0) (.fin 1)
    let n ← toUnsigned t.bits (mul rnd v (ofQ rnd ((IntMath.ipow 2 t.used + 2 ^ 32 - 1) % 2 ^ 32 : Nat)))
    .ok n

/-- `TriangleOscillator::set_frequency(float)`: oscs.hh:73-75. -/
def triSetFreq (rnd : ℚ → ℚ) (rate : Nat) (t : Tri) (freq : XF) : R Tri := do
  let i ← toUnsigned 32 (mul rnd freq (ofQ rnd (freqUnits rate)))
  .ok { t with inc := i }

/-- `OneShot`: oscs.hh:214-245. -/
structure Shot where
  inc : XF
  width : XF
  deriving DecidableEq

/-- `OneShot(update_rate_hz)`: oscs.hh:215-218. -/
def Shot.make (rnd : ℚ → ℚ) (rate : XF) : Shot := ⟨div rnd (.fin 1) rate, .fin 0⟩

/-- `start`: oscs.hh:220-222. -/
def Shot.start (o : Shot) (w : XF) : Shot := { o with width := w }

/-- `update`: oscs.hh:225-231. -/
def Shot.update (rnd : ℚ → ℚ) (o : Shot) : Shot × Bool := if lt (.fin 0) o.width then ({ o with width := sub rnd o.width o.inc }, true) else (o, false)

/-- `stop`: oscs.hh:233-235. -/
def Shot.stop (o : Shot) : Shot := { o with width := .fin 0 }

/-- `set_update_rate_hz`: oscs.hh:237-240. -/
def Shot.setRate (rnd : ℚ → ℚ) (o : Shot) (hz : XF) : Shot := if lt (.fin 0) hz then { o with inc := div rnd (.fin 1) hz } else o

/-- The answers of `n` calls of `update` (oscs.hh:225-231). -/
def Shot.run (rnd : ℚ → ℚ) : Nat → Shot → List Bool
  | 0, _ => []
  | n + 1, o => (o.update rnd).2 :: Shot.run rnd n (o.update rnd).1

/-- `MixedRgbLed::flash_once_ms`: rgbled.hh:31-37. -/
def flashOnceMs (rnd : ℚ → ℚ) (rate : Nat) (l : RgbLed) (c : Color) (ms : XF) : R RgbLed := do
  let f ← toUnsigned 32 (div rnd (.fin 1000) ms)
  .ok { l with flashCol := c, flasher := l.flasher.reset.setFreq rate f, smooth := false }

/-- One channel of `blend(that, float phase)`: colors.hh:90. -/
def chan (rnd : ℚ → ℚ) (this that : Nat) (phase : XF) : R Nat :=
  toUnsigned 8 (add rnd (mul rnd (ofQ rnd this) (sub rnd (.fin 1) phase)) (mul rnd (ofQ rnd that) phase))

/-- `blend(that, float phase)`: colors.hh:89-93. -/
def blend (rnd : ℚ → ℚ) (a b : Color) (phase : XF) : R Color := do
  let r ← chan rnd a.r b.r phase
  let g ← chan rnd a.g b.g phase
  let bl ← chan rnd a.b b.b phase
  .ok (Color.mk8 r g bl)

/-- `blend(uint16_t, uint16_t, float)`: colors.hh:126-128. -/
def blendPacked (rnd : ℚ → ℚ) (c1 c2 : Nat) (alpha : XF) : R Nat := do
  let a ← toUnsigned 8 (mul rnd alpha (.fin 255))
  .ok (Color.blendPacked c1 c2 a)

/-- `slow_blend`: colors.hh:119-124. -/
def slowBlend (rnd : ℚ → ℚ) (c1 c2 : Nat) (alpha : XF) : R Nat := do
  let a ← toUnsigned 8 (mul rnd alpha (.fin 255))
  .ok (Color.rgb565 (Color.blend8 (Color.of565 c1) (Color.of565 c2) a))

/-- `RGB565(float, float, float)`: colors_rgb565.hh:24-28. -/
def rgb565 (rnd : ℚ → ℚ) (red green blue : XF) : R RGB565 := do
  let b ← toUnsigned 16 (mul rnd blue (.fin 32))
  let g ← toUnsigned 16 (mul rnd green (.fin 64))
  let r ← toUnsigned 16 (mul rnd red (.fin 32))
  .ok (RGB565.fields (min b 31) (min g 63) (min r 31))

/-- `MixedRgbLed::set_color(col, float)`: rgbled.hh:66-70. -/
def setColor (rnd : ℚ → ℚ) (c : Color) (br : XF) : R Color := do
  let r ← toUnsigned 8 (mul rnd (ofQ rnd c.r) br)
  let g ← toUnsigned 8 (mul rnd (ofQ rnd c.g) br)
  let b ← toUnsigned 8 (mul rnd (ofQ rnd c.b) br)
  .ok (Color.mk8 r g b)

end XAudio
