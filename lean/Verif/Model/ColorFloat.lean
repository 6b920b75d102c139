import Verif.Model.Oscs
/-!
# Colours with rounded arithmetic: util/colors.hh, util/colors_rgb565.hh, util/rgbled.hh

Every floating-point operation is rounded by `rnd` (see `Verif/Flt.lean`); `id` is exact arithmetic. The conversions of 8-bit channels to float are exact.
-/

namespace ColorFloat
open Color

/-- One channel of `blend(that, float phase)`: colors.hh:90. -/
def chanF (rnd : ℚ → ℚ) (this that : Nat) (phase : ℚ) : R Nat := trunc 256 (rnd (rnd (this * rnd (1 - phase)) + rnd (that * phase)))

/-- `blend(that, float phase)`: colors.hh:89-93. -/
def blendF (rnd : ℚ → ℚ) (a b : Color) (phase : ℚ) : R Color := do
  let r ← chanF rnd a.r b.r phase
  let g ← chanF rnd a.g b.g phase
  let bl ← chanF rnd a.b b.b phase
  .ok (mk8 r g bl)

/-- `operator*(float)`: colors.hh:58-60. -/
def scale (rnd : ℚ → ℚ) (a : Color) (phase : ℚ) : R Color := blendF rnd ⟨0, 0, 0⟩ a phase

/-- `blend(uint16_t, uint16_t, float)`: colors.hh:126-128. -/
def blendPackedF (rnd : ℚ → ℚ) (c1 c2 : Nat) (alpha : ℚ) : R Nat := do let a ← trunc 256 (rnd (alpha * 255)); .ok (blendPacked c1 c2 a)

/-- `slow_blend`: colors.hh:119-124. -/
def slowBlend (rnd : ℚ → ℚ) (c1 c2 : Nat) (alpha : ℚ) : R Nat := do let a ← trunc 256 (rnd (alpha * 255)); .ok (rgb565 (blend8 (of565 c1) (of565 c2) a))

/-- `RGB565(float, float, float)`: colors_rgb565.hh:24-28. -/
def ofF (rnd : ℚ → ℚ) (red green blue : ℚ) : R RGB565 := do
  let b ← trunc 65536 (rnd (blue * 32))
  let g ← trunc 65536 (rnd (green * 64))
  let r ← trunc 65536 (rnd (red * 32))
  .ok (RGB565.fields (min b 31) (min g 63) (min r 31))

/-- `MixedRgbLed::set_color(col, float)`: rgbled.hh:66-70: the values passed to the three drivers. -/
def setColorF (rnd : ℚ → ℚ) (c : Color) (br : ℚ) : R Color := do
  let r ← trunc 256 (rnd (c.r * br))
  let g ← trunc 256 (rnd (c.g * br))
  let b ← trunc 256 (rnd (c.b * br))
  .ok (mk8 r g b)

end ColorFloat
