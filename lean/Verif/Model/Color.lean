import Verif.Basic
import Mathlib.Algebra.Order.Field.Rat
import Mathlib.Data.Rat.Floor
/-!
# Colours

util/colors.hh, util/colors_rgb565.hh, util/hsv.hh. Channels are natural numbers below 256; conversions to `uint8_t`, `uint16_t` and 32-bit
unsigned arithmetic are taken modulo 2^8, 2^16, 2^32. Float arguments are exact rational numbers.
-/

/-- colors.hh:139-141. -/
structure Color where
  r : Nat
  g : Nat
  b : Nat
  deriving DecidableEq, Repr

namespace Color

/-- `Color(uint8_t, uint8_t, uint8_t)`: colors.hh:32-36; arguments are converted to `uint8_t`. -/
def mk8 (r g b : Nat) : Color := ⟨r % 256, g % 256, b % 256⟩

/-- `Color(uint16_t rgb565)`: colors.hh:38-42. -/
def of565 (x : Nat) : Color := mk8 ((x &&& 0xf800) >>> 8) ((x &&& 0x07e0) >>> 3) ((x &&& 0x001f) <<< 3)

/-- `__USAT` (portable version): colors.hh:10-20. -/
def usat (val : Int) (sat : Nat) : Nat :=
  if sat ≤ 31 then
    let max : Nat := 1 <<< sat - 1
    if val > (max : Int) then max
    else if val < 0 then 0
    else val.toNat
  else (val % 4294967296).toNat

/-- `operator+`, portable version (`builtin_add_u8` is a plain sum): colors.hh:8, 21, 54-56. -/
def add (a b : Color) : Color := mk8 (a.r + b.r) (a.g + b.g) (a.b + b.b)

/-- `operator+` with the ARM DSP instruction `__UQADD8` (saturating byte addition): colors.hh:6, 54-56. -/
def addDsp (a b : Color) : Color := mk8 (min 255 (a.r + b.r)) (min 255 (a.g + b.g)) (min 255 (a.b + b.b))

/-- `operator==`: colors.hh:62-64. -/
def eq (a b : Color) : Bool := a.r == b.r && a.g == b.g && a.b == b.b

/-- `operator!=`: colors.hh:95-97. -/
def ne (a b : Color) : Bool := a.r != b.r || a.g != b.g || a.b != b.b

/-- `blend(that)`: colors.hh:67-69. -/
def blendHalf (a b : Color) : Color := mk8 (a.r >>> 1 + b.r >>> 1) (a.g >>> 1 + b.g >>> 1) (a.b >>> 1 + b.b >>> 1)

/-- One channel of `blend(that, uint8_t phase)`: colors.hh:72, 75, 78. -/
def chan8 (this that phase : Nat) : Nat :=
  let out := (that * phase + this * (255 - phase)) % 65536
  let out := (out + 1 + (out >>> 8)) % 65536
  out >>> 8

/-- `blend(that, uint8_t phase)`: colors.hh:71-79. -/
def blend8 (a b : Color) (phase : Nat) : Color := mk8 (chan8 a.r b.r phase) (chan8 a.g b.g phase) (chan8 a.b b.b phase)

/-- One channel of `blend(that, uint32_t phase)`: colors.hh:83. -/
def chan32 (this that phase : Nat) : Nat := (this * (256 - (phase >>> 24)) + that * (phase >>> 24)) >>> 8

/-- `blend(that, uint32_t phase)`: colors.hh:82-86. -/
def blend32 (a b : Color) (phase : Nat) : Color := mk8 (chan32 a.r b.r phase) (chan32 a.g b.g phase) (chan32 a.b b.b phase)

/-- Conversion of a float to an unsigned type with `n` values: truncation towards zero; undefined if the truncated value is not representable (colors.hh and colors_rgb565.hh:24-28, wherever a float is assigned to an unsigned field). -/
def trunc (n : Nat) (x : ℚ) : R Nat := if -1 < x ∧ x < n then .ok ⌊x⌋.toNat else .ub

/-- `blend(that, float phase)`: colors.hh:89-93. -/
def blendF (a b : Color) (phase : ℚ) : R Color := do
  let r ← trunc 256 (a.r * (1 - phase) + b.r * phase)
  let g ← trunc 256 (a.g * (1 - phase) + b.g * phase)
  let bl ← trunc 256 (a.b * (1 - phase) + b.b * phase)
  .ok (mk8 r g bl)

/-- `operator*(float)`: colors.hh:58-60. -/
def scale (a : Color) (phase : ℚ) : R Color := blendF ⟨0, 0, 0⟩ a phase

/-- `combine`: colors.hh:99-104. -/
def combine (a b : Color) : Color := mk8 (usat (a.r + b.r : Nat) 8) (usat (a.g + b.g : Nat) 8) (usat (a.b + b.b : Nat) 8)

/-- `adjust`: colors.hh:107-112; the adjustment's channels are 8-bit. -/
def adjust (a : Color) (ar ag ab : Nat) : Color :=
  mk8 (usat ((a.r * ar) >>> 7 : Nat) 8) (usat ((a.g * ag) >>> 7 : Nat) 8) (usat ((a.b * ab) >>> 7 : Nat) 8)

/-- `Rgb565`: colors.hh:114-116. -/
def rgb565 (a : Color) : Nat := (((a.r &&& 0b11111000) <<< 8) ||| ((a.g &&& 0b11111100) <<< 3) ||| (a.b >>> 3)) % 65536

/-- The mask of the packed blend: colors.hh:132. -/
def packMask : Nat := 0b00000111111000001111100000011111

/-- `blend(uint16_t, uint16_t, uint8_t)` on packed 565 colours: colors.hh:130-136. -/
def blendPacked (c1 c2 alpha : Nat) : Nat :=
  let a := ((alpha + 4) >>> 3) % 256
  let bg := (c1 ||| (c1 <<< 16)) &&& packMask
  let fg := (c2 ||| (c2 <<< 16)) &&& packMask
  let d := (fg + 4294967296 - bg) % 4294967296
  let prod := (d * a) % 4294967296
  let result := ((prod >>> 5 + bg) % 4294967296) &&& packMask
  ((result >>> 16) ||| result) % 65536

/-- `blend(uint16_t, uint16_t, float)`: colors.hh:126-128. -/
def blendPackedF (c1 c2 : Nat) (alpha : ℚ) : R Nat := do let a ← trunc 256 (alpha * 255); .ok (blendPacked c1 c2 a)

/-- `slow_blend`: colors.hh:119-124. -/
def slowBlend (c1 c2 : Nat) (alpha : ℚ) : R Nat := do let a ← trunc 256 (alpha * 255); .ok (rgb565 (blend8 (of565 c1) (of565 c2) a))

end Color

/-- colors_rgb565.hh:8-10: bit fields of 5, 6 and 5 bits. -/
structure RGB565 where
  b : Nat
  g : Nat
  r : Nat
  deriving DecidableEq, Repr

namespace RGB565

/-- Initialising the bit fields truncates to their widths (colors_rgb565.hh:8-10). -/
def fields (b g r : Nat) : RGB565 := ⟨b % 32, g % 64, r % 32⟩

/-- `RGB565(uint8_t, uint8_t, uint8_t)`: colors_rgb565.hh:18-22. -/
def of8 (red green blue : Nat) : RGB565 := fields (blue >>> 3) (green >>> 2) (red >>> 3)

/-- `RGB565(float, float, float)`: colors_rgb565.hh:24-28. -/
def ofF (red green blue : ℚ) : R RGB565 := do
  let b ← Color.trunc 65536 (blue * 32)
  let g ← Color.trunc 65536 (green * 64)
  let r ← Color.trunc 65536 (red * 32)
  .ok (fields (min b 31) (min g 63) (min r 31))

/-- `RGB565(uint32_t rgb888)`: colors_rgb565.hh:30-34. -/
def of888 (x : Nat) : RGB565 := fields ((x &&& 0x0000f8) >>> 3) ((x &&& 0x00fc00) >>> 10) ((x &&& 0xf80000) >>> 19)

/-- `operator=(uint16_t raw)`: colors_rgb565.hh:37-44 (little-endian layout: the first field holds the low bits). -/
def ofRaw (raw : Nat) : RGB565 := fields raw (raw >>> 5) (raw >>> 11)

/-- `raw`: colors_rgb565.hh:46-48. -/
def raw (c : RGB565) : Nat := ((c.r <<< 11) ||| (c.g <<< 5) ||| c.b) % 65536

/-- `red`, `green`, `blue`: colors_rgb565.hh:59-71. -/
def red (c : RGB565) : Nat := (c.r <<< 3) % 256
/-- `green`: colors_rgb565.hh:64-66. -/
def green (c : RGB565) : Nat := (c.g <<< 2) % 256
/-- `blue`: colors_rgb565.hh:69-71. -/
def blue (c : RGB565) : Nat := (c.b <<< 3) % 256

end RGB565

namespace HSV

/-- `HSVColor::operator Color`: hsv.hh:12-38. -/
def toColor (h s v : Nat) : Color :=
  if s = 0 then Color.mk8 v v v
  else
    let region := h / 43
    let remainder := (h - region * 43) * 6
    let p := ((v * (255 - s)) >>> 8) % 256
    let q := ((v * (255 - ((s * remainder) >>> 8))) >>> 8) % 256
    let t := ((v * (255 - ((s * (255 - remainder)) >>> 8))) >>> 8) % 256
    if region = 0 then Color.mk8 v t p
    else if region = 1 then Color.mk8 q v p
    else if region = 2 then Color.mk8 p v t
    else if region = 3 then Color.mk8 p q v
    else if region = 4 then Color.mk8 t p v
    else Color.mk8 v p q

end HSV
