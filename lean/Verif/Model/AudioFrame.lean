import Verif.Basic
import Verif.Flt
import Verif.Model.IntMath
import Verif.Model.Color
/-!
# Audio frames: util/audio_frame.hh

Floating-point operations are parametrised by the function `rnd` that rounds the exact result: the identity gives exact arithmetic, a `Flt.Nearest` function gives binary32. Infinities and NaN are not modelled.
-/

namespace AudioFrame

/-- The template parameters: `SampleType` (its width and signedness) and `UsedBits`: audio_frame.hh:8-9. -/
structure Ty where
  bits : Nat
  used : Nat
  signed : Bool
  deriving DecidableEq

/-- `v` modulo `2^n`, as a signed number of `n` bits (the conversions in audio_frame.hh:18, 38-39, 57-59). -/
def wrapS (n : Nat) (v : Int) : Int := (v + 2 ^ (n - 1)) % 2 ^ n - 2 ^ (n - 1)

/-- Conversion of an integer to `SampleType` (audio_frame.hh:39, 59). -/
def Ty.conv (t : Ty) (v : Int) : Int := if t.signed then wrapS t.bits v else v % 2 ^ t.bits

/-- Conversion of a float to a signed type of `n` bits: truncation; undefined if the result is not representable (audio_frame.hh:38, 42). -/
def truncS (n : Nat) (x : ℚ) : R Int :=
  if -(2 ^ (n - 1) : ℚ) - 1 < x ∧ x < 2 ^ (n - 1) then .ok (if 0 ≤ x then ⌊x⌋ else ⌈x⌉) else .ub

/-- `constrain<float>`: math.hh:26-28. -/
def constrain (val min max : ℚ) : ℚ := if val < min then min else if val > max then max else val

/-- `kMaxValue`: audio_frame.hh:14. -/
def Ty.kMaxValue (t : Ty) : Nat := IntMath.ipow 2 (t.used - 1)

/-- `kOutScaling`: audio_frame.hh:15. -/
def Ty.kOutScaling (t : Ty) (rnd : ℚ → ℚ) : ℚ := rnd t.kMaxValue

/-- `sign_extend`: audio_frame.hh:51-61. The signed bit-field at the start of the sample is taken to be its low `UsedBits` bits (little-endian allocation of bit-fields); that the pointer cast breaks the aliasing rules, and reads four bytes even
from a smaller sample, is not modelled. -/
def Ty.signExtend (t : Ty) (v : Int) : Int := if t.bits = t.used then v else t.conv (wrapS t.used v)

/-- `scaleInput`: audio_frame.hh:29-31. -/
def Ty.scaleInput (t : Ty) (rnd : ℚ → ℚ) (v : Int) : ℚ := rnd (rnd (t.signExtend v) / t.kOutScaling rnd)

/-- `scaleOutput`: audio_frame.hh:33-49. The saturation takes and gives an `int32_t`. -/
def Ty.scaleOutput (t : Ty) (rnd : ℚ → ℚ) (val : ℚ) : R Int :=
  if t.signed then
    if t.bits > t.used then do
      let v ← truncS t.bits (rnd (val * t.kOutScaling rnd))
      .ok (t.conv (IntMath.signedSaturate (wrapS 32 v) 24))
    else
      let v := constrain val (-1) (rnd (rnd (t.kOutScaling rnd - 1) / t.kOutScaling rnd))
      truncS t.bits (rnd (v * t.kOutScaling rnd))
  else do
    let v := constrain (rnd (rnd (val * (1 / 2)) + 1 / 2)) 0 1
    let n ← Color.trunc (2 ^ t.bits) (rnd (v * rnd ((IntMath.ipow 2 t.used + 2 ^ 32 - 1) % 2 ^ 32 : Nat)))
    .ok n

/-- `sign_extend_chan`, `scale_input_chan`: audio_frame.hh:17-23; `chan` is the array of samples. -/
def Ty.signExtendChan (t : Ty) (chan : List Int) (i : Nat) : R Int := do .ok (t.signExtend (← arrGet chan i))
/-- `scale_input_chan`: audio_frame.hh:21-23. -/
def Ty.scaleInputChan (t : Ty) (rnd : ℚ → ℚ) (chan : List Int) (i : Nat) : R ℚ := do .ok (t.scaleInput rnd (← arrGet chan i))

/-- `set_scaled_output`: audio_frame.hh:25-27. -/
def Ty.setScaledOutput (t : Ty) (rnd : ℚ → ℚ) (chan : List Int) (i : Nat) (val : ℚ) : R (List Int) := do
  arrSet chan i (← t.scaleOutput rnd val)

end AudioFrame
