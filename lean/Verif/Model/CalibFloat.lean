import Verif.Model.Calib
/-! # Calibrators with rounded arithmetic: util/calibrator.hh, util/voct_calibrator.hh

`rnd` rounds a result to binary32 (or is the identity: exact arithmetic); every operation is rounded separately. Infinities and NaN are not modelled: a division by zero is `ub`. -/

namespace CalibFloat

/-- `adjust`: calibrator.hh:17-19. -/
def adjust (rnd : ℚ → ℚ) (c : Calibrator) (raw : ℚ) : ℚ := rnd (rnd (raw - c.offset) * c.slope)

/-- `reverse_calibrate`: calibrator.hh:21-23. -/
def reverse (rnd : ℚ → ℚ) (c : Calibrator) (v : ℚ) : R ℚ := if c.slope = 0 then .ub else .ok (rnd (rnd (v / c.slope) + c.offset))

/-- `calibrate_chan` (both overloads) and the constructor from two pairs: calibrator.hh:13-15, 30-40. -/
def calibrate (rnd : ℚ → ℚ) (tLow tHigh mLow mHigh : ℚ) : R Calibrator :=
  if rnd (mHigh - mLow) = 0 then .ub
  else
    let slope := rnd (rnd (tHigh - tLow) / rnd (mHigh - mLow))
    if slope = 0 then .ub else .ok ⟨slope, rnd (mLow - rnd (tLow / slope))⟩

end CalibFloat

namespace VoctFloat
open Voct

/-- Lines 35-47 of `record_measurement` (voct_calibrator.hh:35-47). Notes are integers up to 10 and therefore exact in float. -/
def solve (rnd : ℚ → ℚ) (v : Voct) : Voct :=
  if v.num ≥ 2 then
    let span : Int := (v.pt0.1 : Int) - v.pt1.1
    let diff := rnd (v.pt0.2 - v.pt1.2)
    let v := if span ≠ 0 ∧ diff ≠ 0 then { v with slope := rnd (diff / span) } else v
    if v.measuredC0 then v
    else
      let o0 := rnd (v.pt0.2 - rnd (v.slope * v.pt0.1))
      let o1 := rnd (v.pt1.2 - rnd (v.slope * v.pt1.1))
      { v with offset := rnd (rnd (o0 + o1) / 2) }
  else v

/-- `record_measurement`: voct_calibrator.hh:16-48. Lines 20-33 do no arithmetic and are those of the exact model. -/
def record (rnd : ℚ → ℚ) (v : Voct) (note : Nat) (m : ℚ) : Voct := if note = 11 then v else solve rnd ((v.noteC0 note m).push note m)

end VoctFloat
