import Verif.Basic
import Mathlib.Algebra.Order.Field.Rat
import Mathlib.Data.Rat.Defs
/-!
# Calibration

util/calibrator.hh and util/voct_calibrator.hh in exact arithmetic (ℚ). Divisions by zero, which give infinities or NaN in float arithmetic, are
represented as `ub`.
-/

/-- `Calibrator`: calibrator.hh:51-52. -/
structure Calibrator where
  slope : ℚ
  offset : ℚ
  deriving DecidableEq

namespace Calibrator

/-- Default: calibrator.hh:7, 51-52. -/
def init : Calibrator := ⟨1, 0⟩
/-- `Calibrator(slope, offset)`, `set_slope_offset`: calibrator.hh:8-11, 25-28. -/
def ofSlope (s o : ℚ) : Calibrator := ⟨s, o⟩
/-- `adjust`: calibrator.hh:17-19. -/
def adjust (c : Calibrator) (raw : ℚ) : ℚ := (raw - c.offset) * c.slope
/-- `reverse_calibrate`: calibrator.hh:21-23. -/
def reverse (c : Calibrator) (v : ℚ) : R ℚ := if c.slope = 0 then .ub else .ok (v / c.slope + c.offset)
/-- `calibrate_chan` (both overloads) and the constructor from two pairs: calibrator.hh:13-15, 30-40. -/
def calibrate (tLow tHigh mLow mHigh : ℚ) : R Calibrator :=
  if mHigh - mLow = 0 then .ub
  else
    let slope := (tHigh - tLow) / (mHigh - mLow)
    if slope = 0 then .ub else .ok ⟨slope, mLow - tLow / slope⟩

end Calibrator

/-- `VoctCalibrator<float>`: voct_calibrator.hh:54-59. Notes are numbers 0 (C0) to 11 (`None`), voct_calibrator.hh:7. -/
structure Voct where
  offset : ℚ
  slope : ℚ
  pt0 : Nat × ℚ
  pt1 : Nat × ℚ
  num : Nat
  measuredC0 : Bool
  deriving DecidableEq

namespace Voct

/-- Initial state: voct_calibrator.hh:54-59. -/
def init : Voct := ⟨0, 0, (11, 0), (11, 0), 0, false⟩

/-- `reset`: voct_calibrator.hh:9-14. -/
def reset (v : Voct) : Voct := { v with offset := 0, slope := 0, measuredC0 := false, num := 0 }

/-- Lines 20-24: a measurement of C0 sets the offset (voct_calibrator.hh:20-24). -/
def noteC0 (v : Voct) (note : Nat) (m : ℚ) : Voct := if note = 0 then { v with measuredC0 := true, offset := m } else v

/-- Lines 26-33: keep the latest two data points (voct_calibrator.hh:26-33). -/
def push (v : Voct) (note : Nat) (m : ℚ) : Voct :=
  let v := if v.num ≥ 2 then { v with pt0 := v.pt1, num := 1 } else v
  if v.num = 0 then { v with pt0 := (note, m), num := 1 } else { v with pt1 := (note, m), num := v.num + 1 }

/-- Lines 35-47 (voct_calibrator.hh:35-47). -/
def solve (v : Voct) : Voct :=
  if v.num ≥ 2 then
    let span : Int := (v.pt0.1 : Int) - v.pt1.1
    let diff := v.pt0.2 - v.pt1.2
    let v := if span ≠ 0 ∧ diff ≠ 0 then { v with slope := diff / span } else v
    if v.measuredC0 then v
    else
      let o0 := v.pt0.2 - v.slope * v.pt0.1
      let o1 := v.pt1.2 - v.slope * v.pt1.1
      { v with offset := (o0 + o1) / 2 }
  else v

/-- `record_measurement`: voct_calibrator.hh:16-48. -/
def record (v : Voct) (note : Nat) (m : ℚ) : Voct := if note = 11 then v else ((v.noteC0 note m).push note m).solve

end Voct
