import Verif.Model.Calib
/-!
# Calibrators used by an interrupt while they are recalibrated

util/calibrator.hh and util/voct_calibrator.hh in exact arithmetic. A call that recalibrates is the list of the states after each of its
stores, in the order of the code (the members are plain: a compiler may store them in the other order). A call that uses the
calibration reads the two members one after the other.
-/
namespace CalibIsr

/-- `set_slope_offset(slope, offset)`: calibrator.hh:25-28. -/
def setSteps (c : Calibrator) (s o : ℚ) : List Calibrator :=
  let c1 : Calibrator := { c with slope := s }
  let c2 : Calibrator := { c1 with offset := o }
  [c1, c2]

/-- `calibrate_chan`: calibrator.hh:30-33; divisions by zero as in `Calibrator.calibrate`. -/
def chanSteps (c : Calibrator) (tLow tHigh mLow mHigh : ℚ) : R (List Calibrator) :=
  if mHigh - mLow = 0 then .ub
  else
    let c1 : Calibrator := { c with slope := (tHigh - tLow) / (mHigh - mLow) }
    if c1.slope = 0 then .ub
    else
      let c2 : Calibrator := { c1 with offset := mLow - tLow / c1.slope }
      .ok [c1, c2]

/-- `adjust(raw)` by the main program, calibrator.hh:17-19; the interrupt recalibrates from `c` to `d` between its two reads.
`offsetFirst`: which of the two members the compiler reads first. -/
def adjustAcross (offsetFirst : Bool) (c d : Calibrator) (raw : ℚ) : ℚ :=
  if offsetFirst then (raw - c.offset) * d.slope else (raw - d.offset) * c.slope

/-- `reverse_calibrate(val)` by the main program, calibrator.hh:21-23, likewise. -/
def reverseAcross (offsetFirst : Bool) (c d : Calibrator) (v : ℚ) : R ℚ :=
  if offsetFirst then (if d.slope = 0 then .ub else .ok (v / d.slope + c.offset))
  else (if c.slope = 0 then .ub else .ok (v / c.slope + d.offset))

/-- `VoctCalibrator::reset`: voct_calibrator.hh:9-14. -/
def resetSteps (v : Voct) : List Voct :=
  let v1 := { v with offset := 0 }
  let v2 := { v1 with slope := 0 }
  let v3 := { v2 with measuredC0 := false }
  let v4 := { v3 with num := 0 }
  [v1, v2, v3, v4]

/-- Lines 35-47: the slope, then the offset: voct_calibrator.hh:35-47. -/
def solveSteps (v : Voct) : List Voct :=
  if v.num ≥ 2 then
    let span : Int := (v.pt0.1 : Int) - v.pt1.1
    let diff := v.pt0.2 - v.pt1.2
    let v1 := if span ≠ 0 ∧ diff ≠ 0 then { v with slope := diff / span } else v
    if v1.measuredC0 then [v1]
    else
      let o0 := v1.pt0.2 - v1.slope * v1.pt0.1
      let o1 := v1.pt1.2 - v1.slope * v1.pt1.1
      [v1, { v1 with offset := (o0 + o1) / 2 }]
  else []

/-- `record_measurement`: voct_calibrator.hh:16-48; the stores of the data points are one step, they do not change what `offset()`
and `slope()` return. -/
def recordSteps (v : Voct) (note : Nat) (m : ℚ) : List Voct :=
  if note = 11 then []
  else
    let v1 := v.noteC0 note m
    let v2 := v1.push note m
    v1 :: v2 :: solveSteps v2

end CalibIsr
