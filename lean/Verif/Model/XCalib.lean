import Verif.XFlt
import Verif.Model.Calib
/-!
# Calibrators for every float, including infinities and NaN (util/calibrator.hh, util/voct_calibrator.hh)
-/
namespace XCalib
open XFlt

/-- `Calibrator`: calibrator.hh:51-52. -/
structure Cal where
  slope : XF
  offset : XF
  deriving DecidableEq

/-- `adjust`: calibrator.hh:17-19. -/
def adjust (rnd : ℚ → ℚ) (c : Cal) (raw : XF) : XF := mul rnd (sub rnd raw c.offset) c.slope

/-- `reverse_calibrate`: calibrator.hh:21-23. -/
def reverse (rnd : ℚ → ℚ) (c : Cal) (v : XF) : XF := add rnd (div rnd v c.slope) c.offset

/-- `calibrate_chan` (both overloads) and the constructor from two pairs: calibrator.hh:13-15, 30-40. -/
def calibrate (rnd : ℚ → ℚ) (tLow tHigh mLow mHigh : XF) : Cal :=
  let slope := div rnd (sub rnd tHigh tLow) (sub rnd mHigh mLow)
  ⟨slope, sub rnd mLow (div rnd tLow slope)⟩

/-- `VoctCalibrator<float>`: voct_calibrator.hh:54-59. Notes are numbers 0 (C0) to 11 (`None`), voct_calibrator.hh:7. -/
structure XVoct where
  offset : XF
  slope : XF
  pt0 : Nat × XF
  pt1 : Nat × XF
  num : Nat
  measuredC0 : Bool
  deriving DecidableEq

/-- Initial state: voct_calibrator.hh:54-59. -/
def XVoct.init : XVoct := ⟨.fin 0, .fin 0, (11, .fin 0), (11, .fin 0), 0, false⟩

/-- `reset`: voct_calibrator.hh:9-14. -/
def XVoct.reset (v : XVoct) : XVoct := { v with offset := .fin 0, slope := .fin 0, measuredC0 := false, num := 0 }

/-- Lines 20-24: a measurement of C0 sets the offset (voct_calibrator.hh:20-24). -/
def XVoct.noteC0 (v : XVoct) (note : Nat) (m : XF) : XVoct := if note = 0 then { v with measuredC0 := true, offset := m } else v

/-- Lines 26-33: keep the latest two data points (voct_calibrator.hh:26-33). -/
def XVoct.push (v : XVoct) (note : Nat) (m : XF) : XVoct :=
  let v := if v.num ≥ 2 then { v with pt0 := v.pt1, num := 1 } else v
  if v.num = 0 then { v with pt0 := (note, m), num := 1 } else { v with pt1 := (note, m), num := v.num + 1 }

/-- Lines 35-47 of `record_measurement` (voct_calibrator.hh:35-47). Notes are integers up to 10 and therefore exact in float; `!= 0` holds for NaN. -/
def XVoct.solve (rnd : ℚ → ℚ) (v : XVoct) : XVoct :=
  if v.num ≥ 2 then
    let span : Int := (v.pt0.1 : Int) - v.pt1.1
    let diff := sub rnd v.pt0.2 v.pt1.2
    let v := if span ≠ 0 ∧ diff ≠ .fin 0 then { v with slope := div rnd diff (.fin span) } else v
    if v.measuredC0 then v
    else
      let o0 := sub rnd v.pt0.2 (mul rnd v.slope (.fin v.pt0.1))
      let o1 := sub rnd v.pt1.2 (mul rnd v.slope (.fin v.pt1.1))
      { v with offset := div rnd (add rnd o0 o1) (.fin 2) }
  else v

/-- `record_measurement`: voct_calibrator.hh:16-48. -/
def XVoct.record (rnd : ℚ → ℚ) (v : XVoct) (note : Nat) (m : XF) : XVoct := if note = 11 then v else ((v.noteC0 note m).push note m).solve rnd

end XCalib
