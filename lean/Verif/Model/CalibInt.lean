import Verif.Model.ParamsInt
/-!
# V/oct calibration with a signed integer type

util/voct_calibrator.hh for a signed integer type `T` (a `ParamsInt.Ty`; the constraint is `std::is_signed_v<T>`). Types narrower than `int` are promoted for arithmetic and converted back; overflow of a type at
least as wide as `int` is undefined. Notes are numbers 0 (C0) to 11 (`None`), voct_calibrator.hh:7.
-/

/-- `VoctCalibrator<T>`: voct_calibrator.hh:54-59. -/
structure VoctI where
  offset : Int
  slope : Int
  pt0 : Nat × Int
  pt1 : Nat × Int
  num : Nat
  measuredC0 : Bool
  deriving DecidableEq

namespace VoctI
open ParamsInt

/-- Initial state: voct_calibrator.hh:54-59. -/
def init : VoctI := ⟨0, 0, (11, 0), (11, 0), 0, false⟩

/-- `reset`: voct_calibrator.hh:9-14. -/
def reset (v : VoctI) : VoctI := { v with offset := 0, slope := 0, measuredC0 := false, num := 0 }

/-- A result that is not stored in a `T` yet: of type `int` if `T` is narrower, else of type `T`: voct_calibrator.hh:43-45. -/
def opI (t : Ty) (x : Int) : R Int := if 32 ≤ t.w ∧ ¬ InTy t x then .ub else .ok x

/-- Lines 20-24: a measurement of C0 sets the offset (voct_calibrator.hh:20-24). -/
def noteC0 (v : VoctI) (note : Nat) (m : Int) : VoctI := if note = 0 then { v with measuredC0 := true, offset := m } else v

/-- Lines 26-33: keep the latest two data points (voct_calibrator.hh:26-33). -/
def push (v : VoctI) (note : Nat) (m : Int) : VoctI :=
  let v := if v.num ≥ 2 then { v with pt0 := v.pt1, num := 1 } else v
  if v.num = 0 then { v with pt0 := (note, m), num := 1 } else { v with pt1 := (note, m), num := v.num + 1 }

/-- `datapt_[i].second - (slope_ * (int)datapt_[i].first)` stored in a `T`: voct_calibrator.hh:43-44. -/
def offsetAt (t : Ty) (slope : Int) (pt : Nat × Int) : R Int := do
  let p ← opI t (slope * pt.1)
  op t (pt.2 - p)

/-- Lines 36-40: the slope through the two data points, or the old one (voct_calibrator.hh:36-40). -/
def newSlope (t : Ty) (v : VoctI) : R Int := do
  let span : Int := (v.pt0.1 : Int) - v.pt1.1
  let diff ← op t (v.pt0.2 - v.pt1.2)
  if span ≠ 0 ∧ diff ≠ 0 then op t (diff.tdiv (conv t span)) else .ok v.slope

/-- Lines 35-47 (voct_calibrator.hh:35-47). -/
def solve (t : Ty) (v : VoctI) : R VoctI :=
  if v.num ≥ 2 then do
    let slope ← newSlope t v
    if v.measuredC0 then .ok { v with slope := slope }
    else do
      let o0 ← offsetAt t slope v.pt0
      let o1 ← offsetAt t slope v.pt1
      let s ← opI t (o0 + o1)
      .ok { v with slope := slope, offset := conv t (s.tdiv 2) }
  else .ok v

/-- `record_measurement`: voct_calibrator.hh:16-48. -/
def record (t : Ty) (v : VoctI) (note : Nat) (m : Int) : R VoctI := if note = 11 then .ok v else solve t ((v.noteC0 note m).push note m)

/-- A call: `record_measurement` or `reset` (voct_calibrator.hh:9-48). -/
inductive Op where
  | record (note : Nat) (m : Int)
  | reset

/-- A history of calls (voct_calibrator.hh:9-48). -/
def run (t : Ty) : List Op → VoctI → R VoctI
  | [], v => .ok v
  | .record n m :: ops, v => do
    let v ← v.record t n m
    run t ops v
  | .reset :: ops, v => run t ops v.reset

end VoctI
