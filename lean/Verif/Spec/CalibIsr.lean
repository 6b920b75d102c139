import Mathlib.Algebra.Order.Field.Rat
/-! # What a calibration makes of a reading -/
namespace CalibIsr.Spec

/-- a reading adjusted with a slope and an offset -/
def line (slope offset raw : ℚ) : ℚ := slope * (raw - offset)

/-- for every reading, `f` gives what the old calibration or what the new one gives -/
def OldOrNew (s o s' o' : ℚ) (f : ℚ → ℚ) : Prop := ∀ raw, f raw = line s o raw ∨ f raw = line s' o' raw

end CalibIsr.Spec
