import Verif.Model.PlateauT
/-! # Specification: the dead zone on numbers (C211) -/

namespace PlateauT.Spec

/-- The signed distance of `v` to the interval `c - e .. c + e`. -/
def beyond (v e c : ℚ) : ℚ := if v > c + e then v - (c + e) else if v < c - e then v - (c - e) else 0

/-- Half the width, as `unsigned` division gives it. -/
def half (width : Nat) : ℚ := ((width / 2 : Nat) : ℚ)

end PlateauT.Spec
