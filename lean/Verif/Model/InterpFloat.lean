import Verif.Model.Interp
/-! # Interpolating tables with rounded arithmetic: util/interp_array.hh, util/lookup_table.hh

`rnd` rounds a result to binary32 (or is the identity: exact arithmetic); every operation and every conversion of an integer is rounded separately. Infinities are not modelled; a division by zero is `ub`. -/

namespace InterpFloat

/-- `idx1` and the blend of the two elements: interp_array.hh:30-32, 44-47. -/
def blend (rnd : ℚ → ℚ) (data : List ℚ) (idx0 : Nat) (phase : ℚ) : R ℚ := do
  let idx1 := if idx0 = data.length - 1 then 0 else idx0 + 1
  let d1 ← arrGet data idx1
  let d0 ← arrGet data idx0
  .ok (rnd (rnd (d1 * phase) + rnd (d0 * rnd (1 - phase))))

/-- `interp_by_index_wrap`: interp_array.hh:25-35. -/
def interpByIndexWrap (rnd : ℚ → ℚ) (data : List ℚ) (index : ℚ) : R ℚ := do
  let idx0 ← Color.trunc 4294967296 index
  let phase := rnd (index - rnd idx0)
  blend rnd data (InterpArray.wrapIdx data.length idx0) phase

/-- `interp_by_index`: interp_array.hh:41-48. -/
def interpByIndex (rnd : ℚ → ℚ) (data : List ℚ) (index : ℚ) : R ℚ := do
  let idx0 ← Color.trunc 4294967296 index
  let phase := rnd (index - rnd idx0)
  blend rnd data idx0 phase

/-- `interp_wrap`: interp_array.hh:51-54. -/
def interpWrap (rnd : ℚ → ℚ) (data : List ℚ) (phase : ℚ) : R ℚ := interpByIndexWrap rnd data (rnd (phase * rnd data.length))

/-- `interp`: interp_array.hh:59-62. -/
def interp (rnd : ℚ → ℚ) (data : List ℚ) (phase : ℚ) : R ℚ := interpByIndex rnd data (rnd (phase * rnd ((data.length - 1 : Nat) : ℚ)))

/-- `closest_wrap`: interp_array.hh:66-71. -/
def closestWrap (rnd : ℚ → ℚ) (data : List ℚ) (phase : ℚ) : R ℚ := do
  let idx ← Color.trunc 4294967296 (rnd (phase * rnd data.length))
  arrGet data (InterpArray.wrapIdx data.length idx)

/-- `closest`: interp_array.hh:76-79. -/
def closest (rnd : ℚ → ℚ) (data : List ℚ) (phase : ℚ) : R ℚ := do
  let idx ← Color.trunc 4294967296 (rnd (phase * rnd ((data.length - 1 : Nat) : ℚ)))
  arrGet data idx

/-- The index computed by `lookup`: lookup_table.hh:47. -/
def lookupIdx (rnd : ℚ → ℚ) (n : Nat) (min max v : ℚ) : ℚ := rnd (rnd (rnd (v - min) / rnd (max - min)) * rnd ((n - 1 : Nat) : ℚ))

/-- `lookup`, `operator()`: lookup_table.hh:46-64. -/
def lookup (rnd : ℚ → ℚ) (points : List ℚ) (min max : ℚ) (v : ℚ) : R ℚ := do
  if rnd (max - min) = 0 then .ub
  else
    let idx := lookupIdx rnd points.length min max v
    if idx ≤ 0 then arrGet points 0
    else if idx ≥ rnd ((points.length - 1 : Nat) : ℚ) then arrGet points (points.length - 1)
    else
      let lowerIdx ← Color.trunc 4294967296 idx
      let phase := rnd (idx - rnd lowerIdx)
      let lower ← arrGet points lowerIdx
      let upper ← arrGet points (lowerIdx + 1)
      .ok (rnd (lower + rnd (phase * rnd (upper - lower))))

/-- The argument of point `i` in `details::CreateArray`: lookup_table.hh:13-18. -/
def createArg (rnd : ℚ → ℚ) (n : Nat) (min max : ℚ) (i : Nat) : ℚ := rnd (min + rnd (rnd (rnd i * rnd (max - min)) / rnd ((n - 1 : Nat) : ℚ)))

/-- `details::CreateArray`: lookup_table.hh:10-23. -/
def create (rnd : ℚ → ℚ) (n : Nat) (min max : ℚ) (f : ℚ → ℚ) : List ℚ := (List.range n).map (fun i => f (createArg rnd n min max i))

end InterpFloat
