import Verif.Basic
import Verif.Model.Color
/-!
# Interpolating tables

util/interp_array.hh and util/lookup_table.hh, with `T` and `PhaseT` in exact arithmetic (ℚ). Tables are lists; reading outside the table is `ub`.
-/

namespace InterpArray

/-- `idx1` and the blend of the two elements: interp_array.hh:30-32, 44-47. -/
def blend (data : List ℚ) (idx0 : Nat) (phase : ℚ) : R ℚ := do
  let idx1 := if idx0 = data.length - 1 then 0 else idx0 + 1
  let d1 ← arrGet data idx1
  let d0 ← arrGet data idx0
  .ok (d1 * phase + d0 * (1 - phase))

/-- `while (idx0 >= Size) idx0 -= Size;`: interp_array.hh:28-29, 68-69 (not terminating for `Size` = 0; here 0 is returned). -/
def wrapIdx (size : Nat) (idx : Nat) : Nat :=
  if h : 0 < size ∧ idx ≥ size then wrapIdx size (idx - size) else if size = 0 then 0 else idx
  termination_by idx
  decreasing_by omega

/-- `interp_by_index_wrap`: interp_array.hh:25-35. -/
def interpByIndexWrap (data : List ℚ) (index : ℚ) : R ℚ := do
  let idx0 ← Color.trunc 4294967296 index
  let phase := index - idx0
  blend data (wrapIdx data.length idx0) phase

/-- `interp_by_index`: interp_array.hh:41-48. -/
def interpByIndex (data : List ℚ) (index : ℚ) : R ℚ := do
  let idx0 ← Color.trunc 4294967296 index
  let phase := index - idx0
  blend data idx0 phase

/-- `interp_wrap`: interp_array.hh:51-54. -/
def interpWrap (data : List ℚ) (phase : ℚ) : R ℚ := interpByIndexWrap data (phase * data.length)

/-- `interp`: interp_array.hh:59-62. -/
def interp (data : List ℚ) (phase : ℚ) : R ℚ := interpByIndex data (phase * ((data.length - 1 : Nat) : ℚ))

/-- `closest_wrap`: interp_array.hh:66-71. -/
def closestWrap (data : List ℚ) (phase : ℚ) : R ℚ := do
  let idx ← Color.trunc 4294967296 (phase * data.length)
  arrGet data (wrapIdx data.length idx)

/-- `closest`: interp_array.hh:76-79. -/
def closest (data : List ℚ) (phase : ℚ) : R ℚ := do
  let idx ← Color.trunc 4294967296 (phase * ((data.length - 1 : Nat) : ℚ))
  arrGet data idx

/-- `operator[]`, `get`: interp_array.hh:8-13, 17-22. -/
def get (data : List ℚ) (i : Nat) : R ℚ := arrGet data i
/-- `set(index, val)`: interp_array.hh:14-16. -/
def set (data : List ℚ) (i : Nat) (v : ℚ) : R (List ℚ) := arrSet data i v

end InterpArray

namespace LookupTable

/-- `details::CreateArray`: lookup_table.hh:10-23 (one point: `NumPoints - 1` is 0; excluded by the `static_assert` of `LookupTable`). -/
def create (n : Nat) (min max : ℚ) (f : ℚ → ℚ) : List ℚ :=
  (List.range n).map (fun i : Nat => f (min + i * (max - min) / ((n : ℚ) - 1)))

/-- `lookup`, `operator()`: lookup_table.hh:46-64; `max - min` = 0 is a float division by zero, represented as `ub`. -/
def lookup (points : List ℚ) (min max : ℚ) (v : ℚ) : R ℚ := do
  if max - min = 0 then .ub
  else
    let idx := (v - min) / (max - min) * ((points.length - 1 : Nat) : ℚ)
    if idx ≤ 0 then arrGet points 0
    else if idx ≥ ((points.length - 1 : Nat) : ℚ) then arrGet points (points.length - 1)
    else
      let lowerIdx ← Color.trunc 4294967296 idx
      let phase := idx - lowerIdx
      let lower ← arrGet points lowerIdx
      let upper ← arrGet points (lowerIdx + 1)
      .ok (lower + phase * (upper - lower))

/-- `generate`: lookup_table.hh:40-44. -/
def generateLookup (n : Nat) (min max : ℚ) (f : ℚ → ℚ) (v : ℚ) : R ℚ := lookup (create n min max f) min max v

end LookupTable
