import Verif.Model.ExpFloat
import Verif.Model.TrigFloat
import Verif.XFlt
/-!
# Interpolating tables and the functions built on them for every float, including infinities and NaN

util/lookup_table.hh, util/interp_array.hh, util/math.hh. As `Model/InterpFloat.lean`, `Model/ExpFloat.lean` and `Model/TrigFloat.lean`, with
overflow, infinities and NaN. Divisions by zero follow IEEE 754.
-/
namespace XTable
open XFlt

/-- `LookupTable<NumPoints, float>::lookup`, `operator()`: lookup_table.hh:46-64. -/
def lookup (rnd : ℚ → ℚ) (points : List XF) (min max val : XF) : R XF := do
  let last := ofQ rnd ((points.length - 1 : Nat) : ℚ)
  let idx := mul rnd (div rnd (sub rnd val min) (sub rnd max min)) last
  if le idx (.fin 0) then arrGet points 0
  else if le last idx then arrGet points (points.length - 1)
  else
    let lowerIdx ← toUnsigned 32 idx
    let phase := sub rnd idx (ofQ rnd lowerIdx)
    let lower ← arrGet points lowerIdx
    let upper ← arrGet points (lowerIdx + 1)
    .ok (add rnd lower (mul rnd phase (sub rnd upper lower)))

/-- `idx1` and the blend of the two elements: interp_array.hh:30-32, 44-47. -/
def blend (rnd : ℚ → ℚ) (data : List XF) (idx0 : Nat) (phase : XF) : R XF := do
  let idx1 := if idx0 = data.length - 1 then 0 else idx0 + 1
  let d1 ← arrGet data idx1
  let d0 ← arrGet data idx0
  .ok (add rnd (mul rnd d1 phase) (mul rnd d0 (sub rnd (.fin 1) phase)))

/-- `interp_by_index_wrap`: interp_array.hh:25-35. -/
def interpByIndexWrap (rnd : ℚ → ℚ) (data : List XF) (index : XF) : R XF := do
  let idx0 ← toUnsigned 32 index
  blend rnd data (InterpArray.wrapIdx data.length idx0) (sub rnd index (ofQ rnd idx0))

/-- `interp_by_index`: interp_array.hh:41-48. -/
def interpByIndex (rnd : ℚ → ℚ) (data : List XF) (index : XF) : R XF := do
  let idx0 ← toUnsigned 32 index
  blend rnd data idx0 (sub rnd index (ofQ rnd idx0))

/-- `interp_wrap`: interp_array.hh:51-54. -/
def interpWrap (rnd : ℚ → ℚ) (data : List XF) (phase : XF) : R XF := interpByIndexWrap rnd data (mul rnd phase (ofQ rnd data.length))

/-- `interp`: interp_array.hh:59-62. -/
def interp (rnd : ℚ → ℚ) (data : List XF) (phase : XF) : R XF := interpByIndex rnd data (mul rnd phase (ofQ rnd ((data.length - 1 : Nat) : ℚ)))

/-- `closest_wrap`: interp_array.hh:66-71. -/
def closestWrap (rnd : ℚ → ℚ) (data : List XF) (phase : XF) : R XF := do
  let idx ← toUnsigned 32 (mul rnd phase (ofQ rnd data.length))
  arrGet data (InterpArray.wrapIdx data.length idx)

/-- `closest`: interp_array.hh:76-79. -/
def closest (rnd : ℚ → ℚ) (data : List XF) (phase : XF) : R XF := do
  let idx ← toUnsigned 32 (mul rnd phase (ofQ rnd ((data.length - 1 : Nat) : ℚ)))
  arrGet data idx

/-- `constrain<float>`: math.hh:25-28. -/
def constrain (val min max : XF) : XF := if lt val min then min else if lt max val then max else val

/-- `map_value` on floats: math.hh:19-23. -/
def mapValue (rnd : ℚ → ℚ) (x inMin inMax outMin outMax : XF) : XF :=
  add rnd (div rnd (mul rnd (sub rnd x inMin) (sub rnd outMax outMin)) (sub rnd inMax inMin)) outMin

/-- A table of floats: math_tables.cc:1-1391. -/
def tab (l : List ℚ) : List XF := l.map .fin

/-- `setPitchMultiple`: math.hh:252-262. -/
def setPitchMultiple (rnd : ℚ → ℚ) (val : XF) : R XF :=
  if le (.fin 0) val then interp rnd (tab (ExpFloat.exp5R rnd)) (constrain val (.fin 0) (.fin 1))
  else do
    let d ← interp rnd (tab (ExpFloat.exp5R rnd)) (constrain (mul rnd val (.fin (-1))) (.fin 0) (.fin 1))
    .ok (div rnd (.fin 1) d)

/-- `audioFreqToNorm`: math.hh:264-271. -/
def audioFreqToNorm (rnd : ℚ → ℚ) (input : XF) : R XF := do
  let input := constrain input (.fin 20) (.fin 20000)
  let temp1 ← interp rnd (tab (ExpFloat.logR rnd)) (mapValue rnd input (.fin 20) (.fin 20000) (.fin 0) (.fin 1))
  .ok (div rnd (sub rnd temp1 (ofQ rnd (299573 / 100000))) (ofQ rnd (690776 / 100000)))

/-- The loop of `pow2`: math.hh:277-286; `none` if it has not ended after `fuel` turns. -/
def pow2Loop (rnd : ℚ → ℚ) : Nat → XF → XF → Option (R XF)
  | 0, _, _ => none
  | fuel + 1, x, res =>
    if lt x (.fin 1) then
      some (do
        let e ← interp rnd (tab (ExpFloat.exp5R rnd)) x
        .ok (mul rnd res e))
    else pow2Loop rnd fuel (sub rnd x (.fin 1)) (mul rnd res (.fin 32))

/-- `pow2`: math.hh:274-288. -/
def pow2 (rnd : ℚ → ℚ) (fuel : Nat) (x : XF) : Option (R XF) := pow2Loop rnd fuel (div rnd x (.fin 5)) (.fin 1)

/-- `sin`: math.hh:291-293. -/
def sin (rnd : ℚ → ℚ) (x : XF) : R XF := interpWrap rnd (tab (ExpFloat.sinR rnd)) (div rnd x (ofQ rnd (2 * MathFns.pif)))
/-- `sin01`: math.hh:296-298. -/
def sin01 (rnd : ℚ → ℚ) (x : XF) : R XF := interpWrap rnd (tab (ExpFloat.sinR rnd)) x
/-- `cos`: math.hh:300-302. -/
def cos (rnd : ℚ → ℚ) (x : XF) : R XF := interpWrap rnd (tab (ExpFloat.sinR rnd)) (add rnd (div rnd x (ofQ rnd (2 * MathFns.pif))) (.fin (1 / 4)))
/-- `cos_close`: math.hh:304-306. -/
def cosClose (rnd : ℚ → ℚ) (x : XF) : R XF := closestWrap rnd (tab (ExpFloat.sinR rnd)) (add rnd (div rnd x (ofQ rnd (2 * MathFns.pif))) (.fin (1 / 4)))
/-- `tan`: math.hh:308-310. -/
def tan (rnd : ℚ → ℚ) (x : XF) : R XF := interpWrap rnd (tab (ExpFloat.tanR rnd)) (div rnd x (.fin MathFns.pif))
/-- `tan_close`: math.hh:312-314. -/
def tanClose (rnd : ℚ → ℚ) (x : XF) : R XF := closestWrap rnd (tab (ExpFloat.tanR rnd)) (div rnd x (.fin MathFns.pif))

end XTable
