import Verif.Model.Params
/-! # Interpolated and latched parameters with rounded arithmetic: util/interp_param.hh, util/filtered_interp_array.hh, util/parameter.hh

`rnd` rounds a result to binary32 (or is the identity: exact arithmetic); every operation is rounded separately. Infinities are not modelled. -/

namespace ParamsFloat

/-- `InterpParam<float, n>::set_new_value`: interp_param.hh:11-14. -/
def paramSet (rnd : ℚ → ℚ) (n : Nat) (p : InterpParam) (v : ℚ) : InterpParam :=
  let d := rnd (v - p.cur)
  { p with step := rnd (d / rnd n) }

/-- `InterpParam<float, n>::next`: interp_param.hh:16-19. -/
def paramNext (rnd : ℚ → ℚ) (p : InterpParam) : InterpParam := { p with cur := rnd (p.cur + p.step) }

/-- `InterpParamVar<float>::set_new_value`: interp_param.hh:39-45. -/
def varSet (rnd : ℚ → ℚ) (p : InterpParamVar) (v : ℚ) (n : Nat) : InterpParamVar :=
  let p := { p with target := v }
  if n > 0 then
    let d := rnd (v - p.cur)
    { p with step := rnd (d / rnd n) }
  else p

/-- `InterpParamVar<float>::next`: interp_param.hh:47-50. -/
def varNext (rnd : ℚ → ℚ) (p : InterpParamVar) : InterpParamVar := { p with cur := rnd (p.cur + p.step) }

/-- `InterpParamVariable<float>::set_new_value`: interp_param.hh:76-80. -/
def variableSet (rnd : ℚ → ℚ) (p : InterpParamVariable) (v : ℚ) : R InterpParamVariable :=
  if p.num = 0 then .ub
  else
    let d := rnd (v - p.cur)
    .ok { p with target := v, step := rnd (d / rnd p.num) }

/-- `InterpParamVariable<float>::next`: interp_param.hh:82-85. -/
def variableNext (rnd : ℚ → ℚ) (p : InterpParamVariable) : InterpParamVariable := { p with cur := rnd (p.cur + p.step) }

variable {N : Nat} {φ : Type}

/-- `FilteredInterpArray::add_new_readings`: filtered_interp_array.hh:27-39. -/
def arrayAdd (rnd : ℚ → ℚ) (addVal : φ → ℚ → φ × ℚ) (s : FilteredInterp N φ) (read : Fin N → ℚ) : FilteredInterp N φ :=
  if s.ready then
    let num := if s.count > 0 then s.count else s.num
    { interps := fun i => varSet rnd (s.interps i) (addVal (s.filters i) (read i)).2 num
      filters := fun i => (addVal (s.filters i) (read i)).1
      ready := false, count := 0, num := num }
  else s

/-- `FilteredInterpArray::get_interp_values`: filtered_interp_array.hh:43-56. -/
def arrayGet (rnd : ℚ → ℚ) (s : FilteredInterp N φ) : FilteredInterp N φ :=
  let c := (s.count + 1) % 2 ^ 32
  { s with count := c, interps := fun i => if c ≥ s.num then (s.interps i).snap else varNext rnd (s.interps i) }

/-- `min_change` of `LatchedParam<float, num, den>`: parameter.hh:6. -/
def latchMin (rnd : ℚ → ℚ) (num den : Nat) : ℚ := rnd (rnd num / rnd den)

/-- `LatchedParam<float, num, den>::store_changed`: parameter.hh:15-22 with `abs_diff` of math.hh:176-178. -/
def latchStore (rnd : ℚ → ℚ) (num den : Nat) (p : Latched ℚ) (x : ℚ) : Latched ℚ × Bool :=
  let d := if x ≥ p.val then rnd (x - p.val) else rnd (p.val - x)
  if d ≥ latchMin rnd num den then (⟨x, true⟩, true) else (p, false)

end ParamsFloat
