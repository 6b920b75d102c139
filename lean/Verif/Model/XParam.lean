import Verif.Model.XMath
/-!
# Parameters of floats, including infinities and NaN (util/parameter.hh, util/interp_param.hh)
-/
namespace XParam
open XFlt

/-- `Parameter<float>`: parameter.hh:47-90. -/
structure Param where
  cur : XF
  changed : Bool
  deriving DecidableEq

/-- `setValue` and `operator=`: parameter.hh:58-63, 83-85. -/
def Param.set (p : Param) (v : XF) : Param := if !eq v p.cur then ⟨v, true⟩ else p

/-- `isChanged`: parameter.hh:69-73. -/
def Param.isChanged (p : Param) : Param × Bool := ({ p with changed := false }, p.changed)

/-- `RefParameter<float>` with the variable it refers to: parameter.hh:93-129. -/
structure RefParam where
  ref : XF
  last : XF
  deriving DecidableEq

/-- `isChanged`: parameter.hh:106-112. -/
def RefParam.isChanged (p : RefParam) : RefParam × Bool := if eq p.ref p.last then (p, false) else ({ p with last := p.ref }, true)

/-- `LatchedParam<float, num, den>`: parameter.hh:4-45. -/
structure Latched where
  val : XF
  changed : Bool
  deriving DecidableEq

/-- `min_change`: parameter.hh:6. -/
def minChange (rnd : ℚ → ℚ) (num den : Nat) : XF := div rnd (ofQ rnd num) (ofQ rnd den)

/-- `store_changed`: parameter.hh:15-22. -/
def Latched.store (rnd : ℚ → ℚ) (num den : Nat) (p : Latched) (x : XF) : Latched × Bool :=
  if le (minChange rnd num den) (XMath.absDiff rnd x p.val) then (⟨x, true⟩, true) else (p, false)

/-- `operator=(T)`: parameter.hh:32-34. -/
def Latched.assign (p : Latched) (x : XF) : Latched := { p with val := x }

/-- `InterpParam<float, n>`: interp_param.hh:3-29. -/
structure Interp where
  cur : XF
  step : XF
  deriving DecidableEq

/-- `set_new_value`: interp_param.hh:11-14. -/
def Interp.set (rnd : ℚ → ℚ) (n : Nat) (p : Interp) (v : XF) : Interp := { p with step := div rnd (sub rnd v p.cur) (ofQ rnd n) }

/-- `next`: interp_param.hh:16-19. -/
def Interp.next (rnd : ℚ → ℚ) (p : Interp) : Interp := { p with cur := add rnd p.cur p.step }

/-- `InterpParamVar<float>`: interp_param.hh:31-65. -/
structure Var where
  cur : XF
  target : XF
  step : XF
  deriving DecidableEq

/-- `set_new_value`: interp_param.hh:39-45. -/
def Var.set (rnd : ℚ → ℚ) (p : Var) (v : XF) (n : Nat) : Var :=
  let p := { p with target := v }
  if n > 0 then { p with step := div rnd (sub rnd v p.cur) (ofQ rnd n) } else p

/-- `next`: interp_param.hh:47-50. -/
def Var.next (rnd : ℚ → ℚ) (p : Var) : Var := { p with cur := add rnd p.cur p.step }

/-- `snap_to_target`: interp_param.hh:56-59. -/
def Var.snap (p : Var) : Var := { p with cur := p.target }

/-- `InterpParamVariable<float>`: interp_param.hh:67-105. -/
structure Variable where
  cur : XF
  target : XF
  step : XF
  num : Nat
  deriving DecidableEq

/-- `set_new_value`: interp_param.hh:76-80. -/
def Variable.set (rnd : ℚ → ℚ) (p : Variable) (v : XF) : Variable := { p with target := v, step := div rnd (sub rnd v p.cur) (ofQ rnd p.num) }

/-- `next`: interp_param.hh:82-85. -/
def Variable.next (rnd : ℚ → ℚ) (p : Variable) : Variable := { p with cur := add rnd p.cur p.step }

/-- `set_num_updates`: interp_param.hh:91-93. -/
def Variable.setNum (p : Variable) (n : Nat) : Variable := { p with num := n }

end XParam
