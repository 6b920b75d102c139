import Verif.Model.ParamCopy
/-! # Specification: parameters assigned from one another (C212) -/

namespace ParamCopy.Spec
variable {ι α : Type} [DecidableEq ι] [DecidableEq α]

/-- What is known of each parameter: its value, and whether it was given a different value since it was last asked (or never was asked). -/
def step (w : ι → α × Bool) : Op ι α → (ι → α × Bool)
  | .set i v => fun k => if k = i then (v, (w i).2 || decide (v ≠ (w i).1)) else w k
  | .check i => fun k => if k = i then ((w i).1, false) else w k
  | .assign i j => fun k => if k = i then ((w j).1, (w i).2 || decide ((w j).1 ≠ (w i).1)) else w k

end ParamCopy.Spec
