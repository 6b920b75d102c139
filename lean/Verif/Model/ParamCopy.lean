import Verif.Model.Params
/-!
# Parameters assigned from one another

util/parameter.hh: `a = b` for two `Parameter<T>` is the implicit copy assignment, not `operator=(const T &)`, and for two `LatchedParam` the one of parameter.hh:36-40. (A RefParameter cannot be assigned from another.)
-/
namespace ParamCopy
variable {ι α : Type} [DecidableEq ι] [DecidableEq α]

/-- `a = b` with both of type `Parameter<T>`: the implicit copy assignment of parameter.hh:47-90, member by member. -/
def copyAssign (_a b : Param α) : Param α := ⟨b.cur, b.changed⟩

/-- A program with several parameters: parameter.hh:47-90. -/
inductive Op (ι α : Type) where
  | set (i : ι) (v : α)
  | check (i : ι)
  | assign (i j : ι)

/-- One statement: `p[i].setValue(v)`, `p[i].isChanged()`, `p[i] = p[j]`: parameter.hh:58-63, 69-73. -/
def step (w : ι → Param α) : Op ι α → (ι → Param α)
  | .set i v => fun k => if k = i then (w i).set v else w k
  | .check i => fun k => if k = i then (w i).isChanged.1 else w k
  | .assign i j => fun k => if k = i then copyAssign (w i) (w j) else w k

end ParamCopy
