import Verif.Model.SpscWeak
/-! # Specification: interleavings among the weak-memory executions -/
namespace SpscIncl

/-- the calls and steps that both models of the FIFO have (`num_free()` and `num_filled()` load `head_` first) -/
def Common {T : Type} : Spsc.Act T → Prop
  | .pCall (.put _) | .pCall .numFree => True
  | .pCall _ => False
  | .pStep headFirst => headFirst = true
  | .cCall .get | .cCall .getMove | .cCall .removeFirst | .cCall .numFilled | .cCall .reset => True
  | .cCall _ => False
  | .cStep headFirst => headFirst = true

/-- what calls return (the beginnings of calls left out) -/
def returns {T : Type} : List (Spsc.Ev T) → List (Spsc.Ev T)
  | [] => []
  | .numFreeCall :: es | .numFilledCall :: es | .resetCall :: es => returns es
  | e :: es => e :: returns es

end SpscIncl
