import Verif.Spec.Spsc
/-!
# Items covered by the last `num_filled()`

A `num_filled()` that returned `n` says that `n` items may be taken; each item taken uses up one of them.
-/
namespace Spsc.Spec
variable {T : Type}

/-- How many of the items announced by the last `num_filled()` have not been taken after the calls `es`, `b` of them being left before. -/
def credit (b : Nat) : List (Ev T) → Nat
  | [] => b
  | .numFilledRet n :: es => credit n es
  | .getRet (some _) :: es => credit (b - 1) es
  | .removeRet true :: es => credit (b - 1) es
  | _ :: es => credit b es

/-- Some `get()` or `get_move()` among the calls `es` returned an item that the last `num_filled()` before it had not announced. -/
def Blind (b : Nat) : List (Ev T) → Prop
  | [] => False
  | .numFilledRet n :: es => Blind n es
  | .getRet (some _) :: es => b = 0 ∨ Blind (b - 1) es
  | .removeRet true :: es => Blind (b - 1) es
  | _ :: es => Blind b es

end Spsc.Spec
