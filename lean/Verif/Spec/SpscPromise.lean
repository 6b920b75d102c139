import Verif.Spec.SpscCover
/-!
# What `num_free()` and `num_filled()` promise

`num_free()` returning `n` promises the producer that its next `n` `put`s are accepted; `num_filled()` returning `n` promises the consumer
that its next `n` calls find an item.
-/
namespace Spsc.Spec
variable {T : Type}

/-- How many of the `put`s promised by the last `num_free()` have not been made after the calls `es`, `b` of them being left before. -/
def room (b : Nat) : List (Ev T) → Nat
  | [] => b
  | .numFreeRet n :: es => room n es
  | .putRet _ true :: es => room (b - 1) es
  | _ :: es => room b es

/-- Among the calls `es` a promise of `num_free()` is broken: a `put` is refused, or a later `num_free()` is smaller, while more than that is still promised. -/
def RoomBroken (b : Nat) : List (Ev T) → Prop
  | [] => False
  | .numFreeRet n :: es => n < b ∨ RoomBroken n es
  | .putRet _ true :: es => RoomBroken (b - 1) es
  | .putRet _ false :: es => 0 < b ∨ RoomBroken b es
  | _ :: es => RoomBroken b es

/-- Among the calls `es` a promise of `num_filled()` is broken: a `get()`, `get_move()` or `remove_first()` finds nothing, or a later `num_filled()` is smaller, while more than that is still promised. -/
def FilledBroken (b : Nat) : List (Ev T) → Prop
  | [] => False
  | .numFilledRet n :: es => n < b ∨ FilledBroken n es
  | .getRet (some _) :: es => FilledBroken (b - 1) es
  | .removeRet true :: es => FilledBroken (b - 1) es
  | .getRet none :: es => 0 < b ∨ FilledBroken b es
  | .removeRet false :: es => 0 < b ∨ FilledBroken b es
  | _ :: es => FilledBroken b es

end Spsc.Spec
