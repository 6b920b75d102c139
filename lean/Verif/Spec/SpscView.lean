import Verif.Spec.Spsc
/-!
# A bounded queue used by one thread

What a FIFO of capacity `cap` answers if the calls are made one after the other; and which calls belong to which thread.
-/
namespace Spsc.Spec
variable {T : Type}

/-- The queue after the calls `es`, one after the other, on a queue that holds `q`; `none` if some answer is not the right one. -/
def play [DecidableEq T] (cap : Nat) (q : List T) : List (Ev T) → Option (List T)
  | [] => some q
  | .putRet x true :: es => if q.length < cap then play cap (q ++ [x]) es else none
  | .putRet _ false :: es => if q.length = cap then play cap q es else none
  | .numFreeRet n :: es => if n + q.length = cap then play cap q es else none
  | .fullRet b :: es => if b = decide (q.length = cap) then play cap q es else none
  | .getRet r :: es => if q.head? = r then play cap q.tail es else none
  | .getOrDefaultRet true v :: es => if q.head? = some v then play cap q.tail es else none
  | .getOrDefaultRet false _ :: es => if q = [] then play cap q es else none
  | .removeRet b :: es => if b = decide (q ≠ []) then play cap q.tail es else none
  | .numFilledRet n :: es => if n = q.length then play cap q es else none
  | .emptyRet b :: es => if b = decide (q = []) then play cap q es else none
  | .resetRet n :: es => if n = q.length then play cap [] es else none
  | .numFreeCall :: es => play cap q es
  | .numFilledCall :: es => play cap q es
  | .resetCall :: es => play cap q es

/-- The answers `es` are those of a queue of capacity `cap`, empty at first, whose calls are made one after the other. -/
def Sequential [DecidableEq T] (cap : Nat) (es : List (Ev T)) : Prop := (play cap [] es).isSome

/-- `put()` or `num_free()` returned. -/
def byProducer : Ev T → Bool
  | .putRet _ _ => true
  | .numFreeRet _ => true
  | _ => false

/-- `put()` returned true. -/
def putOk : Ev T → Bool
  | .putRet _ true => true
  | _ => false

/-- `get()`, `get_move()`, `remove_first()` or `num_filled()` returned. -/
def byConsumer : Ev T → Bool
  | .getRet _ => true
  | .removeRet _ => true
  | .numFilledRet _ => true
  | _ => false

/-- `get()` or `get_move()` returned an item, or `remove_first()` removed one. -/
def tookOne : Ev T → Bool
  | .getRet (some _) => true
  | .removeRet true => true
  | _ => false

/-- A call returned that moves an item or tries to: `put()`, `get()`, `get_move()`, `get_or_default()`, `remove_first()`. -/
def transfer : Ev T → Bool
  | .putRet _ _ => true
  | .getRet _ => true
  | .getOrDefaultRet _ _ => true
  | .removeRet _ => true
  | _ => false

end Spsc.Spec
