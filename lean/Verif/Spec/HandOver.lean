import Verif.Model.HandOver
import Verif.Spec.Spsc
/-!
# Handing over buffers: who may touch what, and what arrives

Everything here is read off the list of observed events, oldest first.
-/
namespace HandOver.Spec
open Spsc (Ev)
variable {V : Type}

/-- The calls of the FIFO among the events. -/
def calls : List (CEv V) → List (Ev Nat)
  | [] => []
  | .fifo e :: es => e :: calls es
  | _ :: es => calls es

/-- What was sent with each item the FIFO accepted, in order: the value last written to the buffer the item names (`m` before the first write). -/
def sent (m : Nat → V) : List (CEv V) → List V
  | [] => []
  | .wrote c v :: es => sent (fun d => if d = c then v else m d) es
  | .fifo (.putRet c true) :: es => m c :: sent m es
  | _ :: es => sent m es

/-- The numbers of the buffers put into the FIFO, in order. -/
def numbers (es : List (CEv V)) : List Nat := Spsc.Spec.accepted (calls es)

/-- What has left the FIFO: `some c` for a number the consumer got, `none` for one it discarded. -/
def gone (es : List (CEv V)) : List (Option Nat) := Spsc.Spec.taken (calls es)

/-- Each buffer is used once: the producer no longer writes a buffer whose number it has put, the consumer reads a buffer only after getting its number. -/
def Once (es : List (CEv V)) : Prop :=
  ∀ pre e post, es = pre ++ e :: post →
    match e with
    | .wrote c _ => c ∉ numbers pre
    | .read c _ => some c ∈ gone pre
    | .fifo _ => True

/-- `M` buffers used in turn: the producer writes only the buffer whose turn it is and puts its number; the consumer reads only the buffer whose number it got last,
as long as it has not taken the next item. -/
def Ring (M : Nat) (es : List (CEv V)) : Prop :=
  ∀ pre e post, es = pre ++ e :: post →
    match e with
    | .wrote c _ => c = (numbers pre).length % M
    | .fifo (.putRet c true) => c = (numbers pre).length % M
    | .read c _ => (gone pre).getLast? = some (some c)
    | .fifo _ => True

/-- Every read of the consumer finds what was sent with the number: with every item that carried it. -/
def AllArrive (m : Nat → V) (es : List (CEv V)) : Prop :=
  ∀ pre c v post, es = pre ++ .read c v :: post → ∀ i : Nat, (gone pre)[i]? = some (some c) → (sent m pre)[i]? = some v

/-- Every read of the consumer finds what was sent with the item it took last. -/
def LastArrives (m : Nat → V) (es : List (CEv V)) : Prop :=
  ∀ pre c v post, es = pre ++ .read c v :: post → (sent m pre)[(gone pre).length - 1]? = some v

end HandOver.Spec
