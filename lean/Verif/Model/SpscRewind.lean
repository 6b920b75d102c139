import Verif.Model.Spsc
/-!
# `set_read_offset` called by the consumer while the producer is putting

The call makes two accesses: it loads `head_` and stores `tail_`; the producer may do anything in between.
Sequentially consistent memory, as in `Verif/Model/Spsc.lean`.
-/
namespace Spsc

/-- `set_read_offset(offset)`: lockfree_fifo_spsc.hh:119-123; `mid` is what the producer does between the two
accesses. -/
def rewind (cfg : Cfg w) (dflt : T) (mv : T → T) (s : St w T) (offset : BitVec w) (mid : List (Act T)) :
    St w T × List (Ev T) :=
  let head := s.head
  let r := run cfg dflt mv s mid
  if offset ≤ head then ({ r.1 with tail := head - offset }, r.2) else r

/-- What is left to do of a `put` that has found room: lockfree_fifo_spsc.hh:39-42. -/
def finishPut : PPc w T → List (Act T)
  | .put2 .. => [.pStep true, .pStep true]
  | .put3 .. => [.pStep true]
  | _ => []

end Spsc
