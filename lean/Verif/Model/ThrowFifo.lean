import Verif.Model.Throwing
import Verif.Model.Spsc
/-! # FIFOs of elements whose copying may throw, and `resize` without enough memory

util/lockfree_fifo_spsc.hh, util/lockfree_fifo_spsc_dyn.hh. One call at a time; an exception is possible at every construction and
assignment of an element and at every allocation (`Throwing.elem`). An assignment that throws leaves both sides as they were;
`std::vector::resize` that throws leaves the vector as it was (the standard's guarantee for elements that can be copied). -/
namespace ThrowFifo
open Throwing Spsc

variable {w : Nat} {T : Type}

/-- `put`: lockfree_fifo_spsc.hh:33-44; lockfree_fifo_spsc_dyn.hh:53-64; the argument is a copy. -/
def put (cfg : Cfg w) (item : T) : E (Spsc.St w T) Bool := do
  elem
  let s ← members
  if s.head - s.tail = BitVec.ofNat w cfg.cap then pure false
  else do
    let _ ← access (arrGet s.buf (cfg.idx s.head))
    elem
    update fun s => { s with buf := s.buf.set (cfg.idx s.head) item }
    update fun s => { s with head := s.head + 1#w }
    pure true

/-- `get`: lockfree_fifo_spsc.hh:66-78; lockfree_fifo_spsc_dyn.hh:86-98: `item` is a copy, the result is constructed from it
after `tail_` has been stored. -/
def get (cfg : Cfg w) : E (Spsc.St w T) (Option T) := do
  let s ← members
  if s.tail = s.head then pure none
  else do
    let v ← access (arrGet s.buf (cfg.idx s.tail))
    elem
    update fun s => { s with tail := s.tail + 1#w }
    elem
    pure (some v)

/-- `get_move`: lockfree_fifo_spsc.hh:80-92; lockfree_fifo_spsc_dyn.hh:100-112; what is moved from becomes `mv`. The result is what the
argument is assigned, if it is. -/
def getMove (cfg : Cfg w) (mv : T → T) : E (Spsc.St w T) (Option T) := do
  let s ← members
  if s.tail = s.head then pure none
  else do
    let v ← access (arrGet s.buf (cfg.idx s.tail))
    elem
    update fun s => { s with buf := s.buf.set (cfg.idx s.tail) (mv v) }
    update fun s => { s with tail := s.tail + 1#w }
    pure (some v)

/-- A `LockFreeFifoSpscDyn`: `max_size_` and the other members (lockfree_fifo_spsc_dyn.hh:159-163). -/
structure Dyn (w : Nat) (T : Type) where
  max : Nat
  st : Spsc.St w T
  deriving DecidableEq, Repr

/-- `LockFreeFifoSpscDyn::resize`: lockfree_fifo_spsc_dyn.hh:35-48. Giving memory back does not throw; getting it, and making the new
elements, is one operation that may. -/
def resize (dflt : T) (newN : Nat) : E (Dyn w T) Unit := do
  let d ← members
  if newN ≠ d.max then do
    update fun d => { d with st := { d.st with tail := d.st.head } }
    if newN < d.max then update fun d => { d with st := { d.st with buf := [] } } else pure ()
    elem
    update fun d => { d with st := { d.st with buf := d.st.buf ++ List.replicate (newN - d.st.buf.length) dflt } }
    update fun d => { d with max := newN }
  else pure ()

/-- `put` of a `LockFreeFifoSpscDyn`: lockfree_fifo_spsc_dyn.hh:53-64. -/
def putDyn (item : T) : E (Dyn w T) Bool := fun d n =>
  match put (dynCfg w d.max) item d.st n with
  | .done a s n => .done a { d with st := s } n
  | .threw s => .threw { d with st := s }
  | .ub => .ub

end ThrowFifo
