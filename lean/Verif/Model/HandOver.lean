import Verif.Model.SpscWeak
/-!
# Data handed over through a FIFO of buffer numbers

Two threads that share an array of buffers and pass buffer numbers (or pointers) through a `LockFreeFifoSpsc`
(/repo/util/lockfree_fifo_spsc.hh:33-44, 66-92, 98-108) or a `LockFreeFifoSpscDyn` (lockfree_fifo_spsc_dyn.hh:53-64, 86-130), under the C++ memory model of
`Verif.Model.SpscWeak`: the producer fills a buffer with plain writes and puts its number, the consumer gets the number and
reads the buffer with plain reads. The client code is the usual one for such a FIFO; it is not part of the library. A buffer is one memory cell; an access to it conflicts with
an access of the other thread from an epoch the accessing thread has not learnt about exactly as for the slots of the FIFO itself.
-/
namespace HandOver
open SpscWeak (St)
open Spsc (Cfg Ev)
variable {w : Nat} {V : Type}

/-- The FIFO (lockfree_fifo_spsc.hh:140-142) and the buffers of the client, with the epochs of the last accesses to them. -/
structure Sys (w : Nat) (V : Type) where
  fifo : St w Nat
  val : Nat → V
  wEp : Nat → Nat
  rEp : Nat → Nat
  /-- a data race on a buffer has happened -/
  race : Bool

/-- A scheduler decision: a step of the FIFO (lockfree_fifo_spsc.hh:33-108), or a plain access to a buffer. -/
inductive Act (V : Type) where
  | fifo (a : SpscWeak.Act Nat)
  | pWrite (c : Nat) (v : V)
  | cRead (c : Nat)

/-- What can be observed: returned calls of the FIFO (lockfree_fifo_spsc.hh:33-108), writes of the producer, reads of the consumer with the value read. -/
inductive CEv (V : Type) where
  | fifo (e : Ev Nat)
  | wrote (c : Nat) (v : V)
  | read (c : Nat) (v : V)
  deriving DecidableEq

/-- an empty FIFO (lockfree_fifo_spsc.hh:140-142) and buffers nobody has touched -/
def init (w cap : Nat) (v0 : V) : Sys w V := ⟨SpscWeak.init w cap 0, fun _ => v0, fun _ => 0, fun _ => 0, false⟩

/-- One scheduler decision (lockfree_fifo_spsc.hh:33-108). A thread accesses buffers only between its calls of the FIFO. -/
def step (cfg : Cfg w) (acq : Bool) (mvf : Nat → Nat) (s : Sys w V) : Act V → Sys w V × List (CEv V)
  | .fifo a =>
    let r := SpscWeak.step cfg acq mvf s.fifo a
    ({ s with fifo := r.1 }, r.2.map .fifo)
  | .pWrite c v =>
    match s.fifo.ppc with
    | .idle =>
      ({ s with
          race := s.race || decide (s.fifo.pknow < s.rEp c),
          val := fun d => if d = c then v else s.val d,
          wEp := fun d => if d = c then s.fifo.pclk else s.wEp d }, [.wrote c v])
    | _ => (s, [])
  | .cRead c =>
    match s.fifo.cpc with
    | .idle =>
      ({ s with
          race := s.race || decide (s.fifo.cknow < s.wEp c),
          rEp := fun d => if d = c then s.fifo.cclk else s.rEp d }, [.read c (s.val c)])
    | _ => (s, [])

/-- A whole schedule, with everything observed, oldest first (lockfree_fifo_spsc.hh:33-108). -/
def run (cfg : Cfg w) (acq : Bool) (mvf : Nat → Nat) : Sys w V → List (Act V) → Sys w V × List (CEv V)
  | s, [] => (s, [])
  | s, a :: as =>
    let r := step cfg acq mvf s a
    let r' := run cfg acq mvf r.1 as
    (r'.1, r.2 ++ r'.2)

end HandOver
