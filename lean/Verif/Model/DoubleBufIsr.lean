import Verif.Model.DoubleBuf
/-!
# DoubleBufferStream with its callback in an interrupt

util/doublebuf_stream.hh: `transmit()` in the main program, cut at every access to the shared members; `tx_done_callback()` in an interrupt, between any two of these steps. The header warns (21-24) that this is not safe; here is when it is.
The interrupt is only raised for a transmission that was started: after `transmit_func` has been called and has answered `true`. A push is one step: the interrupt
does not write the members of the buffer that is pushed to, so in the middle of a push it sees what it would see before or after it.
-/
namespace DoubleBufIsr
variable {T : Type}

/-- Where `transmit()` is: not called; has read `in_progress_idx` and chosen buffer `i` (47-48); pushes `rest` into it (51-52); has seen that nothing is in progress (57-59); has set `in_progress_idx` in start_tx (93):
doublebuf_stream.hh:46-68, 92-98. -/
inductive Pc (T : Type) where
  | idle
  | chosen (i : Bool) (word : List T)
  | pushing (i : Bool) (rest : List T)
  | starting (i : Bool)
  | handing (i : Bool)
  deriving DecidableEq, Repr

/-- The object (doublebuf_stream.hh:36-37), the point of the main program, the span that the hardware is transmitting, and the record of what was handed to `transmit_func` and of the words `transmit()` took (50). -/
structure St (T : Type) where
  s : DoubleBuf T := {}
  pc : Pc T := .idle
  flight : Option (List T) := none
  sent : List T := []
  acc : List T := []
  deriving DecidableEq, Repr

/-- The main program calls `transmit(word)` and reads `in_progress_idx`: doublebuf_stream.hh:46-48. -/
def begin_ (st : St T) (w : List T) : St T := { st with pc := .chosen (!(st.s.idx.getD true)) w }

/-- The next step of `transmit()`; `res` is what `transmit_func` answers, if it is this step that calls it: doublebuf_stream.hh:50 (the test of the space), 52 (one push), 57 (whether one is in progress), 93, 96. -/
def thread (size : Nat) (st : St T) (res : Bool) : St T :=
  match st.pc with
  | .idle => st
  | .chosen i w => if size - (st.s.buf i).length ≥ w.length then { st with pc := .pushing i w, acc := st.acc ++ w } else { st with pc := .idle }
  | .pushing i (x :: rest) => { st with s := st.s.setBuf i (DoubleBuf.pushBack size (st.s.buf i) x), pc := .pushing i rest }
  | .pushing i [] => if st.s.idx.isNone then { st with pc := .starting i } else { st with pc := .idle }
  | .starting i => { st with s := { st.s with idx := some i }, pc := .handing i }
  | .handing i => { st with pc := .idle, flight := if res then some (st.s.buf i) else none, sent := st.sent ++ st.s.buf i }

/-- The interrupt: the transmission in flight is complete and `tx_done_callback()` runs: doublebuf_stream.hh:70-89. -/
def isr (st : St T) (res : Bool) : St T :=
  match st.flight with
  | none => st
  | some _ =>
    let r := st.s.done res
    { st with s := r.1, flight := if res then r.2 else none, sent := st.sent ++ r.2.getD [] }

/-- What happens next: a call, a step of the main program, or the interrupt (doublebuf_stream.hh:46-98). -/
inductive Act (T : Type) where
  | begin_ (w : List T)
  | thread (res : Bool)
  | isr (res : Bool)
  deriving DecidableEq, Repr

/-- One step; a call only begins when the last one has returned (doublebuf_stream.hh:46-98). -/
def step (size : Nat) (st : St T) : Act T → St T
  | .begin_ w => match st.pc with
    | .idle => begin_ st w
    | _ => st
  | .thread res => thread size st res
  | .isr res => isr st res

/-- A schedule (doublebuf_stream.hh:46-98). -/
def run (size : Nat) (st : St T) : List (Act T) → St T
  | [] => st
  | a :: l => run size (step size st a) l

end DoubleBufIsr
