import Verif.Model.Throwing
import Verif.Model.DoubleBuf
/-! # A DoubleBufferStream whose elements or whose transmit function throw

util/doublebuf_stream.hh. The calls of Model/DoubleBuf.lean statement by statement, with an exception possible at every copy of an
element and in `transmit_func` (`Throwing.elem`). An assignment that throws leaves its target as it was. -/
namespace ThrowStream
open Throwing

variable {T : Type}

/-- `for (auto d : word) inactive_buf.push_back(d)`: doublebuf_stream.hh:51-52, fixed_vector.hh:36-43: `d` is a copy, so is the
argument of `push_back`, and the element is assigned from it if there is room. -/
def copyIn (size : Nat) (i : Bool) : List T → E (DoubleBuf T) Unit
  | [] => pure ()
  | x :: word => do
    elem
    elem
    let s ← members
    if (s.buf i).length < size then do
      elem
      update fun s => s.setBuf i (s.buf i ++ [x])
      copyIn size i word
    else copyIn size i word

/-- `start_tx`: doublebuf_stream.hh:92-98; `res` is what `transmit_func` answers if it returns. -/
def startTx (i : Bool) (res : Bool) : E (DoubleBuf T) Bool := do
  update fun s => { s with idx := some i }
  elem
  pure res

/-- `transmit`: doublebuf_stream.hh:46-68. -/
def transmit (size : Nat) (word : List T) (res : Bool) : E (DoubleBuf T) Bool := do
  let s ← members
  if size - (s.buf (!(s.idx.getD true))).length ≥ word.length then do
    copyIn size (!(s.idx.getD true)) word
    if s.idx.isNone then startTx (!(s.idx.getD true)) res else pure true
  else pure false

/-- `tx_done_callback`: doublebuf_stream.hh:70-89. -/
def done (res : Bool) : E (DoubleBuf T) Unit := do
  let s ← members
  match s.idx with
  | none => pure ()
  | some i => do
    update fun s => s.setBuf i []
    if (s.buf (!i)).length ≠ 0 then do
      let _ ← startTx (!i) res
      pure ()
    else update fun s => { s with idx := none }

end ThrowStream
