import Verif.Basic
/-!
# DoubleBufferStream

util/doublebuf_stream.hh. The two `FixedVector`s are modelled by the list of their elements (their refinement to lists is `FixedVector`'s own
theorem); elements past the capacity cannot be pushed.
-/

/-- doublebuf_stream.hh:36-37. `tx_buffer[0]` is `b0`, `tx_buffer[1]` is `b1`; in_progress_idx `some false` is 0, `some true` is 1. -/
structure DoubleBuf (T : Type) where
  b0 : List T := []
  b1 : List T := []
  idx : Option Bool := none
  deriving DecidableEq, Repr

namespace DoubleBuf
variable {T : Type}

/-- `tx_buffer[i]` (doublebuf_stream.hh:36). -/
def buf (s : DoubleBuf T) : Bool → List T
  | false => s.b0
  | true => s.b1

/-- Replace `tx_buffer[i]` (doublebuf_stream.hh:36). -/
def setBuf (s : DoubleBuf T) : Bool → List T → DoubleBuf T
  | false, l => { s with b0 := l }
  | true, l => { s with b1 := l }

/-- `FixedVector::push_back`: fixed_vector.hh:36-43 (drops the element when full). -/
def pushBack (size : Nat) (l : List T) (x : T) : List T := if l.length < size then l ++ [x] else l

/-- `start_tx`: doublebuf_stream.hh:92-98; `res` is what `transmit_func` answers. The state, the span handed, the result. -/
def startTx (s : DoubleBuf T) (i : Bool) (res : Bool) : DoubleBuf T × List T × Bool :=
  let s := { s with idx := some i }
  (s, s.buf i, res)

/-- `transmit`: doublebuf_stream.hh:46-68. The state, the span handed to transmit_func if it is called, the result. -/
def transmit (size : Nat) (s : DoubleBuf T) (word : List T) (res : Bool) : DoubleBuf T × Option (List T) × Bool :=
  let inactive := !(s.idx.getD true)
  if size - (s.buf inactive).length ≥ word.length then
    let s := s.setBuf inactive (word.foldl (pushBack size) (s.buf inactive))
    if s.idx.isNone then
      let r := startTx s inactive res
      (r.1, some r.2.1, r.2.2)
    else (s, none, true)
  else (s, none, false)

/-- `tx_done_callback`: doublebuf_stream.hh:70-89. The state and the span handed to transmit_func if it is called. -/
def done (s : DoubleBuf T) (res : Bool) : DoubleBuf T × Option (List T) :=
  match s.idx with
  | none => (s, none)
  | some i =>
    let s := s.setBuf i []
    let other := !i
    if (s.buf other).length ≠ 0 then
      let r := startTx s other res
      (r.1, some r.2.1)
    else ({ s with idx := none }, none)

/-! ### Calls made by the transmit function itself -/

/-- A call of `transmit` or `tx_done_callback` from outside or from inside `transmit_func`; `inner` are the calls `transmit_func` makes before it returns `res`, if the call
calls it (doublebuf_stream.hh:39, 96). -/
inductive Call (T : Type) where
  | transmit (word : List T) (res : Bool) (inner : List (Call T))
  | done (res : Bool) (inner : List (Call T))

/-- What is seen of a call: the word (none: the callback), the result, the span handed to `transmit_func` and its answer (doublebuf_stream.hh:46, 70, 96). -/
structure Seen (T : Type) where
  word : Option (List T)
  ret : Bool
  handed : Option (List T)
  res : Bool
  deriving DecidableEq, Repr

/-- `start_tx` with a `transmit_func` that does `f`: doublebuf_stream.hh:92-98. The state afterwards, the span handed, what is seen of the calls made by `transmit_func`, the result. -/
def startTxR (s : DoubleBuf T) (i : Bool) (res : Bool) (f : DoubleBuf T → List (Seen T) × DoubleBuf T) : DoubleBuf T × List T × List (Seen T) × Bool :=
  let s := { s with idx := some i }
  let span := s.buf i
  let r := f s
  (r.2, span, r.1, res)

/-- `transmit` with a `transmit_func` that does `f`: doublebuf_stream.hh:46-68. -/
def transmitR (size : Nat) (s : DoubleBuf T) (word : List T) (res : Bool) (f : DoubleBuf T → List (Seen T) × DoubleBuf T) : List (Seen T) × DoubleBuf T :=
  let inactive := !(s.idx.getD true)
  if size - (s.buf inactive).length ≥ word.length then
    let s := s.setBuf inactive (word.foldl (pushBack size) (s.buf inactive))
    if s.idx.isNone then
      let r := startTxR s inactive res f
      (⟨some word, r.2.2.2, some r.2.1, res⟩ :: r.2.2.1, r.1)
    else ([⟨some word, true, none, res⟩], s)
  else ([⟨some word, false, none, res⟩], s)

/-- `tx_done_callback` with a `transmit_func` that does `f`: doublebuf_stream.hh:70-89. -/
def doneR (s : DoubleBuf T) (res : Bool) (f : DoubleBuf T → List (Seen T) × DoubleBuf T) : List (Seen T) × DoubleBuf T :=
  match s.idx with
  | none => ([⟨none, true, none, res⟩], s)
  | some i =>
    let s := s.setBuf i []
    let other := !i
    if (s.buf other).length ≠ 0 then
      let r := startTxR s other res f
      (⟨none, true, some r.2.1, res⟩ :: r.2.2.1, r.1)
    else ([⟨none, true, none, res⟩], { s with idx := none })

mutual
/-- A call with everything `transmit_func` does inside it (doublebuf_stream.hh:46-98): what is seen, in the order in which the calls begin, and the state. -/
def exec (size : Nat) (s : DoubleBuf T) : Call T → List (Seen T) × DoubleBuf T
  | .transmit w res inner => transmitR size s w res (fun s => execs size s inner)
  | .done res inner => doneR s res (fun s => execs size s inner)
/-- Calls one after the other (doublebuf_stream.hh:46-98). -/
def execs (size : Nat) (s : DoubleBuf T) : List (Call T) → List (Seen T) × DoubleBuf T
  | [] => ([], s)
  | c :: l => let r := exec size s c; let q := execs size r.2 l; (r.1 ++ q.1, q.2)
end

end DoubleBuf
