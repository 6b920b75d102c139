import Verif.Model.DoubleBuf
/-! # Specification: what an observer of the stream sees -/

namespace DoubleBuf.Spec
variable {T : Type}

/-- One call: transmit(word), or tx_done_callback(); `res` is what the transmit function answers if the call calls it. -/
inductive Op (T : Type) where
  | transmit (word : List T) (res : Bool)
  | done (res : Bool)
  deriving DecidableEq, Repr

/-- What is observed of a call: the word given (none: the callback), the result, the span handed to the transmit function (if it is called)
and its answer. -/
structure Ev (T : Type) where
  word : Option (List T)
  ret : Bool
  handed : Option (List T)
  res : Bool
  deriving DecidableEq, Repr

/-- One call. -/
def step (size : Nat) (s : DoubleBuf T) : Op T → Ev T × DoubleBuf T
  | .transmit w res => let r := transmit size s w res; (⟨some w, r.2.2, r.2.1, res⟩, r.1)
  | .done res => let r := done s res; (⟨none, true, r.2, res⟩, r.1)

/-- A history of calls from a state: what is observed, and the state. -/
def run (size : Nat) (s : DoubleBuf T) : List (Op T) → List (Ev T) × DoubleBuf T
  | [] => ([], s)
  | o :: l => let r := step size s o; let q := run size r.2 l; (r.1 :: q.1, q.2)

/-- All that was handed to the transmit function, in order. -/
def sent (evs : List (Ev T)) : List T := (evs.map (fun e => e.handed.getD [])).flatten

/-- A word is accepted if transmit() returned true or handed something to the transmit function. All accepted words, in order. -/
def accepted (evs : List (Ev T)) : List T := (evs.map (fun e => if e.ret || e.handed.isSome then e.word.getD [] else [])).flatten

/-- The span being transmitted: the last one handed, until the callback that follows it. -/
def inFlight : Option (List T) → List (Ev T) → Option (List T)
  | cur, [] => cur
  | cur, e :: l => inFlight (if e.handed.isSome then e.handed else if e.word.isNone then none else cur) l

end DoubleBuf.Spec
