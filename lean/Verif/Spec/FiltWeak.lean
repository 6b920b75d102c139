import Verif.Model.FiltWeak
/-! # Specification: which readings have been announced, and which have been used (C166) -/

namespace FiltWeak.Spec
variable {N : Nat}

/-- For each channel: how many readings were written; how many of them when mark_new_data_ready() was last called; which one its filter was last given (0 is the initial value). -/
structure Book (N : Nat) where
  written : Fin N → Nat
  marked : Fin N → Nat
  used : Fin N → Nat

def start : Book N := ⟨fun _ => 0, fun _ => 0, fun _ => 0⟩

def note (b : Book N) : Event N → Book N
  | .wrote i _ => { b with written := Function.update b.written i (b.written i + 1) }
  | .marked => { b with marked := b.written }
  | .got i k _ => { b with used := Function.update b.used i k }
  | _ => b

/-- The books after some events. -/
def book (es : List (Event N)) : Book N := es.foldl note start

/-- The values written to channel `i`, oldest first. -/
def values (i : Fin N) : List (Event N) → List ℚ
  | [] => []
  | .wrote j v :: es => if j = i then v :: values i es else values i es
  | _ :: es => values i es

/-- No mark_new_data_ready() between the load of the flag in a call of add_new_readings() and its clearing (`b`: now between the two). -/
def quiet : Bool → List (Event N) → Bool
  | _, [] => true
  | _, .started :: es => quiet true es
  | _, .cleared :: es => quiet false es
  | b, .marked :: es => !b && quiet b es
  | b, _ :: es => quiet b es

end FiltWeak.Spec
