import Verif.Model.FiltConc
/-! # Specification: which readings have been announced, and which have been used -/

namespace FiltConc.Spec
variable {N : Nat} {φ : Type}

/-- For each channel: how many readings were written; how many of them when mark_new_data_ready() was last called; how many when its filter was last given a reading. -/
structure Book (N : Nat) where
  written : Fin N → Nat
  marked : Fin N → Nat
  used : Fin N → Nat

def start : Book N := ⟨fun _ => 0, fun _ => 0, fun _ => 0⟩

def note (b : Book N) : Event N → Book N
  | .wrote i _ => { b with written := Function.update b.written i (b.written i + 1) }
  | .marked => { b with marked := b.written }
  | .got i _ => { b with used := Function.update b.used i (b.written i) }
  | .ended => b

/-- The books after some events. -/
def book (es : List (Event N)) : Book N := es.foldl note start

/-- The value written last to channel `i`. -/
def last (x : ℚ) (i : Fin N) : List (Event N) → ℚ
  | [] => x
  | .wrote j v :: es => last (if j = i then v else x) i es
  | _ :: es => last x i es

/-- Is the event a mark? -/
def isMark : Event N → Bool
  | .marked => true
  | _ => false

/-- Is it the end of a call that used readings? -/
def isEnd : Event N → Bool
  | .ended => true
  | _ => false

/-- The readings the filters were given. -/
def gots : List (Event N) → List (Fin N × ℚ)
  | [] => []
  | .got i v :: es => (i, v) :: gots es
  | _ :: es => gots es

/-- Steps of the producer. -/
def isProducer : Act N → Bool
  | .write _ _ => true
  | .mark => true
  | _ => false

/-- Is it a step of a running add_new_readings()? -/
def isCont : Act N → Bool
  | .cont => true
  | _ => false

/-- The array but for the flag. -/
def Same (a b : FilteredInterp N φ) : Prop := a.interps = b.interps ∧ a.filters = b.filters ∧ a.count = b.count ∧ a.num = b.num

end FiltConc.Spec
