import Verif.Model.Params

/-! Specification for C237: what someone who only sees the calls made on a FilteredInterpArray can count and collect. -/

namespace FiltHull

/-- A call: new data announced, add_new_readings with these readings, get_interp_values, set_num_updates. -/
inductive Ev (N : Nat) where
  | mark
  | add (r : Fin N → ℚ)
  | get
  | setNum (n : Nat)

/-- What the calls so far tell: is there announced data, how many updates since the last readings were taken, over how many updates these readings are spread, and have any been taken. -/
structure Seen where
  ready : Bool := false
  gets : Nat := 0
  spread : Nat := 256
  started : Bool := false

/-- The bookkeeping of one call. Readings are spread over as many updates as there were since the previous ones. -/
def Seen.after {N : Nat} (c : Seen) : Ev N → Seen
  | .mark => { c with ready := true }
  | .add _ => if c.ready then ⟨false, 0, if c.gets > 0 then c.gets else c.spread, true⟩ else c
  | .get => { c with gets := c.gets + 1 }
  | .setNum n => { c with spread := n }

/-- A calm history: fewer than 2^32 updates between readings, and set_num_updates, once readings have been taken, only ever lowers the number of updates they are spread over. -/
def Calm {N : Nat} : Seen → List (Ev N) → Prop
  | _, [] => True
  | c, e :: es => (match e with
      | .get => c.gets + 1 < 2 ^ 32
      | .setNum n => c.started = true → n ≤ c.spread
      | _ => True) ∧ Calm (c.after e) es

/-- The readings of channel `i` that were taken: those of the calls of add_new_readings that find announced data. -/
def taken {N : Nat} (i : Fin N) : Bool → List (Ev N) → List ℚ
  | _, [] => []
  | _, .mark :: es => taken i true es
  | true, .add r :: es => r i :: taken i false es
  | false, .add _ :: es => taken i false es
  | b, _ :: es => taken i b es

/-- The outputs of a filter fed with a list of readings. -/
def filtered {φ : Type} (addVal : φ → ℚ → φ × ℚ) : φ → List ℚ → List ℚ
  | _, [] => []
  | f, x :: xs => (addVal f x).2 :: filtered addVal (addVal f x).1 xs

end FiltHull
