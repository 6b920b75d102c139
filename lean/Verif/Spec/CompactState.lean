import Verif.Model.CompactState
import Verif.Spec.CompactBinary
/-! # Specification: what callables with a state describe (C213) -/

namespace CompactState.Spec
open CompactBinary CompactBinary.Spec

variable {σ : Type}

/-- All keys are valid in every state. -/
def keysOk (f : Fmt) : Sub σ → Prop
  | .done => True
  | .raw g rest => (∀ s, validKey f (g s).2.1) ∧ keysOk f rest
  | .object g sub rest => (∀ s, validKey f (g s).2) ∧ keysOk f sub ∧ keysOk f rest
  | .branch _ a b => keysOk f a ∧ keysOk f b

/-- Whatever the state the callable makes the same sequence of calls with data of the same sizes; values and keys may differ. -/
def Steady : Sub σ → Prop
  | .done => True
  | .raw g rest => (∃ n, ∀ s, (g s).2.2.length = n) ∧ Steady rest
  | .object _ sub rest => Steady sub ∧ Steady rest
  | .branch _ _ _ => False

/-- The state after the callable has been run once on a `Measurer` of any kind: every callable in it has been run once. -/
def afterOne : Sub σ → σ → σ
  | .done, s => s
  | .raw g rest, s => afterOne rest (g s).1
  | .object g sub rest, s => afterOne rest (afterOne sub (g s).1)
  | .branch c a b, s => if c s then afterOne a s else afterOne b s

/-- What is written: the values of the last run of each callable, each sub-callable being run once more just before. -/
def result : Sub σ → σ → σ × Desc
  | .done, s => (s, .done)
  | .raw g rest, s => ((result rest (g s).1).1, .raw (g s).2.1 (g s).2.2 (result rest (g s).1).2)
  | .object g sub rest, s =>
    let r := result sub (afterOne sub (g s).1)
    ((result rest r.1).1, .object (g s).2 r.2 (result rest r.1).2)
  | .branch c a b, s => if c s then result a s else result b s

/-- A callable inside `n` sub-objects that counts its invocations. -/
def counter (key : List Byte) : Nat → Sub Nat
  | 0 => .raw (fun s => (s + 1, key, [])) .done
  | n + 1 => .object (fun s => (s, key)) (counter key n) .done

end CompactState.Spec
