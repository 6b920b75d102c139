import Verif.Model.Pool
/-! # Specification of ownership of pool entries, in terms of what the threads observe -/
namespace TsPool.Spec

/-- The threads that own entry `i` after some observations: each got `i` from create() and has not yet destroyed it. -/
def owners (i : Nat) : List Event → List Nat → List Nat
  | [], l => l
  | .created t j :: es, l => owners i es (if j = i then t :: l else l)
  | .destroyed t j true :: es, l => owners i es (if j = i then l.erase t else l)
  | .destroyed _ _ false :: es, l | .failed _ :: es, l | .used _ _ _ :: es, l => owners i es l

/-- The rule of use: a thread calls destroy only on entries it owns. `own` are the owners so far. -/
def disciplined : List (Nat × Act × List Event) → (Nat → List Nat) → Prop
  | [], _ => True
  | (t, a, es) :: l, own =>
    (∀ i, a = .destroy i → t ∈ own i) ∧ disciplined l (fun i => owners i es (own i))

/-- The schedule together with what each step observed. -/
def trace (c : Cfg) : List (Nat × Act) → List (Nat × Act × List Event)
  | [] => []
  | (t, a) :: l =>
    match step c t a with
    | none => []
    | some (c1, e1) => (t, a, e1) :: trace c1 l

end TsPool.Spec
