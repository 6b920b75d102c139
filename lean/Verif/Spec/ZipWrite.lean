/-! # Specification for C239: the body acts on one row (the i-th elements of the containers) at a time -/

namespace ZipWrite.Spec

variable {α : Type}

/-- The body's assignments carried out on plain variables, one per container: assignment `(k, f)` sets the variable of the k-th argument to f of the values of all arguments. Arguments that name the same container share a variable. -/
def onRow (args : List Nat) : List (Nat × (List α → α)) → (Nat → α) → Nat → α
  | [], v => v
  | (k, f) :: st, v => onRow args st fun b => if args[k]? = some b then f (args.map v) else v b

end ZipWrite.Spec
