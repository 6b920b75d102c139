import Verif.Model.ParamsInt
/-!
# Distances and latched parameters of machine integer types

util/math.hh and util/parameter.hh for an integer type `T` (`ParamsInt.Ty`): types narrower than `int` are promoted for arithmetic and the result converted back, which wraps.
-/
namespace DiffInt
open ParamsInt

/-- `abs_diff<T>`: math.hh:176-178. -/
def absDiff (t : Ty) (x y : Int) : R Int := if x ≥ y then op t (x - y) else op t (y - x)

/-- `diff<T>`: math.hh:181-183. -/
def diff (t : Ty) (a b : Int) : R Int := if a > b then op t (a - b) else op t (b - a)

/-- `between<T>`; the difference is converted to `T` by the constructor of the optional: math.hh:49-51. -/
def between (t : Ty) (x low high : Int) : R (Option Int) :=
  if x ≥ low ∧ x ≤ high then (match op t (x - low) with | .ok d => .ok (some d) | .ub => .ub) else .ok none

/-- `min_change = T(num) / T(den)`; `ub`: it does not compile: parameter.hh:6. -/
def minChange (t : Ty) (num den : Nat) : R Int := if conv t den = 0 then .ub else op t ((conv t num).tdiv (conv t den))

/-- `LatchedParam<T>` (parameter.hh:8-9). -/
structure Latched where
  val : Int
  changed : Bool
  deriving DecidableEq, Repr

/-- `store_changed`: parameter.hh:15-22. -/
def store (t : Ty) (m : Int) (p : Latched) (x : Int) : R (Latched × Bool) :=
  match absDiff t x p.val with
  | .ub => .ub
  | .ok d => .ok (if d ≥ m then (⟨x, true⟩, true) else (p, false))

/-- A history of `store_changed` calls (parameter.hh:15-22). -/
def stores (t : Ty) (m : Int) (p : Latched) : List Int → R Latched
  | [] => .ok p
  | x :: l => match store t m p x with
    | .ub => .ub
    | .ok (p, _) => stores t m p l

end DiffInt
