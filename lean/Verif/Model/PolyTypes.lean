import Verif.Basic
import Verif.Mem
import Mathlib.Algebra.Order.Field.Rat
import Mathlib.Data.Rat.Floor
/-!
# `is_poly_concave` for `int64_t`, `float` and other coordinate types (util/geometry.hh)

Values of the coordinate type are rationals (no infinities, no NaN); its arithmetic, and the conversion of a cross product to the `int` in which the first turn is kept, are parameters and may round, wrap or be undefined.
-/
namespace PolyTypes

/-- The arithmetic of the coordinate type, after promotion: subtraction, multiplication, conversion to `int` (geometry.hh:78, 90). -/
structure Arith where
  sub : ℚ → ℚ → R ℚ
  mul : ℚ → ℚ → R ℚ
  toInt : ℚ → R Int

/-- `X_prod`: geometry.hh:78. -/
def xprod (A : Arith) (o a b : ℚ × ℚ) : R ℚ := do
  let ax ← A.sub a.1 o.1
  let bY ← A.sub b.2 o.2
  let p ← A.mul ax bY
  let ay ← A.sub a.2 o.2
  let bx ← A.sub b.1 o.1
  let q ← A.mul ay bx
  A.sub p q

/-- The loop over the remaining indices: geometry.hh:80-95. -/
def loop (A : Arith) (pts : List (ℚ × ℚ)) : Int → List Nat → R Bool
  | _, [] => .ok false
  | sign, i :: is => do
    let o ← arrGet pts i
    let a ← arrGet pts ((i + 1) % pts.length)
    let b ← arrGet pts ((i + 2) % pts.length)
    let c ← xprod A o a b
    if c = 0 then loop A pts sign is
    else do
      let sign ← if sign = 0 then A.toInt c else .ok sign
      if (sign > 0 ∧ c < 0) ∨ (sign < 0 ∧ c > 0) then .ok true else loop A pts sign is

/-- `is_poly_concave`: geometry.hh:68-96. -/
def isConcave (A : Arith) (pts : List (ℚ × ℚ)) : R Bool :=
  if pts.length < 3 then .ok false else loop A pts 0 (List.range pts.length)

/-- A signed 64-bit result: undefined on overflow (geometry.hh:78). -/
def fit64 (x : ℚ) : R ℚ := if -2 ^ 63 ≤ x ∧ x < 2 ^ 63 then .ok x else .ub

/-- A 64-bit integer converted to `int`: its low 32 bits, signed (geometry.hh:90). -/
def low32 (x : Int) : Int := (x + 2 ^ 31) % 2 ^ 32 - 2 ^ 31

/-- `int64_t` coordinates: geometry.hh:78, 90. -/
def long : Arith where
  sub a b := fit64 (a - b)
  mul a b := fit64 (a * b)
  toInt c := .ok (low32 ⌊c⌋)

/-- A float converted to `int`: truncated; undefined if that is out of range (geometry.hh:90). -/
def truncInt (x : ℚ) : R Int := if -2 ^ 31 - 1 < x ∧ x < 2 ^ 31 then .ok (if 0 ≤ x then ⌊x⌋ else ⌈x⌉) else .ub

/-- `float` coordinates, every operation rounded by `rnd`: geometry.hh:78, 90. -/
def float (rnd : ℚ → ℚ) : Arith where
  sub a b := .ok (rnd (a - b))
  mul a b := .ok (rnd (a * b))
  toInt c := truncInt c

end PolyTypes
