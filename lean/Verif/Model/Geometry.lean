import Verif.Basic
import Verif.Model.IntMath
import Mathlib.Algebra.Order.Field.Rat
import Mathlib.Data.Rat.Floor
/-! # Geometry: util/geometry.hh -/

/-- `RectC`: geometry.hh:7-11. -/
structure RectC where
  (left top right bottom : Int)
  deriving DecidableEq

namespace RectC
/-- A signed 32-bit result: undefined on overflow (the `int` arithmetic of geometry.hh:13-112). -/
def fit32 (x : Int) : R Int := if -2147483648 ≤ x ∧ x ≤ 2147483647 then .ok x else .ub
/-- `width`: geometry.hh:13-15. -/
def width (r : RectC) : R Int := fit32 (r.right - r.left)
/-- `height`: geometry.hh:16-18. -/
def height (r : RectC) : R Int := fit32 (r.bottom - r.top)
/-- `center_y`: geometry.hh:19-21; division truncates. -/
def centerY (r : RectC) : R Int := do let s ← fit32 (r.top + r.bottom); .ok (s.tdiv 2)
/-- `center_x`: geometry.hh:22-24. -/
def centerX (r : RectC) : R Int := do let s ← fit32 (r.left + r.right); .ok (s.tdiv 2)
/-- `y_intersects`: geometry.hh:28-30. -/
def yIntersects (r o : RectC) : Bool := (decide (r.top ≥ o.top) && decide (r.top ≤ o.bottom)) || (decide (o.top ≥ r.top) && decide (o.top ≤ r.bottom))
/-- `x_intersects`: geometry.hh:31-33. -/
def xIntersects (r o : RectC) : Bool := (decide (r.left ≥ o.left) && decide (r.left ≤ o.right)) || (decide (r.right ≤ o.right) && decide (r.right ≥ o.left))
/-- `is_intersecting`: geometry.hh:34-36. -/
def isIntersecting (r o : RectC) : Bool := yIntersects r o && xIntersects r o
end RectC

/-- `Rect`: geometry.hh:39-57. -/
structure Rect where
  (left top width height : Int)
  deriving DecidableEq

namespace Rect
/-- `right`: geometry.hh:44-46. -/
def right (r : Rect) : R Int := RectC.fit32 (r.left + r.width)
/-- `bottom`: geometry.hh:47-49. -/
def bottom (r : Rect) : R Int := RectC.fit32 (r.top + r.height)
/-- `center_y`: geometry.hh:50-52. -/
def centerY (r : Rect) : R Int := RectC.fit32 (r.top + r.height.tdiv 2)
/-- `center_x`: geometry.hh:53-55. -/
def centerX (r : Rect) : R Int := RectC.fit32 (r.left + r.width.tdiv 2)
end Rect

namespace Poly

/-- The loop of `is_poly_concave` over the cross products (geometry.hh:80-95), in a type `α` of coordinates: `lt0`/`gt0`/`isZero` compare a cross product with 0, `toInt` converts it to `int` for `sign`. -/
def loop {α : Type} (isZero lt0 gt0 : α → Bool) (toInt : α → Int) : Int → List α → Bool
  | _, [] => false
  | sign, c :: cs =>
    if isZero c then loop isZero lt0 gt0 toInt sign cs
    else
      let sign := if sign = 0 then toInt c else sign
      if (sign > 0 ∧ lt0 c = true) ∨ (sign < 0 ∧ gt0 c = true) then true else loop isZero lt0 gt0 toInt sign cs

/-- `X_prod`: geometry.hh:78, for coordinates in a ring. -/
def cross {α : Type} [Sub α] [Mul α] (o a b : α × α) : α := (a.1 - o.1) * (b.2 - o.2) - (a.2 - o.2) * (b.1 - o.1)

/-- The cross products in loop order: geometry.hh:81-85. -/
def crosses {α : Type} [Sub α] [Mul α] (pts : List (α × α)) : List α :=
  (List.range pts.length).filterMap fun i => do
    let o ← pts[i]?
    let a ← pts[(i + 1) % pts.length]?
    let b ← pts[(i + 2) % pts.length]?
    some (cross o a b)

/-- `is_poly_concave` for signed integer coordinates, in exact arithmetic (overflow of the products, which are `int` for coordinate types up to 32 bits, is excluded: a simplification): geometry.hh:68-96. -/
def isConcave (pts : List (Int × Int)) : Bool :=
  if pts.length < 3 then false else loop (fun c : Int => decide (c = 0)) (fun c => decide (c < 0)) (fun c => decide (c > 0)) id 0 (crosses pts)

/-- `X_prod` (geometry.hh:78) for `int` coordinates or smaller integer types, which are promoted to `int`: undefined on overflow. -/
def cross32 (o a b : Int × Int) : R Int := do
  let ax ← RectC.fit32 (a.1 - o.1)
  let by' ← RectC.fit32 (b.2 - o.2)
  let p ← RectC.fit32 (ax * by')
  let ay ← RectC.fit32 (a.2 - o.2)
  let bx ← RectC.fit32 (b.1 - o.1)
  let q ← RectC.fit32 (ay * bx)
  RectC.fit32 (p - q)

/-- The loop of `is_poly_concave` over the remaining indices: geometry.hh:80-95. -/
def loop32 (pts : List (Int × Int)) : Int → List Nat → R Bool
  | _, [] => .ok false
  | sign, i :: is => do
    let o ← arrGet pts i
    let a ← arrGet pts ((i + 1) % pts.length)
    let b ← arrGet pts ((i + 2) % pts.length)
    let c ← cross32 o a b
    if c = 0 then loop32 pts sign is
    else
      let sign := if sign = 0 then c else sign
      if (sign > 0 ∧ c < 0) ∨ (sign < 0 ∧ c > 0) then .ok true else loop32 pts sign is

/-- `is_poly_concave` for `int` coordinates or smaller integer types, with `int` arithmetic: geometry.hh:68-96. -/
def isConcave32 (pts : List (Int × Int)) : R Bool :=
  if pts.length < 3 then .ok false else loop32 pts 0 (List.range pts.length)

/-- `is_poly_concave` for floating-point coordinates (exact): the first non-zero cross product is converted to `int`, truncating (geometry.hh:69-97). -/
def isConcaveF (pts : List (ℚ × ℚ)) : Bool :=
  if pts.length < 3 then false else loop (fun c : ℚ => decide (c = 0)) (fun c => decide (c < 0)) (fun c => decide (c > 0)) (fun c => if c ≥ 0 then ⌊c⌋ else ⌈c⌉) 0 (crosses pts)

/-- `is_poly_concave` for `uint32_t` coordinates: arithmetic is modulo 2^32, so cross products are unsigned, never less than 0; `sign` receives them converted to `int` (geometry.hh:69-97). -/
def isConcaveU (pts : List (Int × Int)) : Bool :=
  if pts.length < 3 then false
  else loop (fun c : Int => decide (c = 0)) (fun c => decide (c < 0)) (fun c => decide (c > 0)) (fun c => if c < 2147483648 then c else c - 4294967296) 0 ((crosses pts).map (· % 4294967296))

end Poly
