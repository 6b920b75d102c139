import Verif.Basic
import Mathlib.Algebra.Order.Ring.Int
/-!
# Interpolated parameters of machine integer types

util/interp_param.hh for an integer type `T`. Types narrower than `int` (32 bits) are promoted for arithmetic and converted back, which wraps; overflow of a signed type at least as wide as `int` is undefined; unsigned arithmetic is modular.
-/
namespace ParamsInt

/-- An integer type: its width in bits and whether it is signed (the template parameter `T` of interp_param.hh:3, 31, 67). -/
structure Ty where
  w : Nat
  signed : Bool
  deriving DecidableEq, Repr

/-- The values of the type (interp_param.hh:3, 31, 67). -/
def InTy (t : Ty) (x : Int) : Prop := if t.signed then -2 ^ (t.w - 1) ≤ x ∧ x < 2 ^ (t.w - 1) else 0 ≤ x ∧ x < 2 ^ t.w

instance (t : Ty) (x : Int) : Decidable (InTy t x) := by unfold InTy; infer_instance

/-- Conversion to the type (C++20: modulo 2^w), as in `T(num_updates)`, interp_param.hh:43, 79. -/
def conv (t : Ty) (x : Int) : Int := if t.signed then (x + 2 ^ (t.w - 1)) % 2 ^ t.w - 2 ^ (t.w - 1) else x % 2 ^ t.w

/-- The result `x` of an arithmetic operation on two values of the type, stored in a variable of that type: interp_param.hh:12-13, 17, 42-43, 48, 78-79, 83. -/
def op (t : Ty) (x : Int) : R Int := if t.signed = true ∧ 32 ≤ t.w ∧ ¬ InTy t x then .ub else .ok (conv t x)

/-- `cur_val`, `target_val`, `step_size`: interp_param.hh:25-28, 62-64, 99-103. -/
structure St where
  cur : Int
  target : Int
  step : Int
  deriving DecidableEq, Repr

/-- Initial state: interp_param.hh:5-9, 33-37, 69-74. -/
def init : St := ⟨0, 0, 0⟩

/-- `step_size = d / n`; division by zero is undefined: interp_param.hh:12-13, 42-43, 78-79. -/
def setStep (t : Ty) (p : St) (v n : Int) : R St := do
  let d ← op t (v - p.cur)
  if n = 0 then .ub
  else
    let q ← op t (d.tdiv n)
    .ok { p with step := q }

/-- `InterpParam<T, num>::set_new_value` (it has no `target_val`, which is not touched): interp_param.hh:11-14. -/
def setNewFixed (t : Ty) (num : Nat) (p : St) (v : Int) : R St := setStep t p v num

/-- `InterpParamVar<T>::set_new_value`: interp_param.hh:39-45. -/
def setNewVar (t : Ty) (p : St) (v : Int) (num : Nat) : R St :=
  if 0 < num then setStep t { p with target := v } v (conv t num) else .ok { p with target := v }

/-- `InterpParamVariable<T>::set_new_value`: interp_param.hh:76-80. -/
def setNewVariable (t : Ty) (num : Nat) (p : St) (v : Int) : R St := setStep t { p with target := v } v (conv t num)

/-- `next()`, whose result is the new `cur_val`: interp_param.hh:16-19, 47-50, 82-85. -/
def next (t : Ty) (p : St) : R St := do
  let c ← op t (p.cur + p.step)
  .ok { p with cur := c }

/-- `k` calls of `next()` with the values returned: interp_param.hh:16-19, 47-50, 82-85. -/
def nexts (t : Ty) : Nat → St → R (List Int)
  | 0, _ => .ok []
  | k + 1, p => do
    let p ← next t p
    let l ← nexts t k p
    .ok (p.cur :: l)

/-- `snap_to_target()`: interp_param.hh:56-59. -/
def snap (p : St) : St := { p with cur := p.target }

end ParamsInt
