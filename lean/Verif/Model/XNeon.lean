import Verif.Model.XMath
/-! # The portable vector operations on every float, in programs (util/soft_neon.hh)

Values are those of `XFlt.lean` (NaN, infinities, finite numbers; zero has no sign). The multiply-add of one lane is a parameter `ma`:
the compiler may fuse it or not. -/
namespace XNeon
open XFlt

/-- `float32x4_t`: soft_neon.hh:4-12. -/
structure X4 where
  (a b c d : XF)
  deriving DecidableEq

/-- `vdupq_n_f32`: soft_neon.hh:24-27. -/
def vdup (x : XF) : X4 := ⟨x, x, x, x⟩

/-- `vmulq_f32`: soft_neon.hh:33-40. -/
def vmul (rnd : ℚ → ℚ) (x y : X4) : X4 := ⟨mul rnd x.a y.a, mul rnd x.b y.b, mul rnd x.c y.c, mul rnd x.d y.d⟩

/-- The new `dst`, and the result, of `vmlaq_f32`: soft_neon.hh:42-54. -/
def vmla (ma : XF → XF → XF → XF) (dst x y : X4) : X4 := ⟨ma dst.a x.a y.a, ma dst.b x.b y.b, ma dst.c x.c y.c, ma dst.d x.d y.d⟩

/-- `vsubq_f32`: soft_neon.hh:56-58. -/
def vsub (rnd : ℚ → ℚ) (x y : X4) : X4 := ⟨sub rnd x.a y.a, sub rnd x.b y.b, sub rnd x.c y.c, sub rnd x.d y.d⟩

/-- `vmaxq_f32`: soft_neon.hh:79-86 with `MathTools::max` (math.hh:31-37). -/
def vmax (x y : X4) : X4 := ⟨XMath.max x.a y.a, XMath.max x.b y.b, XMath.max x.c y.c, XMath.max x.d y.d⟩

/-- A statement of a program over vector variables (numbered): `dest = operation(variables)` (the operations of soft_neon.hh:24-86). -/
inductive Stmt where
  | dup (dest : Nat) (x : XF)
  | load (dest : Nat) (v : X4)
  | mul (dest x y : Nat)
  | mla (dest acc x y : Nat)
  | sub (dest x y : Nat)
  | max (dest x y : Nat)

/-- The variable `i` gets the value `v` (assignment of a `float32x4_t`: soft_neon.hh:4-12). -/
def set (s : Nat → X4) (i : Nat) (v : X4) : Nat → X4 := fun j => if j = i then v else s j

/-- A statement with the portable operations: soft_neon.hh:24-86. `vmlaq_f32` takes its first argument by reference and updates it,
before its result is assigned; the other arguments are copies. -/
def step (rnd : ℚ → ℚ) (ma : XF → XF → XF → XF) (s : Nat → X4) : Stmt → Nat → X4
  | .dup i x => set s i (vdup x)
  | .load i v => set s i v
  | .mul i x y => set s i (vmul rnd (s x) (s y))
  | .mla i acc x y => set (set s acc (vmla ma (s acc) (s x) (s y))) i (vmla ma (s acc) (s x) (s y))
  | .sub i x y => set s i (vsub rnd (s x) (s y))
  | .max i x y => set s i (vmax (s x) (s y))

/-- A program: statements in order (soft_neon.hh:24-86). -/
def run (rnd : ℚ → ℚ) (ma : XF → XF → XF → XF) (s : Nat → X4) : List Stmt → Nat → X4
  | [] => s
  | p :: l => run rnd ma (step rnd ma s p) l

/-- The running maximum of a stream of vectors, `for (auto x : stream) peak = vmaxq_f32(peak, x);` (soft_neon.hh:79-86). -/
def peak (m : X4) : List X4 → X4
  | [] => m
  | x :: l => peak (vmax m x) l

end XNeon
