import Verif.Model.Small
import Verif.Flt
/-!
# The portable vector operations in binary32 (util/soft_neon.hh)

`rnd` rounds each result to binary32. `fused` says whether the compiler contracts `dst.v[i] += a.v[i] * b.v[i]` to one fused multiply-add (C++ leaves it the choice; GCC does by default where the target has it).
-/
namespace Neon.Float
variable (rnd : ℚ → ℚ)

/-- `vmulq_f32`: soft_neon.hh:33-40. -/
def vmul (x y : V4) : V4 := ⟨rnd (x.a * y.a), rnd (x.b * y.b), rnd (x.c * y.c), rnd (x.d * y.d)⟩

/-- One lane of `vmlaq_f32`: soft_neon.hh:43-46. -/
def mla (fused : Bool) (dst x y : ℚ) : ℚ := if fused then rnd (dst + x * y) else rnd (dst + rnd (x * y))

/-- `vmlaq_f32`, which also updates `dst`; the result is the new `dst`: soft_neon.hh:42-54. -/
def vmla (fused : Bool) (dst x y : V4) : V4 := ⟨mla rnd fused dst.a x.a y.a, mla rnd fused dst.b x.b y.b, mla rnd fused dst.c x.c y.c, mla rnd fused dst.d x.d y.d⟩

/-- `vsubq_f32`: soft_neon.hh:56-58. -/
def vsub (x y : V4) : V4 := ⟨rnd (x.a - y.a), rnd (x.b - y.b), rnd (x.c - y.c), rnd (x.d - y.d)⟩

/-- `vpadd_f32`: soft_neon.hh:60-65. -/
def vpadd (x y : V2) : V2 := ⟨rnd (x.a + x.b), rnd (y.a + y.b)⟩

/-- What the operations are for, in client code (soft_neon.hh:24-77): an inner product of blocks of four, `acc = vdupq_n_f32(0); for (...) vmlaq_f32(acc, x, y);`. -/
def accumulate (fused : Bool) (acc : V4) : List (V4 × V4) → V4
  | [] => acc
  | (x, y) :: l => accumulate fused (vmla rnd fused acc x y) l

/-- ... and the sum of the lanes, `s = vpadd_f32(vget_low_f32(acc), vget_high_f32(acc)); vget_lane_f32(vpadd_f32(s, s), 0)` (soft_neon.hh:60-77). -/
def hsum (v : V4) : R ℚ :=
  let s := vpadd rnd (vlow v) (vhigh v)
  V2.lane (vpadd rnd s s) 0

end Neon.Float
