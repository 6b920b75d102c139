import Verif.Model.NeonFloat
import Verif.Lemmas.FltErr
import Mathlib.Tactic.Linarith
import Mathlib.Tactic.Positivity
/-! # Property C168: inner products with the portable vector operations, in binary32 -/

namespace Neon.Float
open Flt
variable {rnd : ℚ → ℚ}

/-- The exact inner product. -/
def dot : List (V4 × V4) → ℚ
  | [] => 0
  | (x, y) :: l => x.a * y.a + x.b * y.b + x.c * y.c + x.d * y.d + dot l

/-- The sum of the magnitudes of its terms, each counted as at least the smallest normal number 2^-126 more than it is. -/
def size : List (V4 × V4) → ℚ
  | [] => 0
  | (x, y) :: l => (|x.a * y.a| + |x.b * y.b| + |x.c * y.c| + |x.d * y.d| + 4 / 2 ^ 126) + size l

/-- One rounding unit. -/
abbrev u : ℚ := 1 / 2 ^ 24

theorem add_err (h : Nearest rnd) {x y X Y A B g : ℚ} (hx : F32 x) (hy : F32 y) (ex : |x - X| ≤ (g - 1) * A) (ey : |y - Y| ≤ (g - 1) * B) (hX : |X| ≤ A) (hY : |Y| ≤ B) :
    |rnd (x + y) - (X + Y)| ≤ (g * (1 + u) - 1) * (A + B) := by
  have h1 := h.add_rel hx hy
  have h2 : |x + y - (X + Y)| ≤ (g - 1) * (A + B) := by
    have : x + y - (X + Y) = (x - X) + (y - Y) := by ring
    rw [this]
    linarith [abs_add_le (x - X) (y - Y)]
  have h3 : |X + Y| ≤ A + B := le_trans (abs_add_le X Y) (by linarith)
  have h4 : |x + y| ≤ |x + y - (X + Y)| + |X + Y| := by
    have := abs_add_le (x + y - (X + Y)) (X + Y)
    rwa [sub_add_cancel] at this
  have h5 : |rnd (x + y) - (X + Y)| ≤ |rnd (x + y) - (x + y)| + |x + y - (X + Y)| := by
    have := abs_add_le (rnd (x + y) - (x + y)) (x + y - (X + Y))
    rwa [sub_add_sub_cancel] at this
  have h6 : |x + y| / 2 ^ 24 ≤ ((g - 1) * (A + B) + (A + B)) / 2 ^ 24 := div_le_div_of_nonneg_right (by linarith) (by norm_num)
  have h7 : (g * (1 + u) - 1) * (A + B) = (g - 1) * (A + B) + ((g - 1) * (A + B) + (A + B)) / 2 ^ 24 := by unfold u; ring
  rw [h7]
  linarith

/-- one lane, one step -/
theorem mla_err (h : Nearest rnd) (fused : Bool) {s S A x y g : ℚ} (hs : F32 s) (hg : 1 + u ≤ g) (es : |s - S| ≤ (g - 1) * A) (hS : |S| ≤ A) :
    |mla rnd fused s x y - (S + x * y)| ≤ (g * (1 + u) - 1) * (A + (|x * y| + 1 / 2 ^ 126)) := by
  have hr := h.rel (x * y)
  have hA : 0 ≤ A := le_trans (abs_nonneg _) hS
  have hp := abs_nonneg (x * y)
  have hg1 : u * (|x * y| + 1 / 2 ^ 126) ≤ (g - 1) * (|x * y| + 1 / 2 ^ 126) := mul_le_mul_of_nonneg_right (by linarith) (by positivity)
  have hu : u * (|x * y| + 1 / 2 ^ 126) = |x * y| / 2 ^ 24 + 1 / 2 ^ 150 := by unfold u; ring
  unfold mla
  cases fused with
  | false =>
    simp only [Bool.false_eq_true, if_false]
    exact add_err h hs (h.f32 _) es (by linarith) hS (by linarith [show (0:ℚ) < 1 / 2 ^ 126 by positivity])
  | true =>
    simp only [if_true]
    have h1 := h.rel (s + x * y)
    have h2 : |s + x * y| ≤ |s - S| + |S + x * y| := by
      have := abs_add_le (s - S) (S + x * y)
      rwa [show s - S + (S + x * y) = s + x * y by ring] at this
    have h3 : |S + x * y| ≤ A + |x * y| := le_trans (abs_add_le _ _) (by linarith)
    have h5 : |rnd (s + x * y) - (S + x * y)| ≤ |rnd (s + x * y) - (s + x * y)| + |s - S| := by
      have := abs_add_le (rnd (s + x * y) - (s + x * y)) (s - S)
      rwa [show rnd (s + x * y) - (s + x * y) + (s - S) = rnd (s + x * y) - (S + x * y) by ring] at this
    have h6 : |s + x * y| / 2 ^ 24 ≤ ((g - 1) * A + (A + |x * y|)) / 2 ^ 24 := div_le_div_of_nonneg_right (by linarith) (by norm_num)
    have h7 : (g * (1 + u) - 1) * (A + (|x * y| + 1 / 2 ^ 126)) = (g - 1) * A + ((g - 1) * A + A) / 2 ^ 24 + (g * (1 + u) - 1) * (|x * y| + 1 / 2 ^ 126) := by unfold u; ring
    have h8 : u * (|x * y| + 1 / 2 ^ 126) ≤ (g * (1 + u) - 1) * (|x * y| + 1 / 2 ^ 126) := by
      refine mul_le_mul_of_nonneg_right ?_ (by positivity)
      have : (0:ℚ) < u := by unfold u; positivity
      nlinarith
    have h9 : ((g - 1) * A + (A + |x * y|)) / 2 ^ 24 = ((g - 1) * A + A) / 2 ^ 24 + |x * y| / 2 ^ 24 := by ring
    rw [h7]
    linarith

theorem mla_f32 (h : Nearest rnd) (fused : Bool) (s x y : ℚ) : F32 (mla rnd fused s x y) := by
  unfold mla; split <;> exact h.f32 _

/-- The exact sum of the products in one lane, and of their sizes. -/
def laneDot (f : V4 → ℚ) : List (V4 × V4) → ℚ
  | [] => 0
  | (x, y) :: l => f x * f y + laneDot f l

def laneSize (f : V4 → ℚ) : List (V4 × V4) → ℚ
  | [] => 0
  | (x, y) :: l => (|f x * f y| + 1 / 2 ^ 126) + laneSize f l

theorem lane_err (h : Nearest rnd) (fused : Bool) (f : V4 → ℚ) (hf : ∀ d x y, f (vmla rnd fused d x y) = mla rnd fused (f d) (f x) (f y)) (l : List (V4 × V4)) :
    ∀ (acc : V4) (S A g : ℚ), F32 (f acc) → 1 + u ≤ g → |f acc - S| ≤ (g - 1) * A → |S| ≤ A →
      F32 (f (accumulate rnd fused acc l)) ∧ |f (accumulate rnd fused acc l) - (S + laneDot f l)| ≤ (g * (1 + u) ^ l.length - 1) * (A + laneSize f l) ∧ |S + laneDot f l| ≤ A + laneSize f l := by
  induction l with
  | nil => intro acc S A g h1 _ h3 h4; simp only [accumulate, laneDot, laneSize, List.length_nil, pow_zero, mul_one, add_zero]; exact ⟨h1, h3, h4⟩
  | cons p l ih =>
    intro acc S A g h1 hg h3 h4
    obtain ⟨x, y⟩ := p
    have hA : 0 ≤ A := le_trans (abs_nonneg _) h4
    have hu : (0:ℚ) < u := by unfold u; positivity
    have hs := mla_err h fused (x := f x) (y := f y) h1 hg h3 h4
    obtain ⟨k1, k2, k3⟩ := ih (vmla rnd fused acc x y) (S + f x * f y) (A + (|f x * f y| + 1 / 2 ^ 126)) (g * (1 + u)) (by rw [hf]; exact mla_f32 h _ _ _ _) (by nlinarith) (by rw [hf]; exact hs)
      (le_trans (abs_add_le _ _) (by linarith [show (0:ℚ) < 1 / 2 ^ 126 by positivity]))
    refine ⟨k1, ?_, ?_⟩
    · simp only [accumulate, laneDot, laneSize, List.length_cons]
      rw [show S + (f x * f y + laneDot f l) = S + f x * f y + laneDot f l by ring, show A + (|f x * f y| + 1 / 2 ^ 126 + laneSize f l) = A + (|f x * f y| + 1 / 2 ^ 126) + laneSize f l by ring,
        show g * (1 + u) ^ (l.length + 1) = g * (1 + u) * (1 + u) ^ l.length by ring]
      exact k2
    · simp only [laneDot, laneSize]
      rw [show S + (f x * f y + laneDot f l) = S + f x * f y + laneDot f l by ring, show A + (|f x * f y| + 1 / 2 ^ 126 + laneSize f l) = A + (|f x * f y| + 1 / 2 ^ 126) + laneSize f l by ring]
      exact k3

theorem dot_lanes (l : List (V4 × V4)) : dot l = laneDot V4.a l + laneDot V4.b l + (laneDot V4.c l + laneDot V4.d l) := by
  induction l with
  | nil => simp [dot, laneDot]
  | cons p l ih => obtain ⟨x, y⟩ := p; simp only [dot, laneDot, ih]; ring

theorem size_lanes (l : List (V4 × V4)) : size l = laneSize V4.a l + laneSize V4.b l + (laneSize V4.c l + laneSize V4.d l) := by
  induction l with
  | nil => simp [size, laneSize]
  | cons p l ih => obtain ⟨x, y⟩ := p; simp only [size, laneSize, ih]; ring

/-- **C168**: the inner product of any number `n` of blocks of four, accumulated with vmlaq_f32 from zero and summed with two vpadd_f32, differs from the exact one by at most `(1 + 2^-24)^(n+3) - 1` times the sum of the magnitudes of the
terms (plus `2^-126` for each), whether or not the compiler fuses the multiplications and additions. -/
theorem C168_dot (h : Nearest rnd) (fused : Bool) (l : List (V4 × V4)) :
    ∃ r, hsum rnd (accumulate rnd fused (vdup 0) l) = .ok r ∧ F32 r ∧ |r - dot l| ≤ ((1 + 1 / 2 ^ 24) ^ (l.length + 3) - 1) * size l := by
  have hu : (0:ℚ) < u := by unfold u; positivity
  have L := fun (f : V4 → ℚ) hf (h0 : f (vdup 0) = 0) => lane_err h fused f hf l (vdup 0) 0 0 (1 + u) (by rw [h0]; exact f32_zero) (le_refl _) (by rw [h0]; simp) (by simp)
  obtain ⟨a1, a2, a3⟩ := L V4.a (fun _ _ _ => rfl) rfl
  obtain ⟨b1, b2, b3⟩ := L V4.b (fun _ _ _ => rfl) rfl
  obtain ⟨c1, c2, c3⟩ := L V4.c (fun _ _ _ => rfl) rfl
  obtain ⟨d1, d2, d3⟩ := L V4.d (fun _ _ _ => rfl) rfl
  simp only [zero_add] at a2 a3 b2 b3 c2 c3 d2 d3
  have e1 := add_err h a1 b1 a2 b2 a3 b3
  have e2 := add_err h c1 d1 c2 d2 c3 d3
  have e3 := add_err h (h.f32 _) (h.f32 _) e1 e2 (le_trans (abs_add_le _ _) (by linarith)) (le_trans (abs_add_le _ _) (by linarith))
  refine ⟨_, rfl, h.f32 _, ?_⟩
  rw [dot_lanes, size_lanes]
  refine le_trans e3 (le_of_eq ?_)
  unfold u; ring

/-- **C168**: multiplication and subtraction are correctly rounded in each lane: no binary32 number is nearer to the exact result. -/
theorem C168_lanes (h : Nearest rnd) (x y : V4) (z : ℚ) (hz : F32 z) (i : Nat) (hi : i < 4) : ∃ p q m s, V4.lane x i = .ok p ∧ V4.lane y i = .ok q ∧ V4.lane (vmul rnd x y) i = .ok m ∧ V4.lane (vsub rnd x y) i = .ok s ∧
    |m - p * q| ≤ |z - p * q| ∧ |s - (p - q)| ≤ |z - (p - q)| := by
  have : i = 0 ∨ i = 1 ∨ i = 2 ∨ i = 3 := by omega
  rcases this with rfl | rfl | rfl | rfl <;> exact ⟨_, _, _, _, rfl, rfl, rfl, rfl, h.nearest _ _ hz, h.nearest _ _ hz⟩

/-- a case: (1, 2, 3, 4)·(1, 1, 1, 1) = 10, size 10 and a little -/
example : dot [(⟨1, 2, 3, 4⟩, ⟨1, 1, 1, 1⟩)] = 10 ∧ size [(⟨1, 2, 3, 4⟩, ⟨1, 1, 1, 1⟩)] < 10.001 := by
  constructor <;> norm_num [dot, size]

end Neon.Float
