import Mathlib.Analysis.Convex.Deriv
import Mathlib.Analysis.Real.Pi.Bounds
import Mathlib.Analysis.SpecialFunctions.Trigonometric.Bounds
import Mathlib.Analysis.SpecialFunctions.Trigonometric.Deriv
import Mathlib.Analysis.SpecialFunctions.ExpDeriv
import Mathlib.Analysis.SpecialFunctions.Log.Deriv
import Mathlib.Analysis.SpecialFunctions.Pow.Real
import Mathlib.Analysis.Complex.ExponentialBounds
import Verif.Lemmas.Tables
/-! # Real functions and tables: interpolation error, checked entries -/

namespace RealTables
open Set

/-! ## Interpolation error -/

/-- A lower bound `-M` of the second derivative bounds how far the function lies above its chord. -/
theorem chord_le (f f' f'' : ℝ → ℝ) (a b M t : ℝ) (hab : a ≤ b)
    (h1 : ∀ x ∈ Icc a b, HasDerivAt f (f' x) x) (h2 : ∀ x ∈ Icc a b, HasDerivAt f' (f'' x) x)
    (hM : ∀ x ∈ Icc a b, -M ≤ f'' x) (ht0 : 0 ≤ t) (ht1 : t ≤ 1) (hM0 : 0 ≤ M) :
    f (a + t * (b - a)) ≤ f a + t * (f b - f a) + M * (b - a) ^ 2 / 8 := by
  have d1 : ∀ x ∈ Icc a b, HasDerivAt (fun x => f x + M / 2 * x ^ 2) (f' x + M * x) x := by
    intro x hx
    have := (h1 x hx).add (((hasDerivAt_pow 2 x)).const_mul (M / 2))
    have e : f' x + M / 2 * (((2 : ℕ) : ℝ) * x ^ (2 - 1)) = f' x + M * x := by norm_num; ring
    rw [e] at this
    exact this
  have d2 : ∀ x ∈ Icc a b, HasDerivAt (fun x => f' x + M * x) (f'' x + M) x := by
    intro x hx
    have := (h2 x hx).add ((hasDerivAt_id x).const_mul M)
    rw [mul_one] at this
    exact this
  have hc : ConvexOn ℝ (Icc a b) (fun x => f x + M / 2 * x ^ 2) := by
    refine convexOn_of_hasDerivWithinAt2_nonneg (convex_Icc a b) (f' := fun x => f' x + M * x) (f'' := fun x => f'' x + M) ?_ ?_ ?_ ?_
    · exact fun x hx => (d1 x hx).continuousAt.continuousWithinAt
    · exact fun x hx => (d1 x (interior_subset hx)).hasDerivWithinAt
    · exact fun x hx => (d2 x (interior_subset hx)).hasDerivWithinAt
    · intro x hx
      have := hM x (interior_subset hx)
      linarith
  have := hc.2 (left_mem_Icc.mpr hab) (right_mem_Icc.mpr hab) (by linarith : (0 : ℝ) ≤ 1 - t) ht0 (by ring)
  simp only [smul_eq_mul] at this
  have e : (1 - t) * a + t * b = a + t * (b - a) := by ring
  rw [e] at this
  have q : t * (1 - t) ≤ 1 / 4 := by nlinarith [sq_nonneg (t - 1 / 2)]
  have q2 : M / 2 * ((1 - t) * a ^ 2 + t * b ^ 2 - (a + t * (b - a)) ^ 2) = M / 2 * (t * (1 - t) * (b - a) ^ 2) := by ring
  have q3 : M / 2 * (t * (1 - t) * (b - a) ^ 2) ≤ M / 2 * (1 / 4 * (b - a) ^ 2) := by
    apply mul_le_mul_of_nonneg_left _ (by linarith)
    exact mul_le_mul_of_nonneg_right q (sq_nonneg _)
  nlinarith

/-- The error of linear interpolation is at most `M h^2 / 8`. -/
theorem lerp_error (f f' f'' : ℝ → ℝ) (a b M t : ℝ) (hab : a ≤ b)
    (h1 : ∀ x ∈ Icc a b, HasDerivAt f (f' x) x) (h2 : ∀ x ∈ Icc a b, HasDerivAt f' (f'' x) x)
    (hM : ∀ x ∈ Icc a b, |f'' x| ≤ M) (ht0 : 0 ≤ t) (ht1 : t ≤ 1) :
    |f a + t * (f b - f a) - f (a + t * (b - a))| ≤ M * (b - a) ^ 2 / 8 := by
  have hM0 : 0 ≤ M := (abs_nonneg _).trans (hM a (left_mem_Icc.mpr hab))
  have u := chord_le f f' f'' a b M t hab h1 h2 (fun x hx => (abs_le.mp (hM x hx)).1) ht0 ht1 hM0
  have l := chord_le (fun x => -f x) (fun x => -f' x) (fun x => -f'' x) a b M t hab (fun x hx => (h1 x hx).neg) (fun x hx => (h2 x hx).neg)
    (fun x hx => by have := (abs_le.mp (hM x hx)).2; linarith) ht0 ht1 hM0
  rw [abs_le]
  constructor <;> linarith

/-! ## Rotations -/

/-- Powers of an approximate rotation, rounded at each step. -/
theorem rot_error (w v : ℂ) (z : ℕ → ℂ) (δ r : ℝ) (hw : ‖w‖ = 1) (hv : ‖v - w‖ ≤ δ) (h0 : z 0 = 1) (hs : ∀ i, ‖z (i + 1) - z i * v‖ ≤ r) (n : ℕ)
    (hn : n * (r + 2 * δ) ≤ 1) : ‖z n - w ^ n‖ ≤ n * (r + 2 * δ) := by
  have hδ : 0 ≤ δ := (norm_nonneg _).trans hv
  have hr : 0 ≤ r := (norm_nonneg _).trans (hs 0)
  induction n with
  | zero => simp [h0]
  | succ n ih =>
    push_cast at hn ⊢
    have hn' : (n : ℝ) * (r + 2 * δ) ≤ 1 := by nlinarith
    have ih := ih hn'
    have hz : ‖z n‖ ≤ 2 := by
      have : ‖z n‖ ≤ ‖z n - w ^ n‖ + ‖w ^ n‖ := by
        have := norm_add_le (z n - w ^ n) (w ^ n); rwa [sub_add_cancel] at this
      rw [norm_pow, hw, one_pow] at this
      linarith
    have e : z (n + 1) - w ^ (n + 1) = (z (n + 1) - z n * v) + z n * (v - w) + (z n - w ^ n) * w := by rw [pow_succ]; ring
    rw [e]
    calc ‖(z (n + 1) - z n * v) + z n * (v - w) + (z n - w ^ n) * w‖
        ≤ ‖z (n + 1) - z n * v‖ + ‖z n * (v - w)‖ + ‖(z n - w ^ n) * w‖ := norm_add₃_le
      _ ≤ r + 2 * δ + n * (r + 2 * δ) := by
        rw [norm_mul, norm_mul, hw, mul_one]
        have : ‖z n‖ * ‖v - w‖ ≤ 2 * δ := mul_le_mul hz hv (norm_nonneg _) (by norm_num)
        linarith [hs n]
      _ = (n + 1) * (r + 2 * δ) := by ring

/-- The fixed-point scale. -/
def N : Int := 10 ^ 15

/-- One rotation in fixed point. -/
def rstep (c s : Int) (p : Int × Int) : Int × Int := ((p.1 * c - p.2 * s) / N, (p.2 * c + p.1 * s) / N)

/-- The complex number of a fixed-point pair. -/
noncomputable def toC (p : Int × Int) : ℂ := ⟨(p.1 : ℝ) / N, (p.2 : ℝ) / N⟩

theorem N_pos : (0 : ℝ) < (N : ℝ) := by unfold N; norm_num

theorem floor_err (a : Int) : |((a / N : Int) : ℝ) - (a : ℝ) / N| ≤ 1 := by
  have hN := N_pos
  have h1 : N * (a / N) ≤ a := Int.mul_ediv_self_le (by unfold N; norm_num)
  have h2 : a < N * (a / N) + N := Int.lt_mul_ediv_self_add (by unfold N; norm_num)
  have h1' : (N : ℝ) * ((a / N : Int) : ℝ) ≤ a := by exact_mod_cast h1
  have h2' : (a : ℝ) < (N : ℝ) * ((a / N : Int) : ℝ) + N := by exact_mod_cast h2
  rw [abs_le]
  constructor
  · rw [neg_le_sub_iff_le_add, div_le_iff₀ hN]; nlinarith
  · rw [tsub_le_iff_right]
    have : ((a / N : Int) : ℝ) ≤ (a : ℝ) / N := by rw [le_div_iff₀ hN]; linarith
    linarith

theorem rstep_err (c s : Int) (p : Int × Int) : ‖toC (rstep c s p) - toC p * toC (c, s)‖ ≤ 2 / N := by
  have hN := N_pos
  refine (Complex.norm_le_abs_re_add_abs_im _).trans ?_
  have key : ∀ a : Int, |((a / N : Int) : ℝ) / N - (a : ℝ) / N / N| ≤ 1 / N := by
    intro a
    rw [← sub_div, abs_div, abs_of_pos hN]
    exact div_le_div_of_nonneg_right (floor_err a) hN.le
  have e1 : (toC (rstep c s p) - toC p * toC (c, s)).re = (((p.1 * c - p.2 * s) / N : Int) : ℝ) / N - ((p.1 * c - p.2 * s : Int) : ℝ) / N / N := by
    simp [toC, rstep]; ring
  have e2 : (toC (rstep c s p) - toC p * toC (c, s)).im = (((p.2 * c + p.1 * s) / N : Int) : ℝ) / N - ((p.2 * c + p.1 * s : Int) : ℝ) / N / N := by
    simp [toC, rstep]; ring
  rw [e1, e2]
  have := key (p.1 * c - p.2 * s)
  have := key (p.2 * c + p.1 * s)
  have : (2 : ℝ) / N = 1 / N + 1 / N := by ring
  linarith

/-- Check the entries (in millionths) of a table against the imaginary parts. -/
def chkRot (c s B : Int) : List Int → Int × Int → Bool
  | [], _ => true
  | d :: l, p => decide (|d * 10 ^ 9 - p.2| ≤ B) && chkRot c s B l (rstep c s p)

theorem chkRot_get (c s B : Int) (l : List Int) : ∀ p, chkRot c s B l p = true → ∀ i, i < l.length →
    |l.getD i 0 * 10 ^ 9 - ((rstep c s)^[i] p).2| ≤ B := by
  induction l with
  | nil => intro p _ i hi; simp at hi
  | cons d l ih =>
    intro p h i hi
    rw [chkRot, Bool.and_eq_true, decide_eq_true_eq] at h
    cases i with
    | zero => exact h.1
    | succ i =>
      rw [Function.iterate_succ_apply]
      exact ih _ h.2 i (by simpa using hi)

/-- The fixed-point rotation by `x`, after `n` steps. -/
theorem rot_iter (x : ℝ) (c s : Int) (δ : ℝ) (hc : |(c : ℝ) / N - Real.cos x| + |(s : ℝ) / N - Real.sin x| ≤ δ) (n : ℕ)
    (hn : n * (2 / N + 2 * δ) ≤ 1) :
    |(((rstep c s)^[n] (N, 0)).2 : ℝ) / N - Real.sin (n * x)| ≤ n * (2 / N + 2 * δ) ∧
    |(((rstep c s)^[n] (N, 0)).1 : ℝ) / N - Real.cos (n * x)| ≤ n * (2 / N + 2 * δ) := by
  have hN := N_pos
  have h := rot_error (Complex.exp (x * Complex.I)) (toC (c, s)) (fun i => toC ((rstep c s)^[i] (N, 0))) δ (2 / N)
    (Complex.norm_exp_ofReal_mul_I x) ?_ ?_ ?_ n hn
  · rw [← Complex.exp_nat_mul, ← mul_assoc] at h
    have e : ((n : ℂ) * (x : ℂ)) = ((n * x : ℝ) : ℂ) := by push_cast; ring
    rw [e] at h
    have h1 := (Complex.abs_im_le_norm _).trans h
    have h2 := (Complex.abs_re_le_norm _).trans h
    rw [Complex.sub_im, Complex.exp_ofReal_mul_I_im] at h1
    rw [Complex.sub_re, Complex.exp_ofReal_mul_I_re] at h2
    exact ⟨h1, h2⟩
  · refine (Complex.norm_le_abs_re_add_abs_im _).trans ?_
    rw [Complex.sub_re, Complex.sub_im, Complex.exp_ofReal_mul_I_re, Complex.exp_ofReal_mul_I_im]
    exact hc
  · apply Complex.ext <;> simp [toC, hN.ne']
  · intro i
    simp only [Function.iterate_succ_apply']
    exact rstep_err ..

end RealTables
