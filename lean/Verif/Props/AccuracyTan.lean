import Mathlib.Analysis.SpecialFunctions.Trigonometric.ArctanDeriv
import Mathlib.Analysis.Calculus.MeanValue
import Verif.Props.Accuracy
/-! # C138: how close tan is to the real tangent -/

namespace Accuracy
open MathTables InterpArray Interp.Spec MathFns RealTables Tables

attribute [local irreducible] sinTable tanTable exp5Table exp10Table pow9Table logTable

theorem half_cs : |((999998823451471 : Int) : ℝ) / N - Real.cos (Real.pi / 2048)| + |((1533980186284 : Int) : ℝ) / N - Real.sin (Real.pi / 2048)| ≤ 3 / 10 ^ 13 := by
  have p1 := Real.pi_gt_d20
  have p2 := Real.pi_lt_d20
  obtain ⟨x, hx⟩ : ∃ x, Real.pi / 2048 = x := ⟨_, rfl⟩
  have l : 0.00153398078788564122971 < x := by rw [← hx]; norm_num at p1 ⊢; linarith
  have u : x < 0.00153398078788564122973 := by rw [← hx]; norm_num at p2 ⊢; linarith
  rw [hx]
  have x0 : 0 < x := lt_trans (by norm_num) l
  have hx1 : |x| ≤ 1 := by rw [abs_of_pos x0]; linarith
  have hc := Real.cos_bound hx1
  have hs := Real.sin_bound hx1
  rw [abs_of_pos x0] at hc hs
  have l2 : 0.00153398078788564122971 ^ 2 ≤ x ^ 2 := pow_le_pow_left₀ (by norm_num) l.le 2
  have u2 : x ^ 2 ≤ 0.00153398078788564122973 ^ 2 := pow_le_pow_left₀ x0.le u.le 2
  have l3 : 0.00153398078788564122971 ^ 3 ≤ x ^ 3 := pow_le_pow_left₀ (by norm_num) l.le 3
  have u3 : x ^ 3 ≤ 0.00153398078788564122973 ^ 3 := pow_le_pow_left₀ x0.le u.le 3
  have u4 : x ^ 4 ≤ 0.00153398078788564122973 ^ 4 := pow_le_pow_left₀ x0.le u.le 4
  have u5 : x ^ 5 ≤ 0.00153398078788564122973 ^ 5 := pow_le_pow_left₀ x0.le u.le 5
  norm_num at l2 u2 l3 u3 u4 u5 l u
  rw [abs_le] at hc hs
  have hN : (N : ℝ) = 10 ^ 15 := by unfold N; norm_num
  rw [hN]
  have a1 : |((999998823451471 : Int) : ℝ) / 10 ^ 15 - Real.cos x| ≤ 295 / 10 ^ 15 := by
    rw [abs_le]; push_cast
    constructor <;> norm_num <;> linarith [hc.1, hc.2]
  have a2 : |((1533980186284 : Int) : ℝ) / 10 ^ 15 - Real.sin x| ≤ 3 / 10 ^ 15 := by
    rw [abs_le]; push_cast
    constructor <;> norm_num <;> linarith [hs.1, hs.2]
  linarith

/-- Check the entries (in millionths) of the tangent table, except number 1024, against the fixed-point rotation. -/
def chkTan : List Int → Int × Int → Nat → Bool
  | [], _, _ => true
  | d :: l, p, i => (i == 1024 || (decide (|d * p.1 - p.2 * 1000000| * |p.1| ≤ 582000000000000000000000000000) && decide (|d * p.1 - p.2 * 1000000| ≤ 100000000000000000) && decide (|d| ≤ 652000000)))
      && chkTan l (rstep 999998823451471 1533980186284 p) (i + 1)

theorem chkTan_get (l : List Int) : ∀ p n, chkTan l p n = true → ∀ i, i < l.length → n + i ≠ 1024 →
    |l.getD i 0 * ((rstep 999998823451471 1533980186284)^[i] p).1 - ((rstep 999998823451471 1533980186284)^[i] p).2 * 1000000| * |((rstep 999998823451471 1533980186284)^[i] p).1| ≤ 582000000000000000000000000000 ∧
    |l.getD i 0 * ((rstep 999998823451471 1533980186284)^[i] p).1 - ((rstep 999998823451471 1533980186284)^[i] p).2 * 1000000| ≤ 100000000000000000 ∧ |l.getD i 0| ≤ 652000000 := by
  induction l with
  | nil => intro p n _ i hi; simp at hi
  | cons d l ih =>
    intro p n h i hi hne
    rw [chkTan, Bool.and_eq_true] at h
    cases i with
    | zero =>
      have := h.1
      rw [Bool.or_eq_true, beq_iff_eq] at this
      rcases this with h' | h'
      · omega
      · rw [Bool.and_eq_true, Bool.and_eq_true, decide_eq_true_eq, decide_eq_true_eq, decide_eq_true_eq] at h'
        exact ⟨h'.1.1, h'.1.2, h'.2⟩
    | succ i =>
      rw [Function.iterate_succ_apply]
      exact ih _ _ h.2 i (by simpa using hi) (by omega)

theorem tan_data : chkTan tanData (N, 0) 0 = true := by decide +kernel

theorem tan_err (e C S c s η : ℝ) (h1 : |e * C - S| * |C| ≤ 582 / 10 ^ 9) (h2 : |e * C - S| ≤ 1 / 10 ^ 4) (h3 : |e| ≤ 652) (hc : |C - c| ≤ η) (hs : |S - s| ≤ η) (hη : η ≤ 13 / 10 ^ 10) (hS : |s| ≤ 1) (hc1 : |c| ≤ 1) :
    |e * c - s| * |c| ≤ 6 / 10 ^ 7 := by
  have hη0 : 0 ≤ η := (abs_nonneg _).trans hc
  have k1 : |e * c - s| ≤ |e * C - S| + |e| * η + η := by
    have : e * c - s = (e * C - S) + e * (c - C) + (S - s) := by ring
    rw [this]
    refine (abs_add_three _ _ _).trans ?_
    rw [abs_mul, abs_sub_comm c C]
    gcongr
  have k2 : |c| ≤ |C| + η := by
    have := abs_sub_abs_le_abs_sub c C
    rw [abs_sub_comm] at this; linarith
  have k3 : |e| * |C| ≤ 1.001 := by
    rw [← abs_mul]
    have : |e * C| ≤ |e * C - S| + |S - s| + |s| := by
      have := abs_add_three (e * C - S) (S - s) s
      rw [show e * C - S + (S - s) + s = e * C by ring] at this
      exact this
    norm_num at *
    linarith
  have k4 : |C| ≤ 1 + η := by
    have := abs_sub_abs_le_abs_sub C c; linarith
  obtain ⟨D, hD⟩ : ∃ D, |e * C - S| = D := ⟨_, rfl⟩
  obtain ⟨E, hE⟩ : ∃ E, |e| = E := ⟨_, rfl⟩
  obtain ⟨K, hK⟩ : ∃ K, |C| = K := ⟨_, rfl⟩
  have D0 : 0 ≤ D := by rw [← hD]; exact abs_nonneg _
  have E0 : 0 ≤ E := by rw [← hE]; exact abs_nonneg _
  have K0 : 0 ≤ K := by rw [← hK]; exact abs_nonneg _
  rw [hD] at h1 h2 k1
  rw [hE] at h3 k1 k3
  rw [hK] at h1 k2 k3 k4
  calc |e * c - s| * |c| ≤ (D + E * η + η) * (K + η) := mul_le_mul k1 k2 (abs_nonneg _) (by positivity)
    _ = D * K + D * η + (E * K) * η + E * (η * η) + K * η + η * η := by ring
    _ ≤ 582 / 10 ^ 9 + 1 / 10 ^ 4 * η + 1.001 * η + 652 * (η * η) + (1 + η) * η + η * η := by gcongr
    _ ≤ 6 / 10 ^ 7 := by
      have : η * η ≤ 13 / 10 ^ 10 * η := by gcongr
      norm_num at *
      nlinarith

theorem one_add_tan (x : ℝ) (h : Real.cos x ≠ 0) : 1 / Real.cos x ^ 2 = 1 + Real.tan x ^ 2 := by
  have := Real.cos_sq_add_sin_sq x
  rw [Real.tan_eq_sin_div_cos, div_pow]
  field_simp
  linarith

/-- **C138**: every entry of the tangent table but number 1024 (at half pi) is within 0.6 millionths times 1 + tan^2 of the tangent of its angle. -/
theorem C138_tan_entries (i : ℕ) (hi : i < 2048) (hne : i ≠ 1024) (hc : Real.cos (Real.pi * (i / 2048)) ≠ 0) :
    |((at' tanTable i : ℚ) : ℝ) - Real.tan (Real.pi * (i / 2048))| ≤ 6 / 10 ^ 7 * (1 + Real.tan (Real.pi * (i / 2048)) ^ 2) := by
  have hN : (N : ℝ) = 10 ^ 15 := by unfold N; norm_num
  obtain ⟨h1, h2, h3⟩ := chkTan_get tanData (N, 0) 0 tan_data i (by rw [show tanData.length = 2048 by decide +kernel]; exact hi) (by omega)
  have hi' : (i : ℝ) ≤ 2048 := by exact_mod_cast hi.le
  have r := rot_iter (Real.pi / 2048) 999998823451471 1533980186284 (3 / 10 ^ 13) half_cs i (by rw [hN]; norm_num; linarith)
  rw [show (i : ℝ) * (Real.pi / 2048) = Real.pi * (i / 2048) by ring] at r
  have e : ((at' tanTable i : ℚ) : ℝ) = ((tanData.getD i 0 : Int) : ℝ) / 1000000 := by
    unfold tanTable
    rw [tab_at]; push_cast; rfl
  rw [e]
  generalize tanData.getD i 0 = d at h1 h2 h3 ⊢
  generalize (rstep 999998823451471 1533980186284)^[i] (N, 0) = p at h1 h2 r
  have h1' : |(d : ℝ) * p.1 - p.2 * 1000000| * |(p.1 : ℝ)| ≤ 582000000000000000000000000000 := by exact_mod_cast h1
  have h2' : |(d : ℝ) * p.1 - p.2 * 1000000| ≤ 100000000000000000 := by exact_mod_cast h2
  have h3' : |(d : ℝ)| ≤ 652000000 := by exact_mod_cast h3
  rw [hN] at r
  have key : (d : ℝ) * p.1 - p.2 * 1000000 = ((d : ℝ) / 1000000 * (p.1 / 10 ^ 15) - p.2 / 10 ^ 15) * 10 ^ 21 := by ring
  rw [key, abs_mul, abs_of_pos (by positivity : (0 : ℝ) < 10 ^ 21)] at h1' h2'
  have kp : |(p.1 : ℝ)| = |(p.1 : ℝ) / 10 ^ 15| * 10 ^ 15 := by rw [abs_div, abs_of_pos (by positivity : (0 : ℝ) < 10 ^ 15)]; field_simp
  rw [kp] at h1'
  have t := tan_err ((d : ℝ) / 1000000) (p.1 / 10 ^ 15) (p.2 / 10 ^ 15) (Real.cos (Real.pi * (i / 2048))) (Real.sin (Real.pi * (i / 2048))) (i * (2 / 10 ^ 15 + 2 * (3 / 10 ^ 13)))
    (by norm_num at h1' ⊢; linarith) (by norm_num at h2' ⊢; linarith) (by rw [abs_div, abs_of_pos (by norm_num : (0 : ℝ) < 1000000)]; linarith) r.2 r.1 (by norm_num; linarith)
    (Real.abs_sin_le_one _) (Real.abs_cos_le_one _)
  rw [← one_add_tan _ hc, Real.tan_eq_sin_div_cos]
  generalize Real.cos (Real.pi * (i / 2048)) = c at *
  generalize Real.sin (Real.pi * (i / 2048)) = s at *
  have hcp : 0 < |c| := abs_pos.mpr hc
  have e2 : (d : ℝ) / 1000000 - s / c = ((d : ℝ) / 1000000 * c - s) / c := by field_simp
  rw [e2, abs_div, div_le_iff₀ hcp]
  have e3 : 6 / 10 ^ 7 * (1 / c ^ 2) * |c| = 6 / 10 ^ 7 / |c| := by rw [← sq_abs c]; field_simp
  rw [e3, le_div_iff₀ hcp]
  exact t

/-- **C138** (partial): tan(x) is close to the real tangent. If |tan| is at most T within 0.0016 + 3e-8 x of x, the error is at most (0.0000008 (1 + T) + 3e-8 x)(1 + T^2), for every x from 0 up to 2^21 periods. What is missing is the two cells of the table next to odd multiples of half pi, see `C138_near_half_pi_violated`. -/
theorem C138_tan_partial (x : ℚ) (h0 : 0 ≤ x) (h1 : x < 2 ^ 21 * pif) (T : ℝ) (hT : ∀ z : ℝ, |z - x| ≤ 16 / 10 ^ 4 + 3 / 10 ^ 8 * x → Real.cos z ≠ 0 ∧ |Real.tan z| ≤ T) :
    ∃ v : ℚ, tan x = .ok v ∧ |(v : ℝ) - Real.tan x| ≤ (8 / 10 ^ 7 * (1 + T) + 3 / 10 ^ 8 * x) * (1 + T ^ 2) := by
  have hp := pif_pos
  have hl := tan_len
  have hq1 : x / pif < 2 ^ 21 := by rw [div_lt_iff₀ hp]; exact h1
  have hq0 : 0 ≤ x / pif := by positivity
  have hx0 : (0 : ℝ) ≤ x := by exact_mod_cast h0
  obtain ⟨y, hy⟩ : ∃ y : ℝ, y = Real.pi * ((x : ℝ) / (pif : ℝ)) := ⟨_, rfl⟩
  have hyx : |y - x| ≤ 3 / 10 ^ 8 * x := by
    have := turns_near x hx0
    rw [hy]
    rwa [show 2 * Real.pi * ((x : ℝ) / (2 * (pif : ℝ))) = Real.pi * ((x : ℝ) / (pif : ℝ)) by field_simp] at this
  obtain ⟨q, hq⟩ : ∃ q, x / pif = q := ⟨_, rfl⟩
  rw [hq] at hq0 hq1
  have hyq : y = Real.pi * q := by rw [hy, ← hq]; push_cast; rfl
  obtain ⟨k, hk0, hk1⟩ := Interp.cell (q * 2048) (by positivity)
  have hk2 : k < 2 ^ 32 := by
    have h1' : q < 2097152 := by norm_num at hq1; exact hq1
    have : (k : ℚ) < 4294967296 := by linarith
    have : k < 4294967296 := by exact_mod_cast this
    omega
  have e := (C101_wrap_index tanTable tan_ne (q * 2048) k hk0 hk1 hk2 _ _ rfl rfl).1
  rw [hl] at e
  refine ⟨_, by unfold tan interpWrap; rw [hl, hq]; exact_mod_cast e, ?_⟩
  have hpi := Real.pi_pos
  have pu := Real.pi_lt_d6
  have hk0' : (k : ℝ) ≤ q * 2048 := by have := (Rat.cast_le (K := ℝ)).mpr hk0; push_cast at this; exact this
  have hk1' : (q : ℝ) * 2048 < k + 1 := by have := (Rat.cast_lt (K := ℝ)).mpr hk1; push_cast at this; exact this
  obtain ⟨a, ha⟩ : ∃ a : ℝ, a = Real.pi * ((k : ℝ) / 2048) := ⟨_, rfl⟩
  obtain ⟨b, hb⟩ : ∃ b : ℝ, b = Real.pi * (((k + 1 : ℕ) : ℝ) / 2048) := ⟨_, rfl⟩
  have hab : b - a = Real.pi / 2048 := by rw [ha, hb]; push_cast; ring
  have hay : a ≤ y := by rw [ha, hyq]; gcongr; linarith
  have hyb : y ≤ b := by rw [hb, hyq]; push_cast; gcongr; linarith
  have hnear : ∀ z ∈ Set.Icc a b, Real.cos z ≠ 0 ∧ |Real.tan z| ≤ T := by
    intro z hz
    apply hT
    have h1 : |z - y| ≤ 16 / 10 ^ 4 := by
      rw [abs_le]
      have := hz.1; have := hz.2
      constructor <;> norm_num at * <;> linarith
    calc |z - (x : ℝ)| ≤ |z - y| + |y - x| := abs_sub_le _ _ _
      _ ≤ _ := add_le_add h1 hyx
  have hT0 : 0 ≤ T := (abs_nonneg _).trans (hnear a ⟨le_rfl, by linarith⟩).2
  -- the two entries
  have per : ∀ j : ℕ, ∃ n : ℕ, Real.pi * ((j : ℝ) / 2048) = Real.pi * (((j % 2048 : ℕ) : ℝ) / 2048) + n * Real.pi := by
    intro j
    refine ⟨j / 2048, ?_⟩
    have : (j : ℝ) = (2048 * (j / 2048 : ℕ) + (j % 2048 : ℕ) : ℕ) := by rw [Nat.div_add_mod]
    conv_lhs => rw [this]
    push_cast
    ring
  have entry : ∀ (j : ℕ) (z : ℝ), z = Real.pi * ((j : ℝ) / 2048) → Real.cos z ≠ 0 → |Real.tan z| ≤ T → |((at' tanTable (j % 2048) : ℚ) : ℝ) - Real.tan z| ≤ 6 / 10 ^ 7 * (1 + T ^ 2) := by
    intro j z hz hc ht
    obtain ⟨n, hn⟩ := per j
    have ht2 : Real.tan z ^ 2 ≤ T ^ 2 := by rw [← sq_abs]; gcongr
    rw [hz, hn] at hc ht2 ⊢
    rw [Real.tan_add_nat_mul_pi] at ht2 ⊢
    rw [Real.cos_add_nat_mul_pi] at hc
    have hc' := right_ne_zero_of_mul hc
    refine (C138_tan_entries (j % 2048) (Nat.mod_lt _ (by norm_num)) ?_ hc').trans (by gcongr)
    intro h
    rw [h] at hc'
    apply hc'
    rw [show Real.pi * (((1024 : ℕ) : ℝ) / 2048) = Real.pi / 2 by push_cast; ring]
    exact Real.cos_pi_div_two
  have ea := entry k a ha (hnear a ⟨le_rfl, by linarith⟩).1 (hnear a ⟨le_rfl, by linarith⟩).2
  have eb := entry (k + 1) b hb (hnear b ⟨by linarith, le_rfl⟩).1 (hnear b ⟨by linarith, le_rfl⟩).2
  have t0 : (0 : ℝ) ≤ ((q * 2048 - k : ℚ) : ℝ) := by push_cast; linarith
  have t1 : ((q * 2048 - k : ℚ) : ℝ) ≤ 1 := by push_cast; linarith
  have c := lerp_close Real.tan (fun z => 1 / Real.cos z ^ 2) (fun z => 2 * Real.sin z / Real.cos z ^ 3) a b (2 * T * (1 + T ^ 2)) (6 / 10 ^ 7 * (1 + T ^ 2)) _ (by linarith)
    (fun z hz => Real.hasDerivAt_tan (hnear z hz).1)
    (fun z hz => by
      have hc := (hnear z hz).1
      have := ((Real.hasDerivAt_cos z).pow 2).inv (pow_ne_zero 2 hc)
      simp only [one_div]
      have e : 2 * Real.sin z / Real.cos z ^ 3 = -(((2 : ℕ) : ℝ) * Real.cos z ^ (2 - 1) * -Real.sin z) / (Real.cos z ^ 2) ^ 2 := by
        norm_num
        field_simp
      rw [e]
      exact this)
    (fun z hz => by
      obtain ⟨hc, ht⟩ := hnear z hz
      have e : 2 * Real.sin z / Real.cos z ^ 3 = 2 * Real.tan z * (1 + Real.tan z ^ 2) := by
        rw [← one_add_tan z hc, Real.tan_eq_sin_div_cos]; field_simp
      rw [e, abs_mul, abs_mul, abs_of_pos (by norm_num : (0 : ℝ) < 2), abs_of_pos (by positivity : 0 < 1 + Real.tan z ^ 2)]
      have : Real.tan z ^ 2 ≤ T ^ 2 := by rw [← sq_abs]; gcongr
      gcongr) t0 t1 _ _ ea eb
  have e2 : a + ((q * 2048 - k : ℚ) : ℝ) * (b - a) = y := by rw [hab, ha, hyq]; push_cast; ring
  rw [e2, hab] at c
  -- from y to x
  have hxy : |Real.tan y - Real.tan x| ≤ (1 + T ^ 2) * (3 / 10 ^ 8 * x) := by
    have hball : ∀ z ∈ Set.Icc ((x : ℝ) - 3 / 10 ^ 8 * x) ((x : ℝ) + 3 / 10 ^ 8 * x), Real.cos z ≠ 0 ∧ |Real.tan z| ≤ T := by
      intro z hz
      apply hT
      have := hz.1; have := hz.2
      rw [abs_le]
      constructor <;> linarith
    have := Convex.norm_image_sub_le_of_norm_hasDerivWithin_le (f := Real.tan) (f' := fun z => 1 / Real.cos z ^ 2) (C := 1 + T ^ 2) (s := Set.Icc ((x : ℝ) - 3 / 10 ^ 8 * x) ((x : ℝ) + 3 / 10 ^ 8 * x)) (x := (x : ℝ)) (y := y)
      (fun z hz => (Real.hasDerivAt_tan (hball z hz).1).hasDerivWithinAt)
      (fun z hz => by
        obtain ⟨hc, ht⟩ := hball z hz
        rw [one_add_tan z hc, Real.norm_eq_abs, abs_of_pos (by positivity)]
        have : Real.tan z ^ 2 ≤ T ^ 2 := by rw [← sq_abs]; gcongr
        gcongr) (convex_Icc _ _) ⟨by linarith [show (0 : ℝ) ≤ 3 / 10 ^ 8 * x by positivity], by linarith [show (0 : ℝ) ≤ 3 / 10 ^ 8 * x by positivity]⟩
      ⟨by linarith [(abs_le.mp hyx).1], by linarith [(abs_le.mp hyx).2]⟩
    rw [Real.norm_eq_abs, Real.norm_eq_abs] at this
    exact this.trans (by gcongr)
  unfold lerp
  push_cast at c ⊢
  refine (abs_sub_le _ (Real.tan y) _).trans ((add_le_add c hxy).trans ?_)
  have hsq : (Real.pi / 2048) ^ 2 ≤ (3.141593 / 2048) ^ 2 := by gcongr
  have hK : 0 < 1 + T ^ 2 := by positivity
  have g1 : 2 * T * (1 + T ^ 2) * (Real.pi / 2048) ^ 2 / 8 ≤ 2 * T * (1 + T ^ 2) * (3.141593 / 2048) ^ 2 / 8 := by gcongr
  have g2 : 2 * T * (1 + T ^ 2) * (3.141593 / 2048) ^ 2 / 8 ≤ 8 / 10 ^ 7 * T * (1 + T ^ 2) := by
    have : (3.141593 / 2048 : ℝ) ^ 2 ≤ 24 / 10 ^ 7 := by norm_num
    have h0 : 0 ≤ 2 * T * (1 + T ^ 2) := by positivity
    nlinarith
  nlinarith

/-- **C138** fails next to half pi: half a table step below it the tangent is above 1, and tan returns less than -11000000. -/
theorem C138_near_half_pi_violated : ∃ v : ℚ, tan (pif * (2047 / 4096)) = .ok v ∧ v < -11000000 ∧ 1 < Real.tan ((pif * (2047 / 4096) : ℚ) : ℝ) := by
  have hp := pif_pos
  have hl := tan_len
  have e := (C101_wrap_index tanTable tan_ne (2047 / 2) 1023 (by norm_num) (by norm_num) (by norm_num) _ _ rfl rfl).1
  rw [hl] at e
  refine ⟨_, by unfold tan interpWrap; rw [hl, mul_comm pif, mul_div_assoc, div_self hp.ne']; norm_num at e ⊢; exact e, ?_, ?_⟩
  · unfold lerp tanTable
    rw [tab_at, tab_at, show tanData.getD (1023 % 2048) 0 = 651914856 by decide +kernel, show tanData.getD ((1023 + 1) % 2048) 0 = -22877334000000 by decide +kernel]
    norm_num
  · have pn := pif_near
    rw [abs_le] at pn
    have l := Real.pi_gt_d6
    have u := Real.pi_lt_d6
    push_cast
    have := Real.tan_lt_tan_of_nonneg_of_lt_pi_div_two (x := Real.pi / 4) (y := (pif : ℝ) * (2047 / 4096)) (by positivity) (by norm_num at *; linarith) (by norm_num at *; linarith)
    rwa [Real.tan_pi_div_four] at this

-- a sixteenth of a turn: the hypothesis holds with T = 1
example : ∃ v : ℚ, tan (39 / 100) = .ok v ∧ |(v : ℝ) - Real.tan ((39 / 100 : ℚ) : ℝ)| ≤ 4 / 10 ^ 6 := by
  have hT : ∀ z : ℝ, |z - ((39 / 100 : ℚ) : ℝ)| ≤ 16 / 10 ^ 4 + 3 / 10 ^ 8 * ((39 / 100 : ℚ) : ℝ) → Real.cos z ≠ 0 ∧ |Real.tan z| ≤ 1 := by
    intro z hz
    rw [abs_le] at hz
    push_cast at hz
    norm_num at hz
    have l := Real.pi_gt_d6
    have hz0 : 0 ≤ z := by linarith [hz.1]
    have hz1 : z ≤ Real.pi / 4 := by norm_num at l; linarith [hz.2]
    have hc : 0 < Real.cos z := Real.cos_pos_of_mem_Ioo ⟨by linarith, by linarith⟩
    refine ⟨hc.ne', ?_⟩
    rw [abs_of_nonneg (Real.tan_nonneg_of_nonneg_of_le_pi_div_two hz0 (by linarith))]
    rcases eq_or_lt_of_le hz1 with h | h
    · rw [h, Real.tan_pi_div_four]
    · have := Real.tan_lt_tan_of_nonneg_of_lt_pi_div_two hz0 (by linarith) h
      rw [Real.tan_pi_div_four] at this
      exact this.le
  obtain ⟨v, h1, h2⟩ := C138_tan_partial (39 / 100) (by norm_num) (by unfold pif; norm_num) 1 hT
  refine ⟨v, h1, h2.trans ?_⟩
  norm_num

end Accuracy
