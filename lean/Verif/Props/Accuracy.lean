import Verif.Lemmas.RealTables
import Verif.Props.MathFns
/-! # C135, C136: how close the table functions are to the real functions -/

namespace Accuracy
open MathTables InterpArray Interp.Spec MathFns RealTables Tables

attribute [local irreducible] sinTable tanTable exp5Table exp10Table pow9Table logTable

/-! ## Sine -/

theorem turn_cs : |((999995293805884 : Int) : ℝ) / N - Real.cos (Real.pi / 1024)| + |((3067956762965 : Int) : ℝ) / N - Real.sin (Real.pi / 1024)| ≤ 5 / 10 ^ 12 := by
  have p1 := Real.pi_gt_d20
  have p2 := Real.pi_lt_d20
  obtain ⟨x, hx⟩ : ∃ x, Real.pi / 1024 = x := ⟨_, rfl⟩
  have l : 0.00306796157577128245943 < x := by rw [← hx]; norm_num at p1 ⊢; linarith
  have u : x < 0.00306796157577128245945 := by rw [← hx]; norm_num at p2 ⊢; linarith
  rw [hx]
  have x0 : 0 < x := lt_trans (by norm_num) l
  have hx1 : |x| ≤ 1 := by rw [abs_of_pos x0]; linarith
  have hc := Real.cos_bound hx1
  have hs := Real.sin_bound hx1
  rw [abs_of_pos x0] at hc hs
  have l2 : 0.00306796157577128245943 ^ 2 ≤ x ^ 2 := pow_le_pow_left₀ (by norm_num) l.le 2
  have u2 : x ^ 2 ≤ 0.00306796157577128245945 ^ 2 := pow_le_pow_left₀ x0.le u.le 2
  have l3 : 0.00306796157577128245943 ^ 3 ≤ x ^ 3 := pow_le_pow_left₀ (by norm_num) l.le 3
  have u3 : x ^ 3 ≤ 0.00306796157577128245945 ^ 3 := pow_le_pow_left₀ x0.le u.le 3
  have u4 : x ^ 4 ≤ 0.00306796157577128245945 ^ 4 := pow_le_pow_left₀ x0.le u.le 4
  have u5 : x ^ 5 ≤ 0.00306796157577128245945 ^ 5 := pow_le_pow_left₀ x0.le u.le 5
  norm_num at l2 u2 l3 u3 u4 u5 l u
  rw [abs_le] at hc hs
  have hN : (N : ℝ) = 10 ^ 15 := by unfold N; norm_num
  rw [hN]
  have a1 : |((999995293805884 : Int) : ℝ) / 10 ^ 15 - Real.cos x| ≤ 48 / 10 ^ 13 := by
    rw [abs_le]; push_cast
    constructor <;> norm_num <;> linarith [hc.1, hc.2]
  have a2 : |((3067956762965 : Int) : ℝ) / 10 ^ 15 - Real.sin x| ≤ 1 / 10 ^ 13 := by
    rw [abs_le]; push_cast
    constructor <;> norm_num <;> linarith [hs.1, hs.2]
  linarith

/-- **C135**: every entry of the sine table is within 0.73 millionths of the sine of its angle. -/
theorem C135_sin_entries (i : ℕ) (hi : i < 2048) : |((at' sinTable i : ℚ) : ℝ) - Real.sin (2 * Real.pi * (i / 2048))| ≤ 73 / 10 ^ 8 := by
  have hN : (N : ℝ) = 10 ^ 15 := by unfold N; norm_num
  have hl : sinData.length = 2048 := by decide +kernel
  have h := chkRot_get 999995293805884 3067956762965 (699618396) sinData (N, 0) (by decide +kernel) i (by rw [hl]; exact hi)
  have hR : |((sinData.getD i 0 : Int) : ℝ) * 10 ^ 9 - ((((rstep 999995293805884 3067956762965)^[i] (N, 0)).2 : Int) : ℝ)| ≤ 699618396 := by exact_mod_cast h
  have hi' : (i : ℝ) ≤ 2048 := by exact_mod_cast hi.le
  have hi0 : (0 : ℝ) ≤ i := Nat.cast_nonneg _
  have r := (rot_iter (Real.pi / 1024) 999995293805884 3067956762965 (5 / 10 ^ 12) turn_cs i (by rw [hN]; norm_num; linarith)).1
  rw [show (i : ℝ) * (Real.pi / 1024) = 2 * Real.pi * (i / 2048) by ring] at r
  have e : ((at' sinTable i : ℚ) : ℝ) = ((sinData.getD i 0 : Int) : ℝ) / 1000000 := by
    unfold sinTable
    rw [tab_at]; push_cast; rfl
  rw [e]
  generalize (sinData.getD i 0 : Int) = d at hR ⊢
  generalize ((rstep 999995293805884 3067956762965)^[i] (N, 0)).2 = z at hR r
  rw [hN] at r
  have r2 : (i : ℝ) * (2 / 10 ^ 15 + 2 * (5 / 10 ^ 12)) ≤ 21 / 10 ^ 9 := by norm_num; linarith
  rw [abs_le] at hR r ⊢
  have : ((z : ℝ)) / 10 ^ 15 = z * (1 / 10 ^ 15) := by ring
  rw [this] at r
  constructor <;> norm_num at * <;> linarith [hR.1, hR.2, r.1, r.2]

example := C135_sin_entries 300 (by norm_num)

/-- Interpolating between values `a`, `b` close to those of a smooth function. -/
theorem lerp_close (f f' f'' : ℝ → ℝ) (x y M ε t : ℝ) (hxy : x ≤ y) (h1 : ∀ z ∈ Set.Icc x y, HasDerivAt f (f' z) z) (h2 : ∀ z ∈ Set.Icc x y, HasDerivAt f' (f'' z) z)
    (hM : ∀ z ∈ Set.Icc x y, |f'' z| ≤ M) (ht0 : 0 ≤ t) (ht1 : t ≤ 1) (a b : ℝ) (ha : |a - f x| ≤ ε) (hb : |b - f y| ≤ ε) :
    |a + (b - a) * t - f (x + t * (y - x))| ≤ ε + M * (y - x) ^ 2 / 8 := by
  have h := lerp_error f f' f'' x y M t hxy h1 h2 hM ht0 ht1
  rw [abs_le] at *
  constructor <;> nlinarith [ha.1, ha.2, hb.1, hb.2, h.1, h.2]

/-- **C135**: sin01(x), the sine of x turns, is within two millionths of the real sine, for every x from 0 up to 2^21 turns. -/
theorem C135_sin01 (x : ℚ) (h0 : 0 ≤ x) (h1 : x < 2 ^ 21) : ∃ v : ℚ, sin01 x = .ok v ∧ |(v : ℝ) - Real.sin (2 * Real.pi * x)| ≤ 2 / 10 ^ 6 := by
  have hl := sin_len
  obtain ⟨k, hk0, hk1⟩ := Interp.cell (x * 2048) (by positivity)
  have hk2 : k < 2 ^ 32 := by
    have h1' : x < 2097152 := by norm_num at h1; exact h1
    have : (k : ℚ) < 4294967296 := by linarith
    have : k < 4294967296 := by exact_mod_cast this
    omega
  have e := (C101_wrap_index sinTable sin_ne (x * 2048) k hk0 hk1 hk2 _ _ rfl rfl).1
  rw [hl] at e
  refine ⟨_, by unfold sin01 interpWrap; rw [hl]; exact_mod_cast e, ?_⟩
  have per : ∀ j : ℕ, Real.sin (2 * Real.pi * ((j % 2048 : ℕ) / 2048)) = Real.sin (2 * Real.pi * (j / 2048)) := by
    intro j
    have : (j : ℝ) = (2048 * (j / 2048 : ℕ) + (j % 2048 : ℕ) : ℕ) := by rw [Nat.div_add_mod]
    conv_rhs => rw [this]
    push_cast
    rw [show 2 * Real.pi * ((2048 * ((j / 2048 : ℕ) : ℝ) + ((j % 2048 : ℕ) : ℝ)) / 2048) = 2 * Real.pi * (((j % 2048 : ℕ) : ℝ) / 2048) + ((j / 2048 : ℕ) : ℝ) * (2 * Real.pi) by ring, Real.sin_add_nat_mul_two_pi]
  have ha := C135_sin_entries (k % 2048) (Nat.mod_lt _ (by norm_num))
  have hb := C135_sin_entries ((k + 1) % 2048) (Nat.mod_lt _ (by norm_num))
  rw [per] at ha hb
  have hp := Real.pi_pos
  have c := lerp_close Real.sin Real.cos (fun z => -Real.sin z) (2 * Real.pi * (k / 2048)) (2 * Real.pi * ((k + 1 : ℕ) / 2048)) 1 (73 / 10 ^ 8) ((x * 2048 - k : ℚ) : ℝ)
    (by push_cast; gcongr; linarith) (fun z _ => Real.hasDerivAt_sin z) (fun z _ => Real.hasDerivAt_cos z) (fun z _ => by rw [abs_neg]; exact Real.abs_sin_le_one z)
    (by exact_mod_cast (by linarith : (0 : ℚ) ≤ x * 2048 - k)) (by exact_mod_cast (by linarith : x * 2048 - k ≤ (1 : ℚ))) _ _ ha hb
  have e2 : 2 * Real.pi * ((k : ℝ) / 2048) + ((x * 2048 - k : ℚ) : ℝ) * (2 * Real.pi * (((k + 1 : ℕ) : ℝ) / 2048) - 2 * Real.pi * ((k : ℝ) / 2048)) = 2 * Real.pi * x := by push_cast; ring
  rw [e2] at c
  unfold lerp
  push_cast at c ⊢
  refine c.trans ?_
  have pu := Real.pi_lt_d6
  have : (2 * Real.pi * (((k : ℝ) + 1) / 2048) - 2 * Real.pi * ((k : ℝ) / 2048)) = Real.pi / 1024 := by ring
  rw [this]
  have : (Real.pi / 1024) ^ 2 ≤ (3.141593 / 1024) ^ 2 := by gcongr
  norm_num at this ⊢
  linarith

example := C135_sin01 (1 / 3) (by norm_num) (by norm_num)

theorem pif_near : |(pif : ℝ) - Real.pi| ≤ 88 / 10 ^ 9 := by
  have p1 := Real.pi_gt_d20
  have p2 := Real.pi_lt_d20
  unfold pif
  push_cast
  rw [abs_le]
  constructor <;> norm_num at * <;> linarith

/-- Turning by `x / (2 pif)` turns instead of `x` radians. -/
theorem turns_near (x : ℝ) (h0 : 0 ≤ x) : |2 * Real.pi * (x / (2 * (pif : ℝ))) - x| ≤ 3 / 10 ^ 8 * x := by
  have hp : (0 : ℝ) < (pif : ℝ) := by exact_mod_cast pif_pos
  have h3 : (3 : ℝ) ≤ (pif : ℝ) := by exact_mod_cast (show (3 : ℚ) ≤ pif by unfold pif; norm_num)
  have e : 2 * Real.pi * (x / (2 * (pif : ℝ))) - x = (Real.pi - pif) / pif * x := by field_simp
  rw [e, abs_mul, abs_of_nonneg h0]
  gcongr
  rw [abs_div, abs_of_pos hp, div_le_iff₀ hp, abs_sub_comm]
  have := pif_near
  nlinarith

/-- **C135**: sin(x) is within two millionths of the real sine, plus three hundred-millionths of x that come from the single-precision value of pi, for every x from 0 up to 2^21 periods; cos(x) likewise up to 2^21 - 1 periods. -/
theorem C135_sin (x : ℚ) (h0 : 0 ≤ x) (h1 : x < 2 ^ 21 * (2 * pif)) : ∃ v : ℚ, sin x = .ok v ∧ |(v : ℝ) - Real.sin x| ≤ 2 / 10 ^ 6 + 3 / 10 ^ 8 * x := by
  have hp := pif_pos
  obtain ⟨v, hv, hb⟩ := C135_sin01 (x / (2 * pif)) (by positivity) (by rw [div_lt_iff₀ (by positivity)]; exact h1)
  refine ⟨v, hv, ?_⟩
  have t := turns_near x (by exact_mod_cast h0)
  push_cast at hb
  have := (Real.abs_sin_sub_sin_le (2 * Real.pi * ((x : ℝ) / (2 * (pif : ℝ)))) x).trans t
  calc |(v : ℝ) - Real.sin x| ≤ |(v : ℝ) - Real.sin (2 * Real.pi * ((x : ℝ) / (2 * (pif : ℝ))))| + |Real.sin (2 * Real.pi * ((x : ℝ) / (2 * (pif : ℝ)))) - Real.sin x| := abs_sub_le _ _ _
    _ ≤ _ := add_le_add hb this

theorem C135_cos (x : ℚ) (h0 : 0 ≤ x) (h1 : x < (2 ^ 21 - 1) * (2 * pif)) : ∃ v : ℚ, cos x = .ok v ∧ |(v : ℝ) - Real.cos x| ≤ 2 / 10 ^ 6 + 3 / 10 ^ 8 * x := by
  have hp := pif_pos
  have hx : x / (2 * pif) < 2 ^ 21 - 1 := by rw [div_lt_iff₀ (by positivity)]; exact h1
  obtain ⟨v, hv, hb⟩ := C135_sin01 (x / (2 * pif) + 1 / 4) (by positivity) (by linarith)
  refine ⟨v, hv, ?_⟩
  have t := turns_near x (by exact_mod_cast h0)
  push_cast at hb
  rw [show 2 * Real.pi * ((x : ℝ) / (2 * (pif : ℝ)) + 1 / 4) = 2 * Real.pi * ((x : ℝ) / (2 * (pif : ℝ))) + Real.pi / 2 by ring, Real.sin_add_pi_div_two] at hb
  have := (Real.abs_cos_sub_cos_le (2 * Real.pi * ((x : ℝ) / (2 * (pif : ℝ)))) x).trans t
  calc |(v : ℝ) - Real.cos x| ≤ |(v : ℝ) - Real.cos (2 * Real.pi * ((x : ℝ) / (2 * (pif : ℝ))))| + |Real.cos (2 * Real.pi * ((x : ℝ) / (2 * (pif : ℝ)))) - Real.cos x| := abs_sub_le _ _ _
    _ ≤ _ := add_le_add hb this

-- one radian: the hypotheses hold
example : ∃ v : ℚ, sin 1 = .ok v ∧ |(v : ℝ) - Real.sin 1| ≤ 3 / 10 ^ 6 := by
  obtain ⟨v, h1, h2⟩ := C135_sin 1 (by norm_num) (by unfold pif; norm_num)
  refine ⟨v, h1, ?_⟩
  norm_num at h2 ⊢
  linarith

/-! ## Powers of two -/

/-- Check that each entry, in millionths, to the power 2047 is within the given relative bounds of `2^(c i)`. -/
def chkPow (c : Nat) : List Int → Nat → Bool
  | [], _ => true
  | d :: l, i => decide ((d.toNat * 10 ^ 7) ^ 2047 ≤ 2 ^ (c * i) * (10 ^ 6 * (10 ^ 7 + 6)) ^ 2047) && decide (2 ^ (c * i) * (10 ^ 6 * (10 ^ 7 - 6)) ^ 2047 ≤ (d.toNat * 10 ^ 7) ^ 2047) && decide (0 ≤ d) && chkPow c l (i + 1)

theorem chkPow_get (c : Nat) (l : List Int) : ∀ n, chkPow c l n = true → ∀ i, i < l.length →
    ((l.getD i 0).toNat * 10 ^ 7) ^ 2047 ≤ 2 ^ (c * (n + i)) * (10 ^ 6 * (10 ^ 7 + 6)) ^ 2047 ∧ 2 ^ (c * (n + i)) * (10 ^ 6 * (10 ^ 7 - 6)) ^ 2047 ≤ ((l.getD i 0).toNat * 10 ^ 7) ^ 2047 ∧ 0 ≤ l.getD i 0 := by
  induction l with
  | nil => intro n _ i hi; simp at hi
  | cons d l ih =>
    intro n h i hi
    rw [chkPow, Bool.and_eq_true, Bool.and_eq_true, Bool.and_eq_true, decide_eq_true_eq, decide_eq_true_eq, decide_eq_true_eq] at h
    cases i with
    | zero => exact ⟨h.1.1.1, h.1.1.2, h.1.2⟩
    | succ i =>
      have := ih _ h.2 i (by simpa using hi)
      rw [show n + 1 + i = n + (i + 1) by omega] at this
      exact this

theorem root_le (n : ℕ) (hn : n ≠ 0) (a b : ℝ) (ha : 0 ≤ a) (hb : 0 ≤ b) (h : a ^ n ≤ b ^ n) : a ≤ b := (pow_le_pow_iff_left₀ ha hb hn).mp h

theorem pow_entry (c : Nat) (data : List Int) (h : chkPow c data 0 = true) (i : Nat) (hi : i < data.length) :
    |((at' (tab data) i : ℚ) : ℝ) - Real.exp (c * Real.log 2 * (i / 2047))| ≤ 6 / 10 ^ 7 * Real.exp (c * Real.log 2 * (i / 2047)) := by
  obtain ⟨h1, h2, h3⟩ := chkPow_get c data 0 h i hi
  have e : ((at' (tab data) i : ℚ) : ℝ) = ((data.getD i 0 : Int) : ℝ) / 1000000 := by rw [tab_at]; push_cast; rfl
  rw [e]
  obtain ⟨m, hm⟩ := Int.eq_ofNat_of_zero_le h3
  rw [hm] at h1 h2 ⊢
  rw [Int.toNat_natCast] at h1 h2
  rw [Nat.zero_add] at h1 h2
  have hF : Real.exp (c * Real.log 2 * (i / 2047)) ^ 2047 = 2 ^ (c * i) := by
    rw [← Real.exp_nat_mul]
    rw [show ((2047 : ℕ) : ℝ) * (c * Real.log 2 * (i / 2047)) = ((c * i : ℕ) : ℝ) * Real.log 2 by push_cast; ring]
    rw [Real.exp_nat_mul, Real.exp_log (by norm_num)]
  have hpos := Real.exp_pos (c * Real.log 2 * (i / 2047))
  obtain ⟨F, hFe⟩ : ∃ F, Real.exp (c * Real.log 2 * (i / 2047)) = F := ⟨_, rfl⟩
  rw [hFe] at hF hpos ⊢
  have h1' : ((m : ℝ) * 10 ^ 7) ^ 2047 ≤ (F * (10 ^ 6 * (10 ^ 7 + 6))) ^ 2047 := by
    rw [mul_pow F, hF]; exact_mod_cast h1
  have h2' : (F * (10 ^ 6 * (10 ^ 7 - 6))) ^ 2047 ≤ ((m : ℝ) * 10 ^ 7) ^ 2047 := by
    rw [mul_pow F, hF]
    have h4 : (10 : ℕ) ^ 7 - 6 = 9999994 := by norm_num
    have h5 : (10 : ℝ) ^ 7 - 6 = 9999994 := by norm_num
    rw [h4] at h2
    rw [h5]
    exact_mod_cast h2
  have n1 : 0 ≤ (m : ℝ) * 10 ^ 7 := mul_nonneg (Nat.cast_nonneg _) (by norm_num)
  have n2 : 0 ≤ F * (10 ^ 6 * (10 ^ 7 + 6)) := mul_nonneg hpos.le (by norm_num)
  have n3 : 0 ≤ F * (10 ^ 6 * (10 ^ 7 - 6)) := mul_nonneg hpos.le (by norm_num)
  have g1 := root_le 2047 (by norm_num) _ _ n1 n2 h1'
  have g2 := root_le 2047 (by norm_num) _ _ n3 n1 h2'
  clear h1 h2 h1' h2' hF
  rw [abs_le]
  push_cast
  constructor <;> norm_num at g1 g2 ⊢ <;> linarith

/-- Interpolating in a table of an exponential, relative error. -/
theorem exp_lerp (L : ℝ) (hL0 : 0 ≤ L) (hL : L ≤ 7) (ε δ : ℝ) (h0 : 0 ≤ ε) (hδ : (ε + L ^ 2 / (8 * 2047 ^ 2)) * 1.007 ≤ δ) (k t a b : ℝ) (ht0 : 0 ≤ t) (ht1 : t ≤ 1)
    (ha : |a - Real.exp (L * (k / 2047))| ≤ ε * Real.exp (L * (k / 2047))) (hb : |b - Real.exp (L * ((k + 1) / 2047))| ≤ ε * Real.exp (L * ((k + 1) / 2047))) :
    |a + (b - a) * t - Real.exp (L * ((k + t) / 2047))| ≤ δ * Real.exp (L * ((k + t) / 2047)) := by
  have hm : ∀ y z : ℝ, y ≤ z → Real.exp (L * y) ≤ Real.exp (L * z) := fun y z h => Real.exp_le_exp.mpr (mul_le_mul_of_nonneg_left h hL0)
  have d1 : ∀ z, HasDerivAt (fun z => Real.exp (L * z)) (L * Real.exp (L * z)) z := by
    intro z
    have := ((hasDerivAt_id z).const_mul L).exp
    simp only [id, mul_one] at this
    rw [mul_comm]; exact this
  have d2 : ∀ z, HasDerivAt (fun z => L * Real.exp (L * z)) (L * (L * Real.exp (L * z))) z := fun z => (d1 z).const_mul L
  have hE : 0 < Real.exp (L * ((k + 1) / 2047)) := Real.exp_pos _
  have c := lerp_close (fun z => Real.exp (L * z)) _ _ (k / 2047) ((k + 1) / 2047) (L ^ 2 * Real.exp (L * ((k + 1) / 2047))) (ε * Real.exp (L * ((k + 1) / 2047))) t
    (by gcongr; linarith) (fun z _ => d1 z) (fun z _ => d2 z)
    (fun z hz => by
      rw [abs_of_nonneg (by have := Real.exp_pos (L * z); positivity), ← mul_assoc, ← sq]
      exact mul_le_mul_of_nonneg_left (hm _ _ hz.2) (sq_nonneg L)) ht0 ht1 a b
    (ha.trans (mul_le_mul_of_nonneg_left (hm _ _ (by gcongr; linarith)) h0)) hb
  have e : k / 2047 + t * ((k + 1) / 2047 - k / 2047) = (k + t) / 2047 := by ring
  rw [e] at c
  refine c.trans ?_
  have hx : Real.exp (L * ((k + 1) / 2047)) ≤ 1.007 * Real.exp (L * ((k + t) / 2047)) := by
    have : L * ((k + 1) / 2047) = L * ((1 - t) / 2047) + L * ((k + t) / 2047) := by ring
    rw [this, Real.exp_add]
    apply mul_le_mul_of_nonneg_right _ (Real.exp_pos _).le
    have hs : L * ((1 - t) / 2047) ≤ 7 / 2047 := by
      have : (1 - t) / 2047 ≤ 1 / 2047 := by gcongr; linarith
      have h' : 0 ≤ (1 - t) / 2047 := by apply div_nonneg <;> linarith
      nlinarith
    refine (Real.exp_le_exp.mpr hs).trans ?_
    have := Real.exp_bound_div_one_sub_of_interval (x := 7 / 2047) (by norm_num) (by norm_num)
    refine this.trans ?_
    norm_num
  have e2 : ((k + 1) / 2047 - k / 2047 : ℝ) = 1 / 2047 := by ring
  rw [e2]
  have e3 : ε * Real.exp (L * ((k + 1) / 2047)) + L ^ 2 * Real.exp (L * ((k + 1) / 2047)) * (1 / 2047) ^ 2 / 8 = (ε + L ^ 2 / (8 * 2047 ^ 2)) * Real.exp (L * ((k + 1) / 2047)) := by ring
  rw [e3]
  calc (ε + L ^ 2 / (8 * 2047 ^ 2)) * Real.exp (L * ((k + 1) / 2047)) ≤ (ε + L ^ 2 / (8 * 2047 ^ 2)) * (1.007 * Real.exp (L * ((k + t) / 2047))) := by
        apply mul_le_mul_of_nonneg_left hx; positivity
    _ = (ε + L ^ 2 / (8 * 2047 ^ 2)) * 1.007 * Real.exp (L * ((k + t) / 2047)) := by ring
    _ ≤ _ := mul_le_mul_of_nonneg_right hδ (Real.exp_pos _).le

theorem exp2_eq (c : Nat) (p : ℝ) : Real.exp (c * Real.log 2 * p) = (2 : ℝ) ^ ((c : ℝ) * p) := by
  rw [Real.rpow_def_of_pos (by norm_num)]; congr 1; ring

theorem exp_interp (c : Nat) (hc : c ≤ 10) (data : List Int) (hl : data.length = 2048) (h : chkPow c data 0 = true) (δ : ℝ) (hδ : (6 / 10 ^ 7 + ((c : ℝ) * 0.6931471808) ^ 2 / (8 * 2047 ^ 2)) * 1.007 ≤ δ) (p : ℚ) (h0 : 0 ≤ p) (h1 : p ≤ 1) :
    ∃ v : ℚ, interp (tab data) p = .ok v ∧ |(v : ℝ) - 2 ^ ((c : ℝ) * p)| ≤ δ * 2 ^ ((c : ℝ) * p) := by
  obtain ⟨k, hk, hk0, hk1, e⟩ := interp_cell (tab data) (by rw [tab_length, hl]; norm_num) (by rw [tab_length, hl]; norm_num) p h0 h1
  rw [tab_length, hl] at hk hk0 hk1 e
  norm_num at hk0 hk1 e
  refine ⟨_, e, ?_⟩
  have l0 : 0 < Real.log 2 := Real.log_pos (by norm_num)
  have l1 := Real.log_two_lt_d9
  have hc' : (c : ℝ) ≤ 10 := by exact_mod_cast hc
  have hc0 : (0 : ℝ) ≤ c := Nat.cast_nonneg _
  have ha := pow_entry c data h k (by omega)
  have hb := pow_entry c data h (k + 1) (by omega)
  push_cast at hb
  have t0 : (0 : ℝ) ≤ ((p * 2047 - k : ℚ) : ℝ) := by exact_mod_cast (by linarith : (0 : ℚ) ≤ p * 2047 - k)
  have t1 : ((p * 2047 - k : ℚ) : ℝ) ≤ 1 := by exact_mod_cast (by linarith : p * 2047 - k ≤ (1 : ℚ))
  have hδ' : (6 / 10 ^ 7 + (c * Real.log 2) ^ 2 / (8 * 2047 ^ 2)) * 1.007 ≤ δ := by
    refine le_trans ?_ hδ
    have : (c * Real.log 2) ^ 2 ≤ ((c : ℝ) * 0.6931471808) ^ 2 := by gcongr
    gcongr
  have := exp_lerp (c * Real.log 2) (by positivity) (by nlinarith) (6 / 10 ^ 7) δ (by norm_num) hδ' k _ _ _ t0 t1 ha hb
  have e2 : ((k : ℝ) + ((p * 2047 - k : ℚ) : ℝ)) / 2047 = p := by push_cast; ring
  rw [e2, exp2_eq] at this
  unfold lerp
  push_cast at this ⊢
  exact this

/-- **C136**: interpolation in the exponential tables: exp5Table.interp(x) is within one millionth (relative) of 2^(5x), exp10Table.interp(x) within 2.1 millionths of 2^(10x), for every x in [0,1]. -/
theorem C136_exp_tables (x : ℚ) (h0 : 0 ≤ x) (h1 : x ≤ 1) :
    (∃ v : ℚ, interp exp5Table x = .ok v ∧ |(v : ℝ) - 2 ^ (5 * (x : ℝ))| ≤ 1 / 10 ^ 6 * 2 ^ (5 * (x : ℝ))) ∧
    (∃ v : ℚ, interp exp10Table x = .ok v ∧ |(v : ℝ) - 2 ^ (10 * (x : ℝ))| ≤ 21 / 10 ^ 7 * 2 ^ (10 * (x : ℝ))) := by
  constructor
  · have := exp_interp 5 (by norm_num) exp5Data (by decide +kernel) (by decide +kernel) (1 / 10 ^ 6) (by norm_num) x h0 h1
    unfold exp5Table
    exact_mod_cast this
  · have := exp_interp 10 (by norm_num) exp10Data (by decide +kernel) (by decide +kernel) (21 / 10 ^ 7) (by norm_num) x h0 h1
    unfold exp10Table
    exact_mod_cast this

/-- **C136**: pow2(x) is within one millionth (relative) of 2^x for every x from 0 up. -/
theorem C136_pow2 (x : ℚ) (h0 : 0 ≤ x) : ∃ v : ℚ, pow2 x = .ok v ∧ |(v : ℝ) - 2 ^ (x : ℝ)| ≤ 1 / 10 ^ 6 * 2 ^ (x : ℝ) := by
  obtain ⟨k, hk0, hk1⟩ := Interp.cell (x / 5) (by positivity)
  obtain ⟨e, he, hb⟩ := (C136_exp_tables (x / 5 - k) (by linarith) (by linarith)).1
  have h := pow2Loop_eq k (x / 5 - k) 1 (by linarith) (by linarith) e he
  refine ⟨32 ^ k * e, ?_, ?_⟩
  · unfold pow2
    rw [show x / 5 = x / 5 - k + k by ring, h, one_mul]
  · have e1 : (2 : ℝ) ^ (x : ℝ) = 32 ^ k * 2 ^ (5 * ((x / 5 - k : ℚ) : ℝ)) := by
      rw [show (x : ℝ) = ((5 * k : ℕ) : ℝ) + 5 * ((x / 5 - k : ℚ) : ℝ) by push_cast; ring, Real.rpow_add (by norm_num), Real.rpow_natCast, pow_mul]
      norm_num
    rw [e1]
    push_cast at hb ⊢
    rw [← mul_sub, abs_mul, abs_of_pos (by positivity : (0 : ℝ) < 32 ^ k)]
    calc (32 : ℝ) ^ k * |(e : ℝ) - 2 ^ (5 * ((x : ℝ) / 5 - k))| ≤ 32 ^ k * (1 / 10 ^ 6 * 2 ^ (5 * ((x : ℝ) / 5 - k))) := by gcongr
      _ = _ := by ring

/-- **C136**: setPitchMultiple(v) is within 1.1 millionths (relative) of 2^(5 v) for every v in [-1,1]. -/
theorem C136_pitch (v : ℚ) (h0 : -1 ≤ v) (h1 : v ≤ 1) : ∃ m : ℚ, setPitchMultiple v = .ok m ∧ |(m : ℝ) - 2 ^ (5 * (v : ℝ))| ≤ 11 / 10 ^ 7 * 2 ^ (5 * (v : ℝ)) := by
  by_cases hv : 0 ≤ v
  · obtain ⟨m, hm, hb⟩ := (C136_exp_tables v hv h1).1
    refine ⟨m, ?_, hb.trans (mul_le_mul_of_nonneg_right (by norm_num) (Real.rpow_pos_of_pos (by norm_num) _).le)⟩
    unfold setPitchMultiple constrain
    rw [if_pos hv, if_neg (by linarith), if_neg (by linarith)]
    exact hm
  · rw [not_le] at hv
    obtain ⟨m, hm, hb⟩ := (C136_exp_tables (-v) (by linarith) (by linarith)).1
    have hpos : (0 : ℝ) < 2 ^ (5 * (v : ℝ)) := Real.rpow_pos_of_pos (by norm_num) _
    have hinv : (2 : ℝ) ^ (5 * ((-v : ℚ) : ℝ)) = (2 ^ (5 * (v : ℝ)))⁻¹ := by
      rw [← Real.rpow_neg (by norm_num)]; push_cast; congr 1; ring
    rw [hinv] at hb
    generalize (2 : ℝ) ^ (5 * (v : ℝ)) = F at hpos hb ⊢
    have hF : 0 < F⁻¹ := inv_pos.mpr hpos
    rw [abs_le] at hb
    have hm0 : (0 : ℝ) < m := by norm_num at hb; linarith [hb.1]
    have hm1 : m ≠ 0 := by rintro rfl; simp at hm0
    refine ⟨1 / m, ?_, ?_⟩
    · unfold setPitchMultiple constrain
      rw [if_neg (by linarith), show v * (-1) = -v by ring]
      simp only []
      rw [if_neg (by linarith : ¬ -v < 0), if_neg (by linarith : ¬ -v > 1), hm]
      simp [hm1]
    · push_cast
      have e : 1 / (m : ℝ) - F = (F⁻¹ - m) * F / m := by field_simp
      rw [e, abs_div, abs_mul, abs_of_pos hpos, abs_of_pos hm0, div_le_iff₀ hm0]
      have : |F⁻¹ - (m : ℝ)| ≤ 11 / 10 ^ 7 * m := by
        rw [abs_le]; constructor <;> norm_num at hb ⊢ <;> linarith [hb.1, hb.2]
      nlinarith

-- two octaves and a half
example : ∃ v : ℚ, pow2 (5 / 2) = .ok v ∧ |(v : ℝ) - 2 ^ ((5 / 2 : ℚ) : ℝ)| ≤ 1 / 10 ^ 6 * 2 ^ ((5 / 2 : ℚ) : ℝ) := C136_pow2 _ (by norm_num)

/-! ## Logarithm -/

/-- Repeated squaring in fixed point, rounding down. -/
def lo : Nat → Nat → Nat
  | 0, y => y
  | k + 1, y => lo k (y * y / 2 ^ 80)
/-- A lower bound of `1 + q / (10^7 2^36)` in fixed point. -/
def up (q : Nat) : Nat := 2 ^ 80 + q * 2 ^ 80 / (10 ^ 7 * 2 ^ 36)
/-- A lower bound of `1 - q / (10^7 2^36)` in fixed point. -/
def dn (q : Nat) : Nat := 2 ^ 80 - (q * 2 ^ 80 / (10 ^ 7 * 2 ^ 36) + 1)

theorem lo_exp (k : Nat) : ∀ (y : Nat) (r : ℝ), (y : ℝ) ≤ 2 ^ 80 * Real.exp r → (lo k y : ℝ) ≤ 2 ^ 80 * Real.exp (2 ^ k * r) := by
  induction k with
  | zero => intro y r h; rw [lo, pow_zero, one_mul]; exact h
  | succ k ih =>
    intro y r h
    rw [lo, show (2 : ℝ) ^ (k + 1) * r = 2 ^ k * (2 * r) by ring]
    apply ih
    have h1 : ((y * y / 2 ^ 80 : Nat) : ℝ) ≤ (y : ℝ) * y / 2 ^ 80 := by
      have := @Nat.cast_div_le ℝ _ _ _ (y * y) (2 ^ 80)
      rw [Nat.cast_mul, Nat.cast_pow] at this
      exact this
    refine h1.trans ?_
    rw [div_le_iff₀ (by positivity), show (2 : ℝ) * r = r + r by ring, Real.exp_add]
    have := mul_le_mul h h (Nat.cast_nonneg _) (by have := Real.exp_pos r; positivity)
    nlinarith

theorem up_exp (q : Nat) : (lo 36 (up q) : ℝ) ≤ 2 ^ 80 * Real.exp ((q : ℝ) / 10 ^ 7) := by
  have h := lo_exp 36 (up q) ((q : ℝ) / (10 ^ 7 * 2 ^ 36)) ?_
  · rw [show (2 : ℝ) ^ 36 * ((q : ℝ) / (10 ^ 7 * 2 ^ 36)) = (q : ℝ) / 10 ^ 7 by field_simp] at h
    exact h
  · have h1 := @Nat.cast_div_le ℝ _ _ _ (q * 2 ^ 80) (10 ^ 7 * 2 ^ 36)
    have h2 := Real.add_one_le_exp ((q : ℝ) / (10 ^ 7 * 2 ^ 36))
    unfold up
    push_cast at h1 ⊢
    have : (q : ℝ) * 2 ^ 80 / (10 ^ 7 * 2 ^ 36) = 2 ^ 80 * ((q : ℝ) / (10 ^ 7 * 2 ^ 36)) := by ring
    nlinarith

theorem dn_exp (q : Nat) : (lo 36 (dn q) : ℝ) ≤ 2 ^ 80 * Real.exp (-((q : ℝ) / 10 ^ 7)) := by
  have h := lo_exp 36 (dn q) (-((q : ℝ) / (10 ^ 7 * 2 ^ 36))) ?_
  · rw [show (2 : ℝ) ^ 36 * (-((q : ℝ) / (10 ^ 7 * 2 ^ 36))) = -((q : ℝ) / 10 ^ 7) by field_simp] at h
    exact h
  · have h2 := Real.add_one_le_exp (-((q : ℝ) / (10 ^ 7 * 2 ^ 36)))
    have hp := Real.exp_pos (-((q : ℝ) / (10 ^ 7 * 2 ^ 36)))
    have h1 : (q : ℝ) * 2 ^ 80 / (10 ^ 7 * 2 ^ 36) < ((q * 2 ^ 80 / (10 ^ 7 * 2 ^ 36) : Nat) : ℝ) + 1 := by
      have := Nat.lt_div_mul_add (a := q * 2 ^ 80) (b := 10 ^ 7 * 2 ^ 36) (by norm_num)
      have h' : ((q * 2 ^ 80 : Nat) : ℝ) < ((q * 2 ^ 80 / (10 ^ 7 * 2 ^ 36) * (10 ^ 7 * 2 ^ 36) + 10 ^ 7 * 2 ^ 36 : Nat) : ℝ) := by exact_mod_cast this
      rw [div_lt_iff₀ (by positivity)]
      rw [Nat.cast_add, Nat.cast_mul (q * 2 ^ 80 / (10 ^ 7 * 2 ^ 36)), Nat.cast_mul q] at h'
      push_cast at h' ⊢
      linarith
    unfold dn
    generalize q * 2 ^ 80 / (10 ^ 7 * 2 ^ 36) = z at h1 ⊢
    by_cases hz : z + 1 ≤ 2 ^ 80
    · rw [Nat.cast_sub hz]
      push_cast
      have : (q : ℝ) * 2 ^ 80 / (10 ^ 7 * 2 ^ 36) = 2 ^ 80 * ((q : ℝ) / (10 ^ 7 * 2 ^ 36)) := by ring
      nlinarith
    · rw [Nat.sub_eq_zero_of_le (by omega), Nat.cast_zero]
      positivity

/-- Check that each entry, in millionths, is within a millionth of the logarithm of `20 + 19980 i / 2047`. -/
def chkLog : List Int → Nat → Bool
  | [], _ => true
  | d :: l, i => Nat.ble ((40940 + 19980 * i) * 2 ^ 80) (2047 * lo 36 (up (10 * d.toNat + 10))) && Nat.ble (2047 * 2 ^ 80) ((40940 + 19980 * i) * lo 36 (dn (10 * d.toNat - 10))) && Nat.ble 1 d.toNat && chkLog l (i + 1)

theorem chkLog_get (l : List Int) : ∀ n, chkLog l n = true → ∀ i, i < l.length →
    (40940 + 19980 * (n + i)) * 2 ^ 80 ≤ 2047 * lo 36 (up (10 * (l.getD i 0).toNat + 10)) ∧ 2047 * 2 ^ 80 ≤ (40940 + 19980 * (n + i)) * lo 36 (dn (10 * (l.getD i 0).toNat - 10)) ∧ 1 ≤ (l.getD i 0).toNat := by
  induction l with
  | nil => intro n _ i hi; simp at hi
  | cons d l ih =>
    intro n h i hi
    rw [chkLog, Bool.and_eq_true, Bool.and_eq_true, Bool.and_eq_true, Nat.ble_eq, Nat.ble_eq, Nat.ble_eq] at h
    cases i with
    | zero => exact ⟨h.1.1.1, h.1.1.2, h.1.2⟩
    | succ i =>
      have := ih _ h.2 i (by simpa using hi)
      rw [show n + 1 + i = n + (i + 1) by omega] at this
      exact this

theorem log_data : chkLog logData 0 = true := by decide +kernel

/-- **C137**: every entry of the logarithm table is within a millionth of the natural logarithm of its frequency. -/
theorem C137_log_entries (i : ℕ) (hi : i < 2048) : |((at' logTable i : ℚ) : ℝ) - Real.log (20 + 19980 * (i / 2047))| ≤ 1 / 10 ^ 6 := by
  obtain ⟨h1, h2, h3⟩ := chkLog_get logData 0 log_data i (by rw [show logData.length = 2048 by decide +kernel]; exact hi)
  have e : ((at' logTable i : ℚ) : ℝ) = ((logData.getD i 0 : Int) : ℝ) / 1000000 := by
    unfold logTable
    rw [tab_at]; push_cast; rfl
  rw [e]
  generalize logData.getD i 0 = d at h1 h2 h3 ⊢
  obtain ⟨m, rfl⟩ := Int.eq_ofNat_of_zero_le (show 0 ≤ d by omega)
  rw [Int.toNat_natCast] at h1 h2 h3
  rw [Nat.zero_add] at h1 h2
  have u := up_exp (10 * m + 10)
  have l := dn_exp (10 * m - 10)
  generalize lo 36 (up (10 * m + 10)) = A at h1 u
  generalize lo 36 (dn (10 * m - 10)) = B at h2 l
  have h1' : ((40940 + 19980 * i : ℝ)) * 2 ^ 80 ≤ 2047 * A := by exact_mod_cast h1
  have h2' : (2047 : ℝ) * 2 ^ 80 ≤ (40940 + 19980 * i : ℝ) * B := by exact_mod_cast h2
  have hi0 : (0 : ℝ) ≤ i := Nat.cast_nonneg _
  have hX : (40940 + 19980 * i : ℝ) = 2047 * (20 + 19980 * (i / 2047)) := by ring
  rw [hX] at h1' h2'
  have hX0 : (0 : ℝ) < 20 + 19980 * (i / 2047) := by positivity
  generalize (20 + 19980 * (i / 2047) : ℝ) = X at *
  rw [Nat.cast_add, Nat.cast_mul] at u
  rw [Nat.cast_sub (by omega), Nat.cast_mul] at l
  push_cast at u l
  have c1 : X ≤ Real.exp ((10 * (m : ℝ) + 10) / 10 ^ 7) := by
    have := Real.exp_pos ((10 * (m : ℝ) + 10) / 10 ^ 7)
    nlinarith
  have c2 : Real.exp ((10 * (m : ℝ) - 10) / 10 ^ 7) ≤ X := by
    rw [Real.exp_neg] at l
    have hp := Real.exp_pos ((10 * (m : ℝ) - 10) / 10 ^ 7)
    generalize Real.exp ((10 * (m : ℝ) - 10) / 10 ^ 7) = E at *
    have : 1 ≤ X * E⁻¹ := by nlinarith [mul_le_mul_of_nonneg_left l hX0.le]
    rwa [← div_eq_mul_inv, le_div_iff₀ hp, one_mul] at this
  have d1 := (Real.log_le_iff_le_exp hX0).mpr c1
  have d2 := (Real.le_log_iff_exp_le hX0).mpr c2
  push_cast
  rw [abs_le]
  constructor <;> norm_num at d1 d2 ⊢ <;> linarith

/-- **C137**: audioFreqToNorm(x) approximates log(x/20)/log(1000) for every frequency from 20 to 20000. The error is at most 2 millionths plus 1.73 / g^2, g being the larger of 20 and x - 9.77. -/
theorem C137_freq (x : ℚ) (h0 : 20 ≤ x) (h1 : x ≤ 20000) (g : ℝ) (hg0 : 0 < g) (hg : g ≤ 20 ∨ g ≤ (x : ℝ) - 9.77) :
    ∃ v : ℚ, audioFreqToNorm x = .ok v ∧ |(v : ℝ) - Real.log (x / 20) / Real.log 1000| ≤ 1.73 / g ^ 2 + 2 / 10 ^ 6 := by
  have hc : constrain x 20 20000 = x := by unfold constrain; rw [if_neg (by linarith), if_neg (by linarith)]
  have hm : RatMath.mapValue x 20 20000 0 1 = (x - 20) / 19980 := by unfold RatMath.mapValue; norm_num
  have hl := log_len
  obtain ⟨k, hk, hk0, hk1, e⟩ := interp_cell logTable (by rw [hl]; norm_num) (by rw [hl]; norm_num) ((x - 20) / 19980) (div_nonneg (by linarith) (by norm_num)) ((div_le_one (by norm_num)).mpr (by linarith))
  rw [hl] at hk hk0 hk1 e
  norm_num at hk0 hk1 e
  refine ⟨_, by unfold audioFreqToNorm; rw [hc]; simp only []; rw [hm, e, R.bind_ok], ?_⟩
  have ha := C137_log_entries k (by omega)
  have hb := C137_log_entries (k + 1) hk
  have t0 : (0 : ℝ) ≤ (((x - 20) / 19980 * 2047 - k : ℚ) : ℝ) := by exact_mod_cast (by linarith : (0 : ℚ) ≤ (x - 20) / 19980 * 2047 - k)
  have t1 : (((x - 20) / 19980 * 2047 - k : ℚ) : ℝ) ≤ 1 := by exact_mod_cast (by linarith : (x - 20) / 19980 * 2047 - k ≤ (1 : ℚ))
  obtain ⟨X, hX⟩ : ∃ X : ℝ, X = 20 + 19980 * ((k : ℝ) / 2047) := ⟨_, rfl⟩
  obtain ⟨Y, hY⟩ : ∃ Y : ℝ, Y = 20 + 19980 * (((k + 1 : ℕ) : ℝ) / 2047) := ⟨_, rfl⟩
  have hXY : Y - X = 19980 / 2047 := by rw [hX, hY]; push_cast; ring
  have hX20 : 20 ≤ X := by rw [hX]; have : (0 : ℝ) ≤ k := Nat.cast_nonneg _
                           linarith [show (0 : ℝ) ≤ 19980 * ((k : ℝ) / 2047) by positivity]
  have hgX : g ≤ X := by
    rcases hg with h | h
    · linarith
    · have : x ≤ 20 + 19980 * (((k : ℚ) + 1) / 2047) := by linarith
      have : (x : ℝ) ≤ 20 + 19980 * (((k : ℝ) + 1) / 2047) := by have := (Rat.cast_le (K := ℝ)).mpr this; push_cast at this; exact this
      rw [hX]
      norm_num at h
      linarith
  rw [← hX] at ha
  rw [← hY] at hb
  have c := lerp_close Real.log (fun z => z⁻¹) (fun z => -(z ^ 2)⁻¹) X Y ((g ^ 2)⁻¹) (1 / 10 ^ 6) _ (by linarith [show (0 : ℝ) ≤ 19980 / 2047 by norm_num])
    (fun z hz => Real.hasDerivAt_log (by have := hz.1; linarith)) (fun z hz => hasDerivAt_inv (by have := hz.1; linarith))
    (fun z hz => by
      have h3 : g ≤ z := hgX.trans hz.1
      rw [abs_neg, abs_of_nonneg (by positivity)]
      gcongr) t0 t1 _ _ ha hb
  have e2 : X + (((x - 20) / 19980 * 2047 - k : ℚ) : ℝ) * (Y - X) = x := by rw [hXY, hX]; push_cast; ring
  rw [e2, hXY] at c
  -- the constants
  have l0 := C137_log_entries 0 (by norm_num)
  have l1 := C137_log_entries 2047 (by norm_num)
  rw [log_ends.1] at l0
  rw [log_ends.2] at l1
  norm_num at l0 l1
  have hx0 : (0 : ℝ) < x := by exact_mod_cast (by linarith : (0 : ℚ) < x)
  have hx20 : (20 : ℝ) ≤ x := by exact_mod_cast h0
  have hx2 : (x : ℝ) ≤ 20000 := by exact_mod_cast h1
  have lx0 : Real.log 20 ≤ Real.log x := Real.log_le_log (by norm_num) hx20
  have lx1 : Real.log x ≤ Real.log 20000 := Real.log_le_log hx0 hx2
  have e3 : Real.log 1000 = Real.log 20000 - Real.log 20 := by rw [← Real.log_div (by norm_num) (by norm_num)]; norm_num
  rw [Real.log_div hx0.ne' (by norm_num), e3]
  have hg2 : (g ^ 2)⁻¹ * (19980 / 2047) ^ 2 / 8 = (19980 / 2047) ^ 2 / 8 * (g ^ 2)⁻¹ := by ring
  rw [hg2] at c
  have hG : 0 < (g ^ 2)⁻¹ := by positivity
  rw [show 1.73 / g ^ 2 = 1.73 * (g ^ 2)⁻¹ by ring]
  generalize (g ^ 2)⁻¹ = G at *
  unfold lerp
  push_cast at c ⊢
  generalize ((at' logTable k : ℚ) : ℝ) + (((at' logTable (k + 1) : ℚ) : ℝ) - ((at' logTable k : ℚ) : ℝ)) * (((x : ℝ) - 20) / 19980 * 2047 - k) = T at c ⊢
  generalize Real.log x = lx at *
  generalize Real.log 20 = a at *
  generalize Real.log 20000 = b at *
  rw [abs_le] at c l0 l1 ⊢
  have hd : 6.907752 ≤ b - a := by norm_num at *; linarith [l0.1, l0.2, l1.1, l1.2]
  have hd2 : b - a ≤ 6.907758 := by norm_num at *; linarith [l0.1, l0.2, l1.1, l1.2]
  have hd0 : (0 : ℝ) < b - a := by linarith
  obtain ⟨w, hw⟩ : ∃ w, (lx - a) / (b - a) = w := ⟨_, rfl⟩
  have hw' : lx - a = w * (b - a) := by rw [← hw]; field_simp
  have w0 : 0 ≤ w := by rw [← hw]; apply div_nonneg <;> linarith
  have w1 : w ≤ 1 := by rw [← hw, div_le_one hd0]; linarith
  rw [hw]
  have hq : |w * (b - a) - w * (690776 / 100000)| ≤ 8 / 10 ^ 6 := by
    rw [← mul_sub, abs_mul, abs_of_nonneg w0]
    have : |b - a - 690776 / 100000| ≤ 8 / 10 ^ 6 := by rw [abs_le]; constructor <;> norm_num at * <;> linarith
    nlinarith [abs_nonneg (b - a - 690776 / 100000)]
  rw [abs_le] at hq
  have hTw : |T - 299573 / 100000 - w * (690776 / 100000)| ≤ 11.95 * G + 138 / 10 ^ 7 := by
    rw [abs_le]
    constructor <;> norm_num at * <;> linarith [l0.1, l0.2, c.1, c.2, hq.1, hq.2]
  have e5 : (T - 299573 / 100000) / (690776 / 100000) - w = (T - 299573 / 100000 - w * (690776 / 100000)) / (690776 / 100000) := by field_simp
  rw [e5, ← abs_le, abs_div, abs_of_pos (by norm_num : (0 : ℝ) < 690776 / 100000), div_le_iff₀ (by norm_num)]
  refine hTw.trans ?_
  have : (11.95 : ℝ) * G ≤ 1.73 * G * (690776 / 100000) := by nlinarith
  have : (138 : ℝ) / 10 ^ 7 ≤ 2 / 10 ^ 6 * (690776 / 100000) := by norm_num
  linarith

-- 440 Hz: g = 400
example : ∃ v : ℚ, audioFreqToNorm 440 = .ok v ∧ |(v : ℝ) - Real.log ((440 : ℚ) / 20) / Real.log 1000| ≤ 1.73 / 400 ^ 2 + 2 / 10 ^ 6 :=
  C137_freq 440 (by norm_num) (by norm_num) 400 (by norm_num) (Or.inr (by norm_num))

end Accuracy
