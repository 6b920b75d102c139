import Verif.Model.ParamsFloat
import Verif.Lemmas.FltErr
import Mathlib.Logic.Function.Iterate
import Mathlib.Tactic.LinearCombination
/-! # C144: interpolated parameters in binary32 -/

namespace ParamsFloat
open Flt

/-- The step computed for going from `c` to `v` in `n` updates. -/
def stepOf (rnd : ℚ → ℚ) (n : ℕ) (c v : ℚ) : ℚ := rnd (rnd (v - c) / rnd n)

/-- The value after `k` updates. -/
def walk (rnd : ℚ → ℚ) (st : ℚ) (c : ℚ) : ℕ → ℚ
  | 0 => c
  | k + 1 => rnd (walk rnd st c k + st)

theorem f32_nat (n : ℕ) (hn : n ≤ 2 ^ 24) : F32 (n : ℚ) := by
  have := f32_grid n 0 (by rw [abs_of_nonneg (by omega)]; exact_mod_cast hn) (by norm_num)
  simpa using this

/-- The computed step against the exact one. -/
theorem step_close (rnd : ℚ → ℚ) (h : Nearest rnd) (n : ℕ) (hn : 0 < n) (hn2 : n ≤ 2 ^ 24) (c v B : ℚ) (hc : F32 c) (hv : F32 v) (hcB : |c| ≤ B) (hvB : |v| ≤ B) :
    |stepOf rnd n c v - (v - c) / n| ≤ 41 / 10 * B / 2 ^ 24 / n + 1 / 2 ^ 150 := by
  have hn0 : (0 : ℚ) < n := by exact_mod_cast hn
  have hB : 0 ≤ B := (abs_nonneg _).trans hcB
  unfold stepOf
  rw [h.fix (f32_nat n hn2)]
  have r1 := h.sub_rel hv hc
  have hvc : |v - c| ≤ 2 * B := by
    have := abs_sub v c
    linarith
  have r1' : |rnd (v - c) - (v - c)| ≤ 2 * B / 2 ^ 24 := r1.trans (by gcongr)
  have hd : |rnd (v - c)| ≤ 2 * B * (1 + 1 / 2 ^ 24) := by
    have := abs_sub_abs_le_abs_sub (rnd (v - c)) (v - c)
    linarith
  have r2 := h.rel (rnd (v - c) / n)
  rw [abs_div, abs_of_pos hn0] at r2
  have r2' : |rnd (rnd (v - c) / n) - rnd (v - c) / n| ≤ 2 * B * (1 + 1 / 2 ^ 24) / n / 2 ^ 24 + 1 / 2 ^ 150 := r2.trans (by gcongr)
  have e : rnd (rnd (v - c) / n) - (v - c) / n = (rnd (rnd (v - c) / n) - rnd (v - c) / n) + (rnd (v - c) - (v - c)) / n := by ring
  rw [e]
  have r3 : |(rnd (v - c) - (v - c)) / n| ≤ 2 * B / 2 ^ 24 / n := by rw [abs_div, abs_of_pos hn0]; gcongr
  refine (abs_add_le _ _).trans ?_
  have hBn : 0 ≤ B / n := by positivity
  have e2 : 2 * B * (1 + 1 / 2 ^ 24) / n / 2 ^ 24 = B / n * (2 * (1 + 1 / 2 ^ 24) / 2 ^ 24) := by ring
  have e3 : 2 * B / 2 ^ 24 / (n : ℚ) = B / n * (2 / 2 ^ 24) := by ring
  have e4 : 41 / 10 * B / 2 ^ 24 / (n : ℚ) = B / n * (41 / 10 / 2 ^ 24) := by ring
  rw [e2] at r2'
  rw [e3] at r3
  rw [e4]
  have : B / n * (2 * (1 + 1 / 2 ^ 24) / 2 ^ 24) + B / n * (2 / 2 ^ 24) ≤ B / n * (41 / 10 / 2 ^ 24) := by
    rw [← mul_add]
    apply mul_le_mul_of_nonneg_left _ hBn
    norm_num
  linarith

theorem walk_f32 (rnd : ℚ → ℚ) (h : Nearest rnd) (st c : ℚ) (hc : F32 c) (k : ℕ) : F32 (walk rnd st c k) := by
  cases k with
  | zero => exact hc
  | succ k => exact h.f32 _

/-- The error after k of n updates. -/
theorem walk_close (rnd : ℚ → ℚ) (h : Nearest rnd) (n : ℕ) (hn : 0 < n) (hn2 : n ≤ 2 ^ 24) (c v B : ℚ) (hc : F32 c) (hv : F32 v) (hcB : |c| ≤ B) (hvB : |v| ≤ B) (k : ℕ) (hk : k ≤ n) :
    |walk rnd (stepOf rnd n c v) c k - (c + k * ((v - c) / n))| ≤ (2 * k + 9) * B / 2 ^ 24 + k / 2 ^ 148 := by
  have hn0 : (0 : ℚ) < n := by exact_mod_cast hn
  have hB : 0 ≤ B := (abs_nonneg _).trans hcB
  have hst := step_close rnd h n hn hn2 c v B hc hv hcB hvB
  have hstF : F32 (stepOf rnd n c v) := h.f32 _
  obtain ⟨st, hst'⟩ : ∃ st, st = stepOf rnd n c v := ⟨_, rfl⟩
  obtain ⟨σ, hσ⟩ : ∃ σ, σ = (v - c) / n := ⟨_, rfl⟩
  obtain ⟨δ, hδ⟩ : ∃ δ, δ = 41 / 10 * B / 2 ^ 24 / n + 1 / 2 ^ 150 := ⟨_, rfl⟩
  rw [← hδ] at hst
  rw [← hst', ← hσ] at hst ⊢
  rw [← hst'] at hstF
  have hδ0 : 0 ≤ δ := (abs_nonneg _).trans hst
  -- the exact path stays within B
  have path : ∀ j : ℕ, j ≤ n → |c + j * σ| ≤ B := by
    intro j hj
    have hj' : (j : ℚ) ≤ n := by exact_mod_cast hj
    have hj0 : (0 : ℚ) ≤ j := Nat.cast_nonneg _
    obtain ⟨t, ht⟩ : ∃ t, t = (j : ℚ) / n := ⟨_, rfl⟩
    have t0 : 0 ≤ t := by rw [ht]; positivity
    have t1 : t ≤ 1 := by rw [ht]; exact (div_le_one hn0).mpr hj'
    have e : c + j * σ = (1 - t) * c + t * v := by rw [hσ, ht]; field_simp; ring
    rw [e]
    calc |(1 - t) * c + t * v| ≤ |(1 - t) * c| + |t * v| := abs_add_le _ _
      _ = (1 - t) * |c| + t * |v| := by rw [abs_mul, abs_mul, abs_of_nonneg t0, abs_of_nonneg (by linarith : 0 ≤ 1 - t)]
      _ ≤ (1 - t) * B + t * B := by
        have := mul_le_mul_of_nonneg_left hcB (by linarith : 0 ≤ 1 - t)
        have := mul_le_mul_of_nonneg_left hvB t0
        linarith
      _ = B := by ring
  -- accumulated error
  obtain ⟨a, ha⟩ : ∃ a, a = B / 2 ^ 24 + (1 + 1 / 2 ^ 24) * δ := ⟨_, rfl⟩
  have ha0 : 0 ≤ a := by rw [ha]; positivity
  have key : ∀ j : ℕ, j ≤ n → |walk rnd st c j - (c + j * σ)| ≤ j * a * (1 + j / 2 ^ 24) := by
    intro j
    induction j with
    | zero => intro _; simp [walk]
    | succ j ih =>
      intro hj
      have ih' := ih (by omega)
      have hw := walk_f32 rnd h st c hc j
      have r := h.add_rel hw hstF
      have p := path (j + 1) hj
      push_cast at p ⊢
      rw [walk]
      have e1 : rnd (walk rnd st c j + st) - (c + (j + 1) * σ) = (rnd (walk rnd st c j + st) - (walk rnd st c j + st)) + ((walk rnd st c j - (c + j * σ)) + (st - σ)) := by ring
      have e2 : walk rnd st c j + st = (c + (j + 1) * σ) + ((walk rnd st c j - (c + j * σ)) + (st - σ)) := by ring
      have h1 : |(walk rnd st c j - (c + j * σ)) + (st - σ)| ≤ j * a * (1 + j / 2 ^ 24) + δ := (abs_add_le _ _).trans (add_le_add ih' hst)
      have h2 : |walk rnd st c j + st| ≤ B + (j * a * (1 + j / 2 ^ 24) + δ) := by
        rw [e2]; exact (abs_add_le _ _).trans (add_le_add p h1)
      have h3 : |rnd (walk rnd st c j + st) - (walk rnd st c j + st)| ≤ (B + (j * a * (1 + j / 2 ^ 24) + δ)) / 2 ^ 24 := r.trans (by gcongr)
      rw [e1]
      refine (abs_add_le _ _).trans ((add_le_add h3 h1).trans ?_)
      have hj' : (j : ℚ) ≤ 2 ^ 24 := by
        have : j ≤ 2 ^ 24 := by omega
        exact_mod_cast this
      have hj0 : (0 : ℚ) ≤ j := Nat.cast_nonneg _
      have e3 : (B + (j * a * (1 + j / 2 ^ 24) + δ)) / 2 ^ 24 + (j * a * (1 + j / 2 ^ 24) + δ) = a + j * a * (1 + j / 2 ^ 24) * (1 + 1 / 2 ^ 24) := by rw [ha]; ring
      rw [e3]
      have e4 : ((j : ℚ) + 1) * a * (1 + (j + 1) / 2 ^ 24) - (a + j * a * (1 + j / 2 ^ 24) * (1 + 1 / 2 ^ 24)) = a * (1 / 2 ^ 24) * (j * (1 - j / 2 ^ 24) + 1) := by ring
      have e5 : 0 ≤ a * (1 / 2 ^ 24) * (j * (1 - j / 2 ^ 24) + 1) := by
        have : 0 ≤ 1 - (j : ℚ) / 2 ^ 24 := by
          rw [sub_nonneg, div_le_one (by positivity)]; exact hj'
        positivity
      linarith
  refine (key k hk).trans ?_
  have hk' : (k : ℚ) ≤ n := by exact_mod_cast hk
  have hk24 : (k : ℚ) ≤ 2 ^ 24 := hk'.trans (by exact_mod_cast hn2)
  have hk0 : (0 : ℚ) ≤ k := Nat.cast_nonneg _
  have f1 : (k : ℚ) * a * (1 + k / 2 ^ 24) ≤ k * a * 2 := by
    have : (k : ℚ) / 2 ^ 24 ≤ 1 := (div_le_one (by positivity)).mpr hk24
    gcongr
    linarith
  refine f1.trans ?_
  have hkn : (k : ℚ) / n ≤ 1 := (div_le_one hn0).mpr hk'
  have e6 : (k : ℚ) * a * 2 = 2 * k * B / 2 ^ 24 + 2 * (1 + 1 / 2 ^ 24) * (41 / 10) * B / 2 ^ 24 * (k / n) + 2 * (1 + 1 / 2 ^ 24) * k / 2 ^ 150 := by
    rw [ha, hδ]; ring
  rw [e6]
  have g1 : 2 * (1 + 1 / 2 ^ 24) * (41 / 10) * B / 2 ^ 24 * ((k : ℚ) / n) ≤ 2 * (1 + 1 / 2 ^ 24) * (41 / 10) * B / 2 ^ 24 * 1 := by gcongr
  have g2 : 2 * (1 + 1 / 2 ^ 24) * (41 / 10) * B / 2 ^ 24 * 1 ≤ 9 * B / 2 ^ 24 := by
    have : 2 * (1 + 1 / 2 ^ 24) * (41 / 10) * B ≤ 9 * B := by nlinarith
    linarith
  have g3 : 2 * (1 + 1 / 2 ^ 24) * (k : ℚ) / 2 ^ 150 ≤ k / 2 ^ 148 := by
    rw [div_le_div_iff₀ (by positivity) (by positivity)]
    nlinarith
  have e7 : (2 * (k : ℚ) + 9) * B / 2 ^ 24 = 2 * k * B / 2 ^ 24 + 9 * B / 2 ^ 24 := by ring
  rw [e7]
  linarith

/-- On a common grid with a whole number of units per step everything is exact. -/
theorem walk_exact (rnd : ℚ → ℚ) (h : Nearest rnd) (n : ℕ) (hn : 0 < n) (hn2 : n ≤ 2 ^ 24) (a b e : ℤ) (he : -149 ≤ e) (ha : |a| ≤ 2 ^ 24) (hb : |b| ≤ 2 ^ 24) (hab : |b - a| ≤ 2 ^ 24) (q : ℤ) (hq : b - a = n * q) (k : ℕ) (hk : k ≤ n) :
    walk rnd (stepOf rnd n (a * 2 ^ e) (b * 2 ^ e)) (a * 2 ^ e) k = ((a + k * q : ℤ) : ℚ) * 2 ^ e := by
  have hn0 : (0 : ℚ) < n := by exact_mod_cast hn
  have hst : stepOf rnd n (a * 2 ^ e) (b * 2 ^ e) = (q : ℚ) * 2 ^ e := by
    unfold stepOf
    have e1 : (b : ℚ) * 2 ^ e - a * 2 ^ e = ((b - a : ℤ) : ℚ) * 2 ^ e := by push_cast; ring
    rw [h.fix (f32_nat n hn2), e1, h.fix (f32_grid _ _ hab he), hq]
    have e2 : ((n * q : ℤ) : ℚ) * 2 ^ e / n = (q : ℚ) * 2 ^ e := by push_cast; field_simp
    rw [e2]
    apply h.fix
    apply f32_grid _ _ _ he
    rw [hq, abs_mul] at hab
    have : (1 : ℤ) ≤ |(n : ℤ)| := by rw [abs_of_nonneg (by omega)]; omega
    nlinarith [abs_nonneg q]
  rw [hst]
  have mono : ∀ j : ℕ, j ≤ n → |a + j * q| ≤ 2 ^ 24 := by
    intro j hj
    have hj' : (j : ℤ) ≤ n := by exact_mod_cast hj
    have hj0 : (0 : ℤ) ≤ j := by omega
    have hb' : b = a + n * q := by linarith
    rw [abs_le] at ha hb ⊢
    rw [hb'] at hb
    rcases le_total 0 q with hq0 | hq0
    · have := mul_nonneg hj0 hq0
      have := mul_le_mul_of_nonneg_right hj' hq0
      constructor <;> linarith
    · have := mul_nonpos_of_nonneg_of_nonpos hj0 hq0
      have := mul_le_mul_of_nonpos_right hj' hq0
      constructor <;> linarith
  induction k with
  | zero => simp [walk]
  | succ k ih =>
    rw [walk, ih (by omega)]
    have e3 : ((a + k * q : ℤ) : ℚ) * 2 ^ e + (q : ℚ) * 2 ^ e = ((a + (k + 1 : ℕ) * q : ℤ) : ℚ) * 2 ^ e := by push_cast; ring
    rw [e3]
    exact h.fix (f32_grid _ _ (mono (k + 1) hk) he)

/-! ## The three parameter types -/

theorem param_iter (rnd : ℚ → ℚ) (n : ℕ) (p : InterpParam) (v : ℚ) (k : ℕ) :
    ((paramNext rnd)^[k] (paramSet rnd n p v)).cur = walk rnd (stepOf rnd n p.cur v) p.cur k ∧ ((paramNext rnd)^[k] (paramSet rnd n p v)).step = stepOf rnd n p.cur v := by
  induction k with
  | zero => exact ⟨rfl, rfl⟩
  | succ k ih =>
    rw [Function.iterate_succ_apply']
    refine ⟨?_, ih.2⟩
    show rnd (_ + _) = _
    rw [ih.1, ih.2]; rfl

theorem var_iter (rnd : ℚ → ℚ) (n : ℕ) (hn : 0 < n) (p : InterpParamVar) (v : ℚ) (k : ℕ) :
    ((varNext rnd)^[k] (varSet rnd p v n)).cur = walk rnd (stepOf rnd n p.cur v) p.cur k ∧ ((varNext rnd)^[k] (varSet rnd p v n)).step = stepOf rnd n p.cur v ∧
    ((varNext rnd)^[k] (varSet rnd p v n)).target = v := by
  have e : varSet rnd p v n = ⟨p.cur, v, stepOf rnd n p.cur v⟩ := by unfold varSet; simp only []; rw [if_pos hn]; rfl
  rw [e]
  induction k with
  | zero => exact ⟨rfl, rfl, rfl⟩
  | succ k ih =>
    rw [Function.iterate_succ_apply']
    refine ⟨?_, ih.2⟩
    show rnd (_ + _) = _
    rw [ih.1, ih.2.1]; rfl

theorem variable_iter (rnd : ℚ → ℚ) (q : InterpParamVariable) (k : ℕ) : ((variableNext rnd)^[k] q).cur = walk rnd q.step q.cur k ∧ ((variableNext rnd)^[k] q).step = q.step := by
  induction k with
  | zero => exact ⟨rfl, rfl⟩
  | succ k ih =>
    rw [Function.iterate_succ_apply']
    refine ⟨?_, ih.2⟩
    show rnd (_ + _) = _
    rw [ih.1, ih.2]; rfl

/-- **C144** (partial): in binary32, after set_new_value(v) the k-th of n updates is within (2k + 9) 2^-24 B of the straight line from the current value to v, B bounding both values (2^-148 k more for tiny numbers). This holds for all three
parameter types. Missing: the n-th value need not be v itself. -/
theorem C144_close_partial (rnd : ℚ → ℚ) (h : Nearest rnd) (n : ℕ) (hn : 0 < n) (hn2 : n ≤ 2 ^ 24) (c v B : ℚ) (hc : F32 c) (hv : F32 v) (hcB : |c| ≤ B) (hvB : |v| ≤ B) (k : ℕ) (hk : k ≤ n)
    (err : ℚ) (herr : err = (2 * k + 9) * B / 2 ^ 24 + k / 2 ^ 148) :
    (∀ p : InterpParam, p.cur = c → |((paramNext rnd)^[k] (paramSet rnd n p v)).cur - (c + k * ((v - c) / n))| ≤ err) ∧
    (∀ p : InterpParamVar, p.cur = c → |((varNext rnd)^[k] (varSet rnd p v n)).cur - (c + k * ((v - c) / n))| ≤ err) ∧
    (∀ p : InterpParamVariable, p.cur = c → p.num = n → ∃ q, variableSet rnd p v = .ok q ∧ q.target = v ∧ |((variableNext rnd)^[k] q).cur - (c + k * ((v - c) / n))| ≤ err) := by
  have w := walk_close rnd h n hn hn2 c v B hc hv hcB hvB k hk
  rw [← herr] at w
  refine ⟨?_, ?_, ?_⟩
  · rintro p rfl
    rw [(param_iter rnd n p v k).1]; exact w
  · rintro p rfl
    rw [(var_iter rnd n hn p v k).1]; exact w
  · rintro p rfl rfl
    refine ⟨{ p with target := v, step := stepOf rnd p.num p.cur v }, ?_, rfl, ?_⟩
    · unfold variableSet
      rw [if_neg (by omega)]; rfl
    · rw [(variable_iter rnd _ k).1]; exact w

example (rnd : ℚ → ℚ) (h : Nearest rnd) := C144_close_partial rnd h 10 (by norm_num) (by norm_num) 0 1 1 f32_zero f32_one (by norm_num) (by norm_num) 10 le_rfl _ rfl

/-- **C144**: if both values are multiples a, b of a unit 2^e with at most 24 bits, and n divides their distance, all updates are exact and the n-th gives v itself. -/
theorem C144_exact (rnd : ℚ → ℚ) (h : Nearest rnd) (n : ℕ) (hn : 0 < n) (hn2 : n ≤ 2 ^ 24) (a b e : ℤ) (he : -149 ≤ e) (ha : |a| ≤ 2 ^ 24) (hb : |b| ≤ 2 ^ 24) (hab : |b - a| ≤ 2 ^ 24) (hdvd : (n : ℤ) ∣ b - a)
    (c v : ℚ) (hc : c = a * 2 ^ e) (hv : v = b * 2 ^ e) (k : ℕ) (hk : k ≤ n) :
    (∀ p : InterpParam, p.cur = c → ((paramNext rnd)^[k] (paramSet rnd n p v)).cur = c + k * ((v - c) / n)) ∧
    (∀ p : InterpParamVar, p.cur = c → ((varNext rnd)^[k] (varSet rnd p v n)).cur = c + k * ((v - c) / n)) ∧
    (∀ p : InterpParamVariable, p.cur = c → p.num = n → ∃ q, variableSet rnd p v = .ok q ∧ ((variableNext rnd)^[k] q).cur = c + k * ((v - c) / n)) ∧
    c + n * ((v - c) / n) = v := by
  have hn0 : (n : ℚ) ≠ 0 := by positivity
  obtain ⟨q, hq⟩ := hdvd
  have w := walk_exact rnd h n hn hn2 a b e he ha hb hab q hq k hk
  rw [← hc, ← hv] at w
  have hq' : v - c = n * q * 2 ^ e := by
    have : ((b - a : ℤ) : ℚ) = n * q := by rw [hq]; push_cast; rfl
    push_cast at this
    rw [hc, hv, ← this]; ring
  have e2 : ((a + k * q : ℤ) : ℚ) * 2 ^ e = c + k * ((v - c) / n) := by
    have : (v - c) / n = q * 2 ^ e := by rw [hq']; field_simp
    rw [this, hc]; push_cast; ring
  rw [e2] at w
  refine ⟨?_, ?_, ?_, by field_simp; ring⟩
  · rintro p rfl
    rw [(param_iter rnd n p v k).1]; exact w
  · rintro p rfl
    rw [(var_iter rnd n hn p v k).1]; exact w
  · rintro p rfl rfl
    refine ⟨{ p with target := v, step := stepOf rnd p.num p.cur v }, ?_, ?_⟩
    · unfold variableSet
      rw [if_neg (by omega)]; rfl
    · rw [(variable_iter rnd _ k).1]; exact w

/-- **C144, violated**: in binary32 a parameter at 1 told to go to the next float 1 + 2^-23 in four updates never moves, however many updates follow. -/
theorem C144_stuck_violated (rnd : ℚ → ℚ) (h : Nearest rnd) (p : InterpParam) (hp : p.cur = 1) (k : ℕ) : F32 (1 + 1 / 2 ^ 23) ∧ ((paramNext rnd)^[k] (paramSet rnd 4 p (1 + 1 / 2 ^ 23))).cur = 1 := by
  have hF : F32 (1 + 1 / 2 ^ 23) := by have := f32_div (2 ^ 23 + 1) (by norm_num) 23 (by norm_num); norm_num at this ⊢; exact this
  refine ⟨hF, ?_⟩
  rw [(param_iter rnd 4 p _ k).1, hp]
  have hst : stepOf rnd 4 1 (1 + 1 / 2 ^ 23) = 1 / 2 ^ 25 := by
    unfold stepOf
    rw [h.fix (f32_nat 4 (by norm_num))]
    have f1 : F32 ((1 : ℚ) / 2 ^ 23) := by have := f32_div 1 (by norm_num) 23 (by norm_num); norm_num at this ⊢; exact this
    have f2 : F32 ((1 : ℚ) / 2 ^ 25) := by have := f32_div 1 (by norm_num) 25 (by norm_num); norm_num at this ⊢; exact this
    rw [add_sub_cancel_left, h.fix f1]
    rw [show (1 : ℚ) / 2 ^ 23 / ((4 : ℕ) : ℚ) = 1 / 2 ^ 25 by norm_num, h.fix f2]
  rw [hst]
  have hr : rnd (1 + 1 / 2 ^ 25) = 1 := by
    have := h.eq_of_close (1 + 1 / 2 ^ 25) (2 ^ 23) (-23) (by norm_num) (by norm_num) (by rw [abs_of_pos (by norm_num)]; norm_num) (by norm_num)
    rw [this]; norm_num
  induction k with
  | zero => rfl
  | succ k ih => rw [walk, ih, hr]

/-- **C144** (InterpParamVar, FilteredInterpArray): snap_to_target jumps to the target exactly, after any number of updates. -/
theorem C144_snap (rnd : ℚ → ℚ) (n : ℕ) (p : InterpParamVar) (v : ℚ) (k : ℕ) : (((varNext rnd)^[k] (varSet rnd p v n)).snap).cur = v := by
  show ((varNext rnd)^[k] (varSet rnd p v n)).target = v
  induction k with
  | zero =>
    show (varSet rnd p v n).target = v
    unfold varSet
    simp only []
    split <;> rfl
  | succ k ih => rw [Function.iterate_succ_apply']; exact ih

/-- **C144** (FilteredInterpArray): in binary32, after new readings and with n updates in between the last two readings (or configured), the j-th update outputs a value within (2j + 9) 2^-24 B of the straight line for j < n, and from the n-th
to the last before the counter wraps (2^32) exactly the filtered reading. -/
theorem C144_array {N : ℕ} {φ : Type} (rnd : ℚ → ℚ) (h : Nearest rnd) (addVal : φ → ℚ → φ × ℚ) (s : FilteredInterp N φ) (hr : s.ready = true) (read : Fin N → ℚ) (n : ℕ) (hn : n = if s.count > 0 then s.count else s.num) (i : Fin N)
    (v : ℚ) (hv : v = (addVal (s.filters i) (read i)).2) (j : ℕ) (hj : 0 < j) (hj2 : j < 2 ^ 32) :
    (n ≤ j → ((arrayGet rnd)^[j] (arrayAdd rnd addVal s read)).out i = v) ∧
    (j < n → n ≤ 2 ^ 24 → ∀ B, F32 (s.out i) → F32 v → |s.out i| ≤ B → |v| ≤ B →
      |((arrayGet rnd)^[j] (arrayAdd rnd addVal s read)).out i - (s.out i + j * ((v - s.out i) / n))| ≤ (2 * j + 9) * B / 2 ^ 24 + j / 2 ^ 148) := by
  have e0 : arrayAdd rnd addVal s read = { interps := fun i => varSet rnd (s.interps i) (addVal (s.filters i) (read i)).2 n, filters := fun i => (addVal (s.filters i) (read i)).1, ready := false, count := 0, num := n } := by
    unfold arrayAdd
    rw [if_pos hr, ← hn]
  have inv : ∀ k : ℕ, k < 2 ^ 32 → ((arrayGet rnd)^[k] (arrayAdd rnd addVal s read)).count = k ∧ ((arrayGet rnd)^[k] (arrayAdd rnd addVal s read)).num = n ∧
      (((arrayGet rnd)^[k] (arrayAdd rnd addVal s read)).interps i).target = v ∧
      (k < n → ((arrayGet rnd)^[k] (arrayAdd rnd addVal s read)).interps i = (varNext rnd)^[k] (varSet rnd (s.interps i) v n)) ∧
      (0 < k → n ≤ k → (((arrayGet rnd)^[k] (arrayAdd rnd addVal s read)).interps i).cur = v) := by
    intro k
    induction k with
    | zero =>
      intro _
      rw [Function.iterate_zero, id, e0]
      refine ⟨rfl, rfl, ?_, ?_, ?_⟩
      · show (varSet rnd (s.interps i) _ n).target = v
        rw [← hv]
        unfold varSet; simp only []; split <;> rfl
      · intro _; rw [hv]; rfl
      · intro h; omega
    | succ k ih =>
      intro hk
      obtain ⟨i1, i2, i3, i4, -⟩ := ih (by omega)
      rw [Function.iterate_succ_apply']
      generalize (arrayGet rnd)^[k] (arrayAdd rnd addVal s read) = t at i1 i2 i3 i4 ⊢
      have hc : (t.count + 1) % 2 ^ 32 = k + 1 := by rw [i1]; exact Nat.mod_eq_of_lt hk
      unfold arrayGet
      simp only []
      rw [hc, i2]
      refine ⟨rfl, rfl, ?_, ?_, ?_⟩
      · split
        · exact i3
        · exact i3
      · intro hkn
        rw [if_neg (by omega), i4 (by omega), Function.iterate_succ_apply']
      · intro _ hkn
        rw [if_pos (by omega)]
        exact i3
  obtain ⟨-, -, -, i4, i5⟩ := inv j hj2
  constructor
  · intro hle; exact i5 hj hle
  · intro hlt hn2 B hsF hvF hsB hvB
    have := walk_close rnd h n (by omega) hn2 (s.out i) v B hsF hvF hsB hvB j hlt.le
    unfold FilteredInterp.out at this ⊢
    rw [i4 hlt, (var_iter rnd n (by omega) (s.interps i) v j).1]
    exact this

-- from 0 to 1 in 256 updates: exact on the grid of 1/256; 10 updates: within 3 / 2^24 * 10
example (rnd : ℚ → ℚ) (h : Nearest rnd) (p : InterpParam) (hp : p.cur = 0) : ((paramNext rnd)^[256] (paramSet rnd 256 p 1)).cur = 1 := by
  have := (C144_exact rnd h 256 (by norm_num) (by norm_num) 0 256 (-8) (by norm_num) (by norm_num) (by norm_num) (by norm_num) (by norm_num) 0 1 (by norm_num) (by norm_num) 256 le_rfl)
  rw [this.1 p hp]
  norm_num
example (rnd : ℚ → ℚ) (h : Nearest rnd) (p : InterpParam) (hp : p.cur = 0) : |((paramNext rnd)^[10] (paramSet rnd 10 p 1)).cur - 1| ≤ 30 / 2 ^ 24 := by
  have := (C144_close_partial rnd h 10 (by norm_num) (by norm_num) 0 1 1 f32_zero f32_one (by norm_num) (by norm_num) 10 le_rfl _ rfl).1 p hp
  norm_num at this ⊢
  linarith

end ParamsFloat
