import Verif.Model.WrapFloat
import Verif.Lemmas.FltErr
/-! # Property C185: `wrap` with float arguments -/

namespace WrapFloat
open Flt

/-- Taking an integer from a float between it and 2^24 is exact. -/
theorem f32_sub_nat {x : ℚ} (hx : F32 x) (n : Nat) (h0 : (n : ℚ) ≤ x) (h1 : x ≤ 2 ^ 24) : F32 (x - n) := by
  obtain ⟨m, e, hm, he, rfl⟩ := hx
  have hp := two_zpow_pos e
  rcases le_or_gt 0 e with h | h
  · obtain ⟨k, rfl⟩ := Int.eq_ofNat_of_zero_le h
    have e1 : (m : ℚ) * 2 ^ (k : ℤ) - n = ((m * 2 ^ k - n : ℤ) : ℚ) := by push_cast; rw [zpow_natCast]
    have hcast : (m : ℚ) * 2 ^ (k : ℤ) = ((m * 2 ^ k : ℤ) : ℚ) := by push_cast; rw [zpow_natCast]
    rw [hcast] at h0 h1
    have h0' : (n : ℤ) ≤ m * 2 ^ k := by exact_mod_cast h0
    have h1' : m * 2 ^ k ≤ (2 ^ 24 : ℤ) := by exact_mod_cast h1
    rw [e1]
    have := f32_grid (m * 2 ^ k - n) 0 (by rw [abs_of_nonneg (by omega)]; omega) (by norm_num)
    simpa using this
  · obtain ⟨k, hk⟩ : ∃ k : Nat, e = -(k : ℤ) := ⟨(-e).toNat, by omega⟩
    have e1 : (m : ℚ) * 2 ^ e - n = ((m - n * 2 ^ k : ℤ) : ℚ) * 2 ^ e := by
      push_cast
      rw [sub_mul, mul_assoc, hk, ← zpow_natCast (2 : ℚ) k, ← zpow_add₀ (by norm_num)]
      simp
    refine ⟨m - n * 2 ^ k, e, ?_, he, e1⟩
    have h2 : 0 ≤ ((m - n * 2 ^ k : ℤ) : ℚ) := by
      by_contra hc
      rw [not_le] at hc
      have := mul_neg_of_neg_of_pos hc hp
      rw [← e1] at this
      linarith
    have h3 : (0 : ℤ) ≤ m - n * 2 ^ k := by exact_mod_cast h2
    have h4 : (0 : ℤ) ≤ n * 2 ^ k := by positivity
    rw [abs_of_nonneg h3]
    have := (abs_lt.mp hm).2
    omega

/-- **C185** (partial): `wrap<Max>(val)` of a float between 0 and 2^24 ends with exactly the remainder of val modulo Max. Missing: negative and larger values, below. -/
theorem C185_wrap_max_partial {rnd : ℚ → ℚ} (h : Nearest rnd) (max : Nat) (hm0 : 0 < max) (hm : max ≤ 2 ^ 24) (val : ℚ) (hv : F32 val) (h0 : 0 ≤ val) (h1 : val ≤ 2 ^ 24) :
    ∃ fuel, ∀ f, fuel ≤ f → wrapMax rnd max f val = some (val - max * ⌊val / max⌋) := by
  have hM : rnd max = max := h.fix (by simpa using f32_grid max 0 (by rw [abs_of_nonneg (by omega)]; exact_mod_cast hm) (by norm_num))
  have hp : (0 : ℚ) < max := by exact_mod_cast hm0
  have key : ∀ (n : Nat) (v : ℚ), F32 v → 0 ≤ v → v ≤ 2 ^ 24 → v < max * n → ∀ f, n ≤ f → wrapMax rnd max f v = some (v - max * ⌊v / max⌋) := by
    intro n
    induction n with
    | zero => intro v _ a _ b; simp at b; linarith
    | succ n ih =>
      intro v hv a b c f hf
      obtain ⟨g, rfl⟩ : ∃ g, f = g + 1 := ⟨f - 1, by omega⟩
      unfold wrapMax
      rw [hM]
      by_cases hc : v ≥ max
      · have hs := f32_sub_nat hv max hc b
        rw [if_pos hc, h.fix hs, ih (v - max) hs (by linarith) (by linarith) (by push_cast at c; linarith) g (by omega)]
        have : (v - max) / max = v / max - 1 := by field_simp
        rw [this, Int.floor_sub_one]
        push_cast
        congr 1
        ring
      · rw [if_neg hc]
        have : ⌊v / max⌋ = 0 := by
          rw [Int.floor_eq_zero_iff]
          exact ⟨div_nonneg a hp.le, (div_lt_one hp).mpr (not_le.mp hc)⟩
        rw [this]; simp
  obtain ⟨n, hn⟩ := exists_nat_gt (val / max)
  exact ⟨n, key n val hv h0 h1 (by rw [div_lt_iff₀ hp] at hn; linarith)⟩

example (rnd : ℚ → ℚ) (h : Nearest rnd) := C185_wrap_max_partial h 3 (by norm_num) (by norm_num) (7 / 2) (by simpa using f32_div 7 (by norm_num) 1 (by norm_num)) (by norm_num) (by norm_num)

theorem rnd_big {rnd : ℚ → ℚ} (h : Nearest rnd) : rnd (67108864 - 1) = 67108864 := by
  have := h.eq_of_close (67108864 - 1) (2 ^ 24) 2 (by norm_num) (by norm_num) (by norm_num) (by norm_num)
  rw [this]; norm_num

/-- **C185** (violated outside): a negative value is returned as it is; and with 2^26, where taking 1 away changes nothing, `wrap<1>` never ends, under every rounding to nearest. -/
theorem C185_wrap_max_violated {rnd : ℚ → ℚ} (h : Nearest rnd) :
    wrapMax rnd 10 1 (-1) = some (-1) ∧ ∀ f, wrapMax rnd 1 f 67108864 = none := by
  have h1 : rnd 1 = 1 := h.fix f32_one
  constructor
  · have : rnd ((10 : Nat) : ℚ) = 10 := h.fix (by simpa using f32_int 10 (by norm_num))
    unfold wrapMax
    rw [this, if_neg (by norm_num)]
  · intro f
    induction f with
    | zero => rfl
    | succ f ih =>
      unfold wrapMax
      rw [show ((1 : Nat) : ℚ) = 1 by norm_num, h1, if_pos (by norm_num), rnd_big h]
      exact ih

theorem div_sub_div' (V P : ℤ) (j : Nat) : (V : ℚ) / 2 ^ j - P / 2 ^ j = ((V - P : ℤ) : ℚ) / 2 ^ j := by push_cast; ring
theorem div_add_div' (V P : ℤ) (j : Nat) : (V : ℚ) / 2 ^ j + P / 2 ^ j = ((V + P : ℤ) : ℚ) / 2 ^ j := by push_cast; ring
theorem div_lt_div' (V B : ℤ) (j : Nat) : (V : ℚ) / 2 ^ j < B / 2 ^ j ↔ V < B := by
  rw [div_lt_div_iff_of_pos_right (by positivity)]; exact_mod_cast Iff.rfl

theorem down_units {rnd : ℚ → ℚ} (h : Nearest rnd) (j : Nat) (hj : j ≤ 149) (P B : ℤ) (hP : 0 < P) (hB : -(2 ^ 24) < B - P) (n : Nat) :
    ∀ V : ℤ, V < 2 ^ 24 → V - B ≤ n → ∃ k : ℤ, (∀ f, n < f → down rnd (P / 2 ^ j) (B / 2 ^ j) f (V / 2 ^ j) = some (((V - P * k : ℤ) : ℚ) / 2 ^ j)) ∧
      V - P * k ≤ B ∧ (k = 0 ∨ B - P < V - P * k) := by
  induction n with
  | zero =>
    intro V hV hn
    refine ⟨0, ?_, by push_cast at hn; omega, Or.inl rfl⟩
    intro f hf
    obtain ⟨g, rfl⟩ : ∃ g, f = g + 1 := ⟨f - 1, by omega⟩
    unfold down
    rw [if_neg (by rw [gt_iff_lt, div_lt_div']; push_cast at hn; omega)]
    simp
  | succ n ih =>
    intro V hV hn
    by_cases hc : B < V
    · obtain ⟨k, h1, h2, h3⟩ := ih (V - P) (by omega) (by push_cast at hn; omega)
      refine ⟨k + 1, ?_, by have : P * (k + 1) = P * k + P := by ring
                            omega, Or.inr ?_⟩
      · intro f hf
        obtain ⟨g, rfl⟩ : ∃ g, f = g + 1 := ⟨f - 1, by omega⟩
        unfold down
        rw [if_pos (by rw [gt_iff_lt, div_lt_div']; exact hc), div_sub_div', h.fix (f32_div _ (abs_lt.mpr ⟨by omega, by omega⟩) j hj), h1 g (by omega)]
        congr 3
        ring
      · have e : P * (k + 1) = P * k + P := by ring
        rcases h3 with rfl | h3
        · rw [e, mul_zero]; omega
        · omega
    · refine ⟨0, ?_, by omega, Or.inl rfl⟩
      intro f hf
      obtain ⟨g, rfl⟩ : ∃ g, f = g + 1 := ⟨f - 1, by omega⟩
      unfold down
      rw [if_neg (by rw [gt_iff_lt, div_lt_div']; omega)]
      simp

theorem up_units {rnd : ℚ → ℚ} (h : Nearest rnd) (j : Nat) (hj : j ≤ 149) (P A : ℤ) (hP : 0 < P) (hA : A + P < 2 ^ 24) (n : Nat) :
    ∀ V : ℤ, -(2 ^ 24) < V → A - V ≤ n → ∃ k : ℤ, (∀ f, n < f → up rnd (P / 2 ^ j) (A / 2 ^ j) f (V / 2 ^ j) = some (((V + P * k : ℤ) : ℚ) / 2 ^ j)) ∧
      A ≤ V + P * k ∧ (k = 0 ∨ V + P * k < A + P) := by
  induction n with
  | zero =>
    intro V hV hn
    refine ⟨0, ?_, by push_cast at hn; omega, Or.inl rfl⟩
    intro f hf
    obtain ⟨g, rfl⟩ : ∃ g, f = g + 1 := ⟨f - 1, by omega⟩
    unfold up
    rw [if_neg (by rw [div_lt_div']; push_cast at hn; omega)]
    simp
  | succ n ih =>
    intro V hV hn
    by_cases hc : V < A
    · obtain ⟨k, h1, h2, h3⟩ := ih (V + P) (by omega) (by push_cast at hn; omega)
      have e : P * (k + 1) = P * k + P := by ring
      refine ⟨k + 1, ?_, by omega, Or.inr ?_⟩
      · intro f hf
        obtain ⟨g, rfl⟩ : ∃ g, f = g + 1 := ⟨f - 1, by omega⟩
        unfold up
        rw [if_pos (by rw [div_lt_div']; exact hc), div_add_div', h.fix (f32_div _ (abs_lt.mpr ⟨by omega, by omega⟩) j hj), h1 g (by omega)]
        congr 3
        ring
      · rcases h3 with rfl | h3
        · rw [e, mul_zero]; omega
        · omega
    · refine ⟨0, ?_, by omega, Or.inl rfl⟩
      intro f hf
      obtain ⟨g, rfl⟩ : ∃ g, f = g + 1 := ⟨f - 1, by omega⟩
      unfold up
      rw [if_neg (by rw [div_lt_div']; omega)]
      simp

/-- **C185** (partial): `wrap(val, min, max)` of floats that are multiples of 2^-j, below 2^22 of these units, ends, and its result is val less a whole number of periods max - min + 1, at least min and below max + 1. Missing: the
result can exceed max by less than 1, and for larger values the loops may not end, both below. -/
theorem C185_wrap_partial {rnd : ℚ → ℚ} (h : Nearest rnd) (j : Nat) (hj : j ≤ 21) (val min max : ℚ)
    (V A B : ℤ) (eV : val = V / 2 ^ j) (eA : min = A / 2 ^ j) (eB : max = B / 2 ^ j) (hV : |V| < 2 ^ 22) (hA : |A| < 2 ^ 22) (hB : |B| < 2 ^ 22) (hAB : min ≤ max) :
    ∃ r fuel, (∀ f, fuel ≤ f → wrap rnd f val min max = some r) ∧ min ≤ r ∧ r < max + 1 ∧ ∃ n : ℤ, val = r + n * (max - min + 1) := by
  subst eV eA eB
  have hq : (0 : ℚ) < 2 ^ j := by positivity
  have hAB' : A ≤ B := by
    rw [div_le_div_iff_of_pos_right hq] at hAB; exact_mod_cast hAB
  rw [abs_lt] at hV hA hB
  have hJ : (2 : ℤ) ^ j ≤ 2 ^ 21 := pow_le_pow_right₀ (by norm_num) hj
  have hJ0 : (0 : ℤ) < 2 ^ j := by positivity
  obtain ⟨J, eJ⟩ : ∃ J : ℤ, J = 2 ^ j := ⟨_, rfl⟩
  have hone : (1 : ℚ) = J / 2 ^ j := by rw [eJ]; push_cast; field_simp
  rw [← eJ] at hJ hJ0
  obtain ⟨P, eP⟩ : ∃ P : ℤ, P = B - A + J := ⟨_, rfl⟩
  have hrange : rnd (rnd (B / 2 ^ j - A / 2 ^ j) + 1) = P / 2 ^ j := by
    rw [div_sub_div', h.fix (f32_div _ (abs_lt.mpr ⟨by omega, by omega⟩) j (by omega)), hone, div_add_div', h.fix (f32_div _ (abs_lt.mpr ⟨by omega, by omega⟩) j (by omega)), eP]
  obtain ⟨k1, a1, a2, a3⟩ := down_units h j (by omega) P B (by omega) (by omega) (V - B).toNat V (by omega) (by omega)
  obtain ⟨W, eW⟩ : ∃ W, W = V - P * k1 := ⟨_, rfl⟩
  rw [← eW] at a2 a3
  have hW : -(2 ^ 24) < W := by
    rcases a3 with rfl | a3
    · rw [eW, mul_zero]; omega
    · omega
  obtain ⟨k2, b1, b2, b3⟩ := up_units h j (by omega) P A (by omega) (by omega) (A - W).toNat W hW (by omega)
  refine ⟨((W + P * k2 : ℤ) : ℚ) / 2 ^ j, Nat.max (V - B).toNat (A - W).toNat + 1, ?_, ?_, ?_, k1 - k2, ?_⟩
  · intro f hf
    have := Nat.le_max_left (V - B).toNat (A - W).toNat
    have := Nat.le_max_right (V - B).toNat (A - W).toNat
    unfold wrap
    simp only [hrange]
    rw [a1 f (by simp only [Nat.max] at *; omega), ← eW]
    exact b1 f (by simp only [Nat.max] at *; omega)
  · rw [div_le_div_iff_of_pos_right hq]; exact_mod_cast b2
  · rw [hone, div_add_div', div_lt_div']
    rcases b3 with rfl | b3
    · rw [mul_zero]; omega
    · omega
  · rw [hone, div_sub_div', div_add_div', ← eP, eW]
    push_cast
    field_simp
    ring

/-- **C185**: on whole numbers below 2^22, given as floats, `wrap` ends with a value between min and max that differs from val by a whole number of periods. -/
theorem C185_wrap_whole {rnd : ℚ → ℚ} (h : Nearest rnd) (V A B : ℤ) (hV : |V| < 2 ^ 22) (hA : |A| < 2 ^ 22) (hB : |B| < 2 ^ 22) (hAB : A ≤ B) :
    ∃ (r : ℤ) (fuel : Nat), (∀ f, fuel ≤ f → wrap rnd f V A B = some (r : ℚ)) ∧ A ≤ r ∧ r ≤ B ∧ (B - A + 1) ∣ (V - r) := by
  obtain ⟨r, fuel, h1, h2, h3, n, h4⟩ := C185_wrap_partial h 0 (by norm_num) V A B V A B (by simp) (by simp) (by simp) hV hA hB (by exact_mod_cast hAB)
  have e : r = ((V - n * (B - A + 1) : ℤ) : ℚ) := by push_cast; linarith
  subst e
  refine ⟨V - n * (B - A + 1), fuel, h1, by exact_mod_cast h2, ?_, n, by ring⟩
  have : V - n * (B - A + 1) < B + 1 := by exact_mod_cast h3
  omega

/-- **C185** (violated): `wrap(2.5f, 1.f, 2.f)` is 2.5, which is not between 1 and 2 (the first loop takes it to 0.5, the second back); and `wrap(2^26, 0.f, 0.f)` never ends. Under every rounding to nearest. -/
theorem C185_wrap_violated {rnd : ℚ → ℚ} (h : Nearest rnd) :
    wrap rnd 2 (5 / 2) 1 2 = some (5 / 2) ∧ ∀ f, wrap rnd f 67108864 0 0 = none := by
  constructor
  · have r1 : rnd 1 = 1 := h.fix f32_one
    have r2 : rnd 2 = 2 := h.fix (by simpa using f32_int 2 (by norm_num))
    have r3 : rnd (1 / 2) = 1 / 2 := h.fix (by simpa using f32_div 1 (by norm_num) 1 (by norm_num))
    have r4 : rnd (5 / 2) = 5 / 2 := h.fix (by simpa using f32_div 5 (by norm_num) 1 (by norm_num))
    have e1 : rnd (rnd (2 - 1) + 1) = 2 := by rw [show (2 : ℚ) - 1 = 1 by norm_num, r1, show (1 : ℚ) + 1 = 2 by norm_num, r2]
    have d : down rnd 2 2 2 (5 / 2) = some (1 / 2) := by
      unfold down
      rw [if_pos (by norm_num), show (5 : ℚ) / 2 - 2 = 1 / 2 by norm_num, r3]
      unfold down
      rw [if_neg (by norm_num)]
    have u : up rnd 2 1 2 (1 / 2) = some (5 / 2) := by
      unfold up
      rw [if_pos (by norm_num), show (1 : ℚ) / 2 + 2 = 5 / 2 by norm_num, r4]
      unfold up
      rw [if_neg (by norm_num)]
    simp only [wrap, e1, d, Option.bind_some, u]
  · intro f
    have e1 : rnd (rnd (0 - 0) + 1) = 1 := by rw [sub_self, h.zero, zero_add, h.fix f32_one]
    have d : ∀ f, down rnd 1 0 f 67108864 = none := by
      intro f
      induction f with
      | zero => rfl
      | succ f ih =>
        unfold down
        rw [if_pos (by norm_num), rnd_big h]
        exact ih
    simp only [wrap, e1, d, Option.bind_none]

/-- The hypotheses are met: wrapping 7.25 into [1, 2] in quarters, and whole numbers as in the library's own checks. -/
example : (29 / 4 : ℚ) = (29 : ℤ) / 2 ^ 2 ∧ (1 : ℚ) = (4 : ℤ) / 2 ^ 2 ∧ (2 : ℚ) = (8 : ℤ) / 2 ^ 2 ∧ |(29 : ℤ)| < 2 ^ 22 ∧ ∃ rnd, Nearest rnd :=
  ⟨by norm_num, by norm_num, by norm_num, by norm_num, exists_nearest⟩
example : ∃ rnd, Nearest rnd ∧ F32 (7 / 2) ∧ (0 : ℚ) ≤ 7 / 2 ∧ (7 / 2 : ℚ) ≤ 2 ^ 24 := by
  obtain ⟨rnd, h⟩ := exists_nearest
  exact ⟨rnd, h, by simpa using f32_div 7 (by norm_num) 1 (by norm_num), by norm_num, by norm_num⟩

end WrapFloat
