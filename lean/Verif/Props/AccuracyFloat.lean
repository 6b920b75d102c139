import Verif.Model.TrigFloat
import Verif.Props.SineOsc
import Verif.Props.Accuracy
/-! # C139, C140: sine, cosine and the sine oscillator in binary32 -/

namespace AccuracyFloat
open Flt Interp Interp.Spec InterpArray MathTables SineOsc MathFns

attribute [local irreducible] sinTable

/-! ## Rounding errors -/

/-- Rounding a number of magnitude at most 2^k moves it by at most 2^k / 2^25. -/
theorem round_within (rnd : ℚ → ℚ) (h : Nearest rnd) (k : ℕ) (x : ℚ) (hx : |x| ≤ 2 ^ k) : |rnd x - x| ≤ 2 ^ k / 2 ^ 25 := by
  have hk : (0 : ℚ) < 2 ^ k := by positivity
  obtain ⟨n, hn⟩ : ∃ n : ℤ, n = round (x * 2 ^ 24 / 2 ^ k) := ⟨_, rfl⟩
  have hr : |x * 2 ^ 24 / 2 ^ k - n| ≤ 1 / 2 := by rw [hn]; exact abs_sub_round _
  have hy : |x * 2 ^ 24 / 2 ^ k| ≤ 2 ^ 24 := by
    rw [abs_div, abs_mul, abs_of_pos hk, abs_of_pos (by positivity : (0 : ℚ) < 2 ^ 24), div_le_iff₀ hk]
    nlinarith
  have hn1 : |n| ≤ 2 ^ 24 := by
    rw [abs_le] at hr hy
    have h1 : (n : ℚ) < 2 ^ 24 + 1 := by linarith [hr.1, hy.2]
    have h2 : -(2 ^ 24 + 1) < (n : ℚ) := by linarith [hr.2, hy.1]
    have h1' : n < 2 ^ 24 + 1 := by exact_mod_cast h1
    have h2' : -(2 ^ 24 + 1) < n := by exact_mod_cast h2
    rw [abs_le]; omega
  have hF : F32 ((n : ℚ) / 2 ^ 24 * 2 ^ k) := by
    apply f32_scale
    rcases eq_or_lt_of_le hn1 with h | h
    · rcases abs_choice n with h' | h'
      · rw [← h', h]; norm_num; exact f32_one
      · have : n = -2 ^ 24 := by omega
        rw [this]; norm_num; exact f32_neg f32_one
    · exact f32_div n h 24 (by norm_num)
  refine (h.nearest x _ hF).trans ?_
  have e : (n : ℚ) / 2 ^ 24 * 2 ^ k - x = -(x * 2 ^ 24 / 2 ^ k - n) * (2 ^ k / 2 ^ 24) := by field_simp; ring
  rw [e, abs_mul, abs_neg, abs_of_pos (by positivity : (0 : ℚ) < 2 ^ k / 2 ^ 24)]
  calc |x * 2 ^ 24 / 2 ^ k - (n : ℚ)| * (2 ^ k / 2 ^ 24) ≤ 1 / 2 * (2 ^ k / 2 ^ 24) := by gcongr
    _ = 2 ^ k / 2 ^ 25 := by ring

/-- Rounding moves a non-negative number by at most half a unit in the last place. -/
theorem round_rel (rnd : ℚ → ℚ) (h : Nearest rnd) (x : ℚ) (hx : 0 ≤ x) : |rnd x - x| ≤ x / 2 ^ 24 + 1 / 2 ^ 25 := by
  by_cases h1 : x ≤ 1
  · have := round_within rnd h 0 x (by rw [abs_of_nonneg hx, pow_zero]; exact h1)
    rw [pow_zero] at this
    have : 0 ≤ x / 2 ^ 24 := by positivity
    linarith
  · rw [not_le] at h1
    obtain ⟨k, hk0, hk1⟩ := exists_nat_pow_near h1.le (by norm_num : (1 : ℚ) < 2)
    have := round_within rnd h (k + 1) x (by rw [abs_of_nonneg hx]; exact hk1.le)
    refine this.trans ?_
    rw [pow_succ]
    have : (2 : ℚ) ^ k * 2 / 2 ^ 25 = 2 ^ k / 2 ^ 24 := by ring
    rw [this]
    have : (2 : ℚ) ^ k / 2 ^ 24 ≤ x / 2 ^ 24 := by gcongr
    have : (0 : ℚ) ≤ 1 / 2 ^ 25 := by positivity
    linarith

/-- The part after the point of a non-negative float, and its integer part, are floats. -/
theorem f32_frac {x : ℚ} (hx : F32 x) (k : ℕ) (h0 : (k : ℚ) ≤ x) (h1 : x < k + 1) : F32 k ∧ F32 (x - k) := by
  obtain ⟨m, e, hm, he, hxe⟩ := hx
  have hx0 : 0 ≤ x := (Nat.cast_nonneg k).trans h0
  by_cases hneg : 0 ≤ e
  · -- an integer
    obtain ⟨j, rfl⟩ := Int.eq_ofNat_of_zero_le hneg
    have hxi : x = ((m * 2 ^ j : ℤ) : ℚ) := by rw [hxe]; push_cast; rw [zpow_natCast]
    have : x = k := by
      rw [hxi] at h0 h1 ⊢
      have a : (k : ℤ) ≤ m * 2 ^ j := by exact_mod_cast h0
      have b : m * 2 ^ j < (k : ℤ) + 1 := by exact_mod_cast h1
      have : m * 2 ^ j = (k : ℤ) := by omega
      rw [this]; norm_cast
    rw [← this, sub_self]
    exact ⟨⟨m, j, hm, he, hxe⟩, f32_zero⟩
  · obtain ⟨j, hj⟩ : ∃ j : ℕ, e = -(j : ℤ) := ⟨(-e).toNat, by omega⟩
    have hxj : x * 2 ^ j = m := by
      rw [hxe, hj, zpow_neg, zpow_natCast]; field_simp
    have hp : (0 : ℚ) < 2 ^ j := by positivity
    have hm0 : (0 : ℚ) ≤ m := by rw [← hxj]; positivity
    have hm0' : 0 ≤ m := by exact_mod_cast hm0
    have hkm : (k : ℤ) * 2 ^ j ≤ m := by
      have : (k : ℚ) * 2 ^ j ≤ m := by rw [← hxj]; gcongr
      exact_mod_cast this
    rw [abs_of_nonneg hm0'] at hm
    have hp' : (1 : ℤ) ≤ 2 ^ j := one_le_pow₀ (by norm_num)
    constructor
    · have := f32_int (k : ℤ) (by rw [abs_of_nonneg (by omega)]; nlinarith)
      exact_mod_cast this
    · refine ⟨m - k * 2 ^ j, e, ?_, he, ?_⟩
      · rw [abs_of_nonneg (by omega)]
        have : (0 : ℤ) ≤ k * 2 ^ j := by positivity
        omega
      · rw [hxe, hj, zpow_neg, zpow_natCast]; push_cast; field_simp

theorem map_at (rnd : ℚ → ℚ) (data : List ℚ) (i : ℕ) (hi : i < data.length) : at' (data.map rnd) i = rnd (at' data i) := by
  unfold at'
  rw [List.getD_eq_getElem?_getD, List.getD_eq_getElem?_getD, List.getElem?_map, List.getElem?_eq_getElem hi]
  rfl

/-- The rounded table look-up is close to the exact one. -/
theorem interp_close (rnd : ℚ → ℚ) (hr : rnd = id ∨ Nearest rnd) (data : List ℚ) (hl : data.length = 2048) (hd : ∀ i, -1 ≤ at' data i ∧ at' data i ≤ 1) (p : ℚ) (h0 : 0 ≤ p) (h1 : p < 2 ^ 21)
    (hp : Nearest rnd → F32 p) : ∃ v w, interpWrapR rnd (data.map rnd) p = .ok v ∧ interpWrap data p = .ok w ∧ |v - w| ≤ 6 / 2 ^ 25 := by
  have hne : data ≠ [] := by intro h; rw [h] at hl; simp at hl
  obtain ⟨k, hk0, hk1⟩ := cell (p * 2048) (by positivity)
  have hk2 : k < 4294967296 := by
    have h1' : p < 2097152 := by norm_num at h1; exact h1
    have : (k : ℚ) < 4294967296 := by linarith
    exact_mod_cast this
  have ew := (C101_wrap_index data hne (p * 2048) k hk0 hk1 (by omega) _ _ rfl rfl).1
  rw [hl] at ew
  have ew' : interpWrap data p = .ok (lerp (at' data (k % 2048)) (at' data ((k + 1) % 2048)) (p * 2048 - k)) := by
    unfold interpWrap; rw [hl]; exact_mod_cast ew
  -- the rounded look-up
  have hlm : (data.map rnd).length = 2048 := by rw [List.length_map, hl]
  have h2048 : rnd 2048 = 2048 := by
    rcases hr with rfl | h
    · rfl
    · have := f32_int 2048 (by norm_num); exact h.fix (by exact_mod_cast this)
  have hidx : rnd (p * 2048) = p * 2048 := by
    rcases hr with rfl | h
    · rfl
    · have := f32_scale (hp h) 11; norm_num at this; exact h.fix this
  have hfr : rnd (k : ℚ) = k ∧ rnd (p * 2048 - k) = p * 2048 - k := by
    rcases hr with rfl | h
    · exact ⟨rfl, rfl⟩
    · have hF : F32 (p * 2048) := by have := f32_scale (hp h) 11; norm_num at this; exact this
      have := f32_frac hF k hk0 hk1
      exact ⟨h.fix this.1, h.fix this.2⟩
  have hi1 : (if k % 2048 = 2048 - 1 then 0 else k % 2048 + 1) = (k + 1) % 2048 := by split <;> omega
  have hk3 : k % 2048 < data.length := by rw [hl]; exact Nat.mod_lt _ (by norm_num)
  have hk4 : (k + 1) % 2048 < data.length := by rw [hl]; exact Nat.mod_lt _ (by norm_num)
  have ev : interpWrapR rnd (data.map rnd) p = .ok (rnd (rnd (rnd (at' data ((k + 1) % 2048)) * (p * 2048 - k)) + rnd (rnd (at' data (k % 2048)) * rnd (1 - (p * 2048 - k))))) := by
    unfold interpWrapR
    rw [hlm]
    push_cast
    rw [h2048, hidx]
    rw [trunc_cell _ k _ hk0 hk1 hk2, R.bind_ok, hfr.1, hfr.2]
    rw [wrapIdx_eq _ (by norm_num), hi1]
    have g1 : arrGet (data.map rnd) ((k + 1) % 2048) = .ok (rnd (at' data ((k + 1) % 2048))) := by rw [get_at _ _ (by rw [List.length_map]; exact hk4), map_at _ _ _ hk4]
    have g0 : arrGet (data.map rnd) (k % 2048) = .ok (rnd (at' data (k % 2048))) := by rw [get_at _ _ (by rw [List.length_map]; exact hk3), map_at _ _ _ hk3]
    rw [g1, g0]
    rfl
  refine ⟨_, _, ev, ew', ?_⟩
  unfold lerp
  obtain ⟨a1, b1⟩ := hd ((k + 1) % 2048)
  obtain ⟨a0, b0⟩ := hd (k % 2048)
  generalize at' data ((k + 1) % 2048) = d1 at *
  generalize at' data (k % 2048) = d0 at *
  have t0 : 0 ≤ p * 2048 - k := by linarith
  have t1 : p * 2048 - k ≤ 1 := by linarith
  generalize p * 2048 - (k : ℚ) = t at *
  rcases hr with rfl | h
  · simp only [id]
    rw [show d1 * t + d0 * (1 - t) - (d0 + (d1 - d0) * t) = 0 by ring, abs_zero]
    positivity
  · have one : ∀ x : ℚ, |x| ≤ 1 → |rnd x - x| ≤ 1 / 2 ^ 25 ∧ |rnd x| ≤ 1 := by
      intro x hx
      have := round_within rnd h 0 x (by rw [pow_zero]; exact hx)
      rw [pow_zero] at this
      rw [abs_le] at hx
      exact ⟨this, abs_le.mpr ⟨h.ge (f32_neg f32_one) hx.1, h.le f32_one hx.2⟩⟩
    obtain ⟨e1, r1⟩ := one d1 (abs_le.mpr ⟨a1, b1⟩)
    obtain ⟨e0, r0⟩ := one d0 (abs_le.mpr ⟨a0, b0⟩)
    obtain ⟨es, rs⟩ := one (1 - t) (abs_le.mpr ⟨by linarith, by linarith⟩)
    have ht : |t| ≤ 1 := abs_le.mpr ⟨by linarith, t1⟩
    have m1 : |rnd d1 * t| ≤ 1 := by rw [abs_mul]; exact mul_le_one₀ r1 (abs_nonneg _) ht
    have m0 : |rnd d0 * rnd (1 - t)| ≤ 1 := by rw [abs_mul]; exact mul_le_one₀ r0 (abs_nonneg _) rs
    obtain ⟨f1, s1⟩ := one _ m1
    obtain ⟨f0, s0⟩ := one _ m0
    have hs : |rnd (rnd d1 * t) + rnd (rnd d0 * rnd (1 - t))| ≤ 2 ^ 1 := (abs_add_le _ _).trans (by linarith)
    have g := round_within rnd h 1 _ hs
    have p1 : |rnd d1 * t - d1 * t| ≤ 1 / 2 ^ 25 * t := by
      rw [← sub_mul, abs_mul, abs_of_nonneg t0]; gcongr
    have p0 : |rnd d0 * rnd (1 - t) - d0 * (1 - t)| ≤ 1 / 2 ^ 25 + 1 / 2 ^ 25 * (1 - t) := by
      have : rnd d0 * rnd (1 - t) - d0 * (1 - t) = rnd d0 * (rnd (1 - t) - (1 - t)) + (rnd d0 - d0) * (1 - t) := by ring
      rw [this]
      refine (abs_add_le _ _).trans ?_
      rw [abs_mul, abs_mul, abs_of_nonneg (by linarith : 0 ≤ 1 - t)]
      have : |rnd d0| * |rnd (1 - t) - (1 - t)| ≤ 1 * (1 / 2 ^ 25) := by gcongr
      have : |rnd d0 - d0| * (1 - t) ≤ 1 / 2 ^ 25 * (1 - t) := by
        apply mul_le_mul_of_nonneg_right e0; linarith
      linarith
    generalize rnd (rnd (rnd d1 * t) + rnd (rnd d0 * rnd (1 - t))) = V at *
    generalize rnd (rnd d1 * t) = A at *
    generalize rnd (rnd d0 * rnd (1 - t)) = B at *
    generalize rnd d1 * t = A' at *
    generalize rnd d0 * rnd (1 - t) = B' at *
    rw [abs_le] at g f1 f0 p1 p0 ⊢
    constructor <;> norm_num at * <;> nlinarith [g.1, g.2, f1.1, f1.2, f0.1, f0.2, p1.1, p1.2, p0.1, p0.2]

theorem sin01_close (rnd : ℚ → ℚ) (hr : rnd = id ∨ Nearest rnd) (x : ℚ) (h0 : 0 ≤ x) (h1 : x < 2 ^ 21) (hx : Nearest rnd → F32 x) :
    ∃ v : ℚ, interpWrapR rnd (sinTableR rnd) x = .ok v ∧ |(v : ℝ) - Real.sin (2 * Real.pi * x)| ≤ 22 / 10 ^ 7 := by
  obtain ⟨v, w, hv, hw, hvw⟩ := interp_close rnd hr sinTable sin_len sin_bound x h0 h1 hx
  obtain ⟨w', hw', hb⟩ := Accuracy.C135_sin01 x h0 h1
  have : w = w' := by
    unfold MathFns.sin01 at hw'
    rw [hw] at hw'
    cases hw'; rfl
  subst this
  refine ⟨v, hv, ?_⟩
  have hvw' : |(v : ℝ) - w| ≤ 6 / 2 ^ 25 := by
    have := (Rat.cast_le (K := ℝ)).mpr hvw
    push_cast at this
    exact this
  refine (abs_sub_le _ (w : ℝ) _).trans ((add_le_add hvw' hb).trans ?_)
  norm_num

/-- **C139**: in binary32 with any rounding to nearest (and in exact arithmetic) sin01(x), the sine of x turns, is within 2.2 millionths of the real sine for every float x from 0 up to 2^21 turns. -/
theorem C139_sin01 (rnd : ℚ → ℚ) (hr : rnd = id ∨ Nearest rnd) (x : ℚ) (h0 : 0 ≤ x) (h1 : x < 2 ^ 21) (hx : Nearest rnd → F32 x) :
    ∃ v : ℚ, TrigFloat.sin01 rnd x = .ok v ∧ |(v : ℝ) - Real.sin (2 * Real.pi * x)| ≤ 22 / 10 ^ 7 := sin01_close rnd hr x h0 h1 hx

example (rnd : ℚ → ℚ) (h : Nearest rnd) := C139_sin01 rnd (.inr h) (3 / 8) (by norm_num) (by norm_num) (fun _ => by have := f32_div 3 (by norm_num) 3 (by norm_num); norm_num at this ⊢; exact this)

theorem pif2_f32 : F32 (2 * pif) := by
  have := f32_div 13176795 (by norm_num) 21 (by norm_num)
  unfold pif
  norm_num at this ⊢
  exact this

theorem rnd_pif2 (rnd : ℚ → ℚ) (hr : rnd = id ∨ Nearest rnd) : rnd (2 * pif) = 2 * pif := by
  rcases hr with rfl | h
  · rfl
  · exact h.fix pif2_f32

theorem rnd_err (rnd : ℚ → ℚ) (hr : rnd = id ∨ Nearest rnd) (x : ℚ) (hx : 0 ≤ x) : |rnd x - x| ≤ x / 2 ^ 24 + 1 / 2 ^ 25 ∧ 0 ≤ rnd x ∧ (Nearest rnd → F32 (rnd x)) := by
  rcases hr with rfl | h
  · refine ⟨?_, hx, fun h => h.f32 x⟩
    rw [id, sub_self, abs_zero]; positivity
  · exact ⟨round_rel rnd h x hx, h.ge f32_zero hx, fun _ => h.f32 x⟩

/-- **C139**: ... sin(x) is within 2.4 millionths plus 9e-8 x of the real sine, for every x from 0 to ten million ... -/
theorem C139_sin (rnd : ℚ → ℚ) (hr : rnd = id ∨ Nearest rnd) (x : ℚ) (h0 : 0 ≤ x) (h1 : x ≤ 10 ^ 7) :
    ∃ v : ℚ, TrigFloat.sin rnd x = .ok v ∧ |(v : ℝ) - Real.sin x| ≤ 24 / 10 ^ 7 + 9 / 10 ^ 8 * x := by
  have hp := pif_pos
  have hp3 : (3.14 : ℚ) ≤ pif := by unfold pif; norm_num
  have hq0 : 0 ≤ x / (2 * pif) := by positivity
  have hq1 : x / (2 * pif) ≤ x / 6.28 := by apply div_le_div_of_nonneg_left h0 (by norm_num); linarith
  obtain ⟨he, hr0, hF⟩ := rnd_err rnd hr (x / (2 * pif)) hq0
  have hlt : rnd (x / (2 * pif)) < 2 ^ 21 := by
    rw [abs_le] at he
    norm_num at he h1 hq1 ⊢
    linarith [he.2]
  obtain ⟨v, hv, hb⟩ := sin01_close rnd hr (rnd (x / (2 * pif))) hr0 hlt hF
  refine ⟨v, by unfold TrigFloat.sin; rw [rnd_pif2 rnd hr]; exact hv, ?_⟩
  have hx0 : (0 : ℝ) ≤ x := by exact_mod_cast h0
  have t := Accuracy.turns_near x hx0
  have heR : |((rnd (x / (2 * pif)) : ℚ) : ℝ) - (x : ℝ) / (2 * (pif : ℝ))| ≤ (x : ℝ) / 6.28 / 2 ^ 24 + 1 / 2 ^ 25 := by
    have : |rnd (x / (2 * pif)) - x / (2 * pif)| ≤ x / 6.28 / 2 ^ 24 + 1 / 2 ^ 25 := he.trans (by gcongr)
    have := (Rat.cast_le (K := ℝ)).mpr this
    push_cast at this
    exact this
  generalize ((rnd (x / (2 * pif)) : ℚ) : ℝ) = q at *
  have pu := Real.pi_lt_d6
  have hpi := Real.pi_pos
  have ang : |2 * Real.pi * q - x| ≤ 6 / 10 ^ 8 * x + 19 / 10 ^ 8 + 3 / 10 ^ 8 * x := by
    have : 2 * Real.pi * q - x = 2 * Real.pi * (q - (x : ℝ) / (2 * (pif : ℝ))) + (2 * Real.pi * ((x : ℝ) / (2 * (pif : ℝ))) - x) := by ring
    rw [this]
    refine (abs_add_le _ _).trans (add_le_add ?_ t)
    rw [abs_mul, abs_of_pos (by positivity : 0 < 2 * Real.pi)]
    calc 2 * Real.pi * |q - (x : ℝ) / (2 * (pif : ℝ))| ≤ 2 * 3.141593 * ((x : ℝ) / 6.28 / 2 ^ 24 + 1 / 2 ^ 25) := by gcongr
      _ ≤ _ := by norm_num; linarith
  refine (abs_sub_le _ (Real.sin (2 * Real.pi * q)) _).trans ((add_le_add hb ((Real.abs_sin_sub_sin_le _ _).trans ang)).trans ?_)
  norm_num
  linarith

/-- **C139**: ... and cos(x) within 2.7 millionths plus 1.5e-7 x of the real cosine. -/
theorem C139_cos (rnd : ℚ → ℚ) (hr : rnd = id ∨ Nearest rnd) (x : ℚ) (h0 : 0 ≤ x) (h1 : x ≤ 10 ^ 7) :
    ∃ v : ℚ, TrigFloat.cos rnd x = .ok v ∧ |(v : ℝ) - Real.cos x| ≤ 27 / 10 ^ 7 + 15 / 10 ^ 8 * x := by
  have hp := pif_pos
  have hp3 : (3.14 : ℚ) ≤ pif := by unfold pif; norm_num
  have hq0 : 0 ≤ x / (2 * pif) := by positivity
  have hq1 : x / (2 * pif) ≤ x / 6.28 := by apply div_le_div_of_nonneg_left h0 (by norm_num); linarith
  obtain ⟨he, hr0, -⟩ := rnd_err rnd hr (x / (2 * pif)) hq0
  have hr1 : rnd (x / (2 * pif)) ≤ x / 6.28 * (1 + 1 / 2 ^ 24) + 1 / 2 ^ 25 := by
    rw [abs_le] at he
    have : x / (2 * pif) / 2 ^ 24 ≤ x / 6.28 / 2 ^ 24 := by gcongr
    linarith [he.2]
  obtain ⟨he2, hr2, hF⟩ := rnd_err rnd hr (rnd (x / (2 * pif)) + 1 / 4) (by linarith)
  have hlt : rnd (rnd (x / (2 * pif)) + 1 / 4) < 2 ^ 21 := by
    rw [abs_le] at he2
    norm_num at he2 h1 hr1 ⊢
    linarith [he2.2]
  obtain ⟨v, hv, hb⟩ := sin01_close rnd hr _ hr2 hlt hF
  refine ⟨v, by unfold TrigFloat.cos; rw [rnd_pif2 rnd hr]; exact hv, ?_⟩
  have hx0 : (0 : ℝ) ≤ x := by exact_mod_cast h0
  have t := Accuracy.turns_near x hx0
  have heR : |((rnd (x / (2 * pif)) : ℚ) : ℝ) - (x : ℝ) / (2 * (pif : ℝ))| ≤ (x : ℝ) / 6.28 / 2 ^ 24 + 1 / 2 ^ 25 := by
    have : |rnd (x / (2 * pif)) - x / (2 * pif)| ≤ x / 6.28 / 2 ^ 24 + 1 / 2 ^ 25 := he.trans (by gcongr)
    have := (Rat.cast_le (K := ℝ)).mpr this
    push_cast at this
    exact this
  have he2R : |((rnd (rnd (x / (2 * pif)) + 1 / 4) : ℚ) : ℝ) - (((rnd (x / (2 * pif)) : ℚ) : ℝ) + 1 / 4)| ≤ ((x : ℝ) / 6.28 * (1 + 1 / 2 ^ 24) + 1 / 2 ^ 25 + 1 / 4) / 2 ^ 24 + 1 / 2 ^ 25 := by
    have : |rnd (rnd (x / (2 * pif)) + 1 / 4) - (rnd (x / (2 * pif)) + 1 / 4)| ≤ (x / 6.28 * (1 + 1 / 2 ^ 24) + 1 / 2 ^ 25 + 1 / 4) / 2 ^ 24 + 1 / 2 ^ 25 := he2.trans (by gcongr)
    have := (Rat.cast_le (K := ℝ)).mpr this
    push_cast at this
    exact this
  generalize ((rnd (rnd (x / (2 * pif)) + 1 / 4) : ℚ) : ℝ) = r at *
  generalize ((rnd (x / (2 * pif)) : ℚ) : ℝ) = q at *
  have pu := Real.pi_lt_d6
  have hpi := Real.pi_pos
  have ang : |2 * Real.pi * r - (x + Real.pi / 2)| ≤ 12 / 10 ^ 8 * x + 48 / 10 ^ 8 + 3 / 10 ^ 8 * x := by
    have : 2 * Real.pi * r - (x + Real.pi / 2) = 2 * Real.pi * (r - (q + 1 / 4)) + 2 * Real.pi * (q - (x : ℝ) / (2 * (pif : ℝ))) + (2 * Real.pi * ((x : ℝ) / (2 * (pif : ℝ))) - x) := by ring
    rw [this]
    refine (abs_add_le _ _).trans (add_le_add ((abs_add_le _ _).trans ?_) t)
    rw [abs_mul (2 * Real.pi), abs_mul (2 * Real.pi), abs_of_pos (by positivity : 0 < 2 * Real.pi)]
    calc 2 * Real.pi * |r - (q + 1 / 4)| + 2 * Real.pi * |q - (x : ℝ) / (2 * (pif : ℝ))| ≤ 2 * 3.141593 * (((x : ℝ) / 6.28 * (1 + 1 / 2 ^ 24) + 1 / 2 ^ 25 + 1 / 4) / 2 ^ 24 + 1 / 2 ^ 25) + 2 * 3.141593 * ((x : ℝ) / 6.28 / 2 ^ 24 + 1 / 2 ^ 25) := by gcongr
      _ ≤ _ := by norm_num; linarith
  have hs := (Real.abs_sin_sub_sin_le (2 * Real.pi * r) (x + Real.pi / 2)).trans ang
  rw [Real.sin_add_pi_div_two] at hs
  refine (abs_sub_le _ (Real.sin (2 * Real.pi * r)) _).trans ((add_le_add hb hs).trans ?_)
  norm_num
  linarith

-- one radian, with some rounding to nearest
example : ∃ rnd, Nearest rnd ∧ ∃ v : ℚ, TrigFloat.sin rnd 1 = .ok v ∧ |(v : ℝ) - Real.sin ((1 : ℚ) : ℝ)| ≤ 24 / 10 ^ 7 + 9 / 10 ^ 8 * ((1 : ℚ) : ℝ) := by
  obtain ⟨rnd, h⟩ := exists_nearest
  exact ⟨rnd, h, C139_sin rnd (.inr h) 1 (by norm_num) (by norm_num)⟩

/-! ## The sine oscillator -/

theorem rnd_max (rnd : ℚ → ℚ) (h : Nearest rnd) : rnd 4294967295 = 4294967296 := by
  have h32 : F32 4294967296 := by have := f32_pow2 32; norm_num at this; exact this
  have hn := h.nearest 4294967295 4294967296 h32
  rw [show (4294967296 : ℚ) - 4294967295 = 1 by norm_num, abs_one, abs_le] at hn
  obtain ⟨k, hk⟩ := f32_multiple (h.f32 4294967295) 8 (by rw [abs_of_nonneg (by linarith [hn.1])]; norm_num; linarith [hn.1])
  rw [show (2 : ℚ) ^ (8 : ℤ) = 256 by norm_num] at hk
  rw [hk] at hn ⊢
  have h1 : (16777215 : ℚ) < k := by linarith [hn.1]
  have h2 : (k : ℚ) < 16777217 := by linarith [hn.2]
  have h1' : 16777215 < k := by exact_mod_cast h1
  have h2' : k < 16777217 := by exact_mod_cast h2
  have : k = 16777216 := by omega
  rw [this]; norm_num

/-- The float phase of the oscillator. -/
theorem phase_close (rnd : ℚ → ℚ) (hr : rnd = id ∨ Nearest rnd) (s : Oscs.Accum) :
    0 ≤ (processFloatR rnd s).2 ∧ (processFloatR rnd s).2 ≤ 1 ∧ (Nearest rnd → F32 (processFloatR rnd s).2) ∧ |(processFloatR rnd s).2 - (s.update.phase : ℚ) / 4294967296| ≤ 1 / 2 ^ 25 := by
  have hlt : s.process.2 < 4294967296 := by
    unfold Oscs.Accum.process Oscs.Accum.val Oscs.Accum.update Oscs.W
    exact Nat.mod_lt _ (by norm_num)
  have hsn : s.process.2 = s.update.phase := rfl
  unfold processFloatR
  simp only [hsn] at hlt ⊢
  generalize s.update.phase = n at *
  have hn0 : (0 : ℚ) ≤ n := Nat.cast_nonneg _
  have hn1 : (n : ℚ) ≤ 4294967295 := by exact_mod_cast (show n ≤ 4294967295 by omega)
  rcases hr with rfl | h
  · simp only [id]
    refine ⟨by positivity, by rw [mul_one_div, div_le_one (by norm_num)]; exact hn1, fun h => h.f32 _, ?_⟩
    rw [show (n : ℚ) * (1 / 4294967295) - n / 4294967296 = n / (4294967295 * 4294967296) by ring, abs_of_nonneg (by positivity), div_le_iff₀ (by norm_num)]
    norm_num
    linarith
  · have h32 : F32 4294967296 := by have := f32_pow2 32; norm_num at this; exact this
    have hi : rnd (1 / 4294967296) = 1 / 4294967296 := by
      have := f32_div 1 (by norm_num) 32 (by norm_num); norm_num at this; exact h.fix (by norm_num; exact this)
    rw [rnd_max rnd h, hi]
    have a0 : 0 ≤ rnd n := h.ge f32_zero hn0
    have a1 : rnd n ≤ 4294967296 := h.le h32 (by linarith)
    have hF : F32 (rnd n * (1 / 4294967296)) := by
      by_cases hsm : n < 2 ^ 24
      · have hn' : F32 (n : ℚ) := by have := f32_int n (by rw [abs_of_nonneg (by omega)]; exact_mod_cast hsm); exact_mod_cast this
        rw [h.fix hn']
        have := f32_div n (by rw [abs_of_nonneg (by omega)]; exact_mod_cast hsm) 32 (by norm_num)
        norm_num at this ⊢
        rw [← div_eq_mul_one_div]
        exact this
      · have h24 : F32 16777216 := by have := f32_pow2 24; norm_num at this; exact this
        have hge : 16777216 ≤ rnd n := h.ge h24 (by exact_mod_cast (show 16777216 ≤ n by omega))
        obtain ⟨m, e, hm, he, hx⟩ := h.f32 n
        have he0 : 0 ≤ e := by
          by_contra hc
          have : (2 : ℚ) ^ e ≤ 1 := zpow_le_one_of_nonpos₀ (by norm_num) (by omega)
          have hp : (0 : ℚ) < 2 ^ e := zpow_pos (by norm_num) _
          have hm' : (m : ℚ) < 16777216 := by exact_mod_cast (lt_of_abs_lt hm)
          rw [hx] at hge
          by_cases hm0 : 0 ≤ (m : ℚ)
          · nlinarith
          · nlinarith
        refine ⟨m, e - 32, hm, by omega, ?_⟩
        rw [hx, zpow_sub₀ (by norm_num)]
        norm_num
        ring
    rw [h.fix hF]
    refine ⟨by positivity, by rw [mul_one_div, div_le_one (by norm_num)]; exact a1, fun _ => hF, ?_⟩
    have := round_within rnd h 32 n (by rw [abs_of_nonneg hn0]; norm_num; linarith)
    rw [show rnd n * (1 / 4294967296) - (n : ℚ) / 4294967296 = (rnd n - n) / 4294967296 by ring, abs_div, abs_of_pos (by norm_num : (0 : ℚ) < 4294967296), div_le_iff₀ (by norm_num)]
    norm_num at this ⊢
    exact this

theorem bipolar_close (rnd : ℚ → ℚ) (hr : rnd = id ∨ Nearest rnd) (s : Oscs.Accum) :
    ∃ v : ℚ, processBipolar rnd s = .ok (s.update, v) ∧ |(v : ℝ) - Real.sin (2 * Real.pi * (s.update.phase / 4294967296))| ≤ 24 / 10 ^ 7 := by
  obtain ⟨p0, p1, pF, pn⟩ := phase_close rnd hr s
  obtain ⟨v, hv, hb⟩ := sin01_close rnd hr _ p0 (lt_of_le_of_lt p1 (by norm_num)) pF
  refine ⟨v, by unfold processBipolar; rw [hv]; rfl, ?_⟩
  have pnR : |(((processFloatR rnd s).2 : ℚ) : ℝ) - (s.update.phase : ℝ) / 4294967296| ≤ 1 / 2 ^ 25 := by
    have := (Rat.cast_le (K := ℝ)).mpr pn
    push_cast at this
    exact this
  generalize (((processFloatR rnd s).2 : ℚ) : ℝ) = q at *
  have pu := Real.pi_lt_d6
  have hpi := Real.pi_pos
  have ang : |2 * Real.pi * q - 2 * Real.pi * ((s.update.phase : ℝ) / 4294967296)| ≤ 19 / 10 ^ 8 := by
    rw [← mul_sub, abs_mul, abs_of_pos (by positivity : 0 < 2 * Real.pi)]
    calc 2 * Real.pi * |q - (s.update.phase : ℝ) / 4294967296| ≤ 2 * 3.141593 * (1 / 2 ^ 25) := by gcongr
      _ ≤ _ := by norm_num
  refine (abs_sub_le _ (Real.sin (2 * Real.pi * q)) _).trans ((add_le_add hb ((Real.abs_sin_sub_sin_le _ _).trans ang)).trans ?_)
  norm_num

theorem update_iter (s : Oscs.Accum) (n : ℕ) : (Oscs.Accum.update^[n] s).inc = s.inc ∧ (Oscs.Accum.update^[n + 1] s).phase = (s.phase + (n + 1) * s.inc) % 4294967296 := by
  induction n with
  | zero => refine ⟨rfl, ?_⟩; simp [Oscs.Accum.update, Oscs.W]
  | succ n ih =>
    rw [Function.iterate_succ_apply']
    refine ⟨ih.1, ?_⟩
    rw [Function.iterate_succ_apply']
    have hi : (Oscs.Accum.update^[n + 1] s).inc = s.inc := by rw [Function.iterate_succ_apply']; exact ih.1
    show ((Oscs.Accum.update^[n + 1] s).phase + (Oscs.Accum.update^[n + 1] s).inc) % Oscs.W = _
    rw [ih.2, hi, Oscs.W, Nat.mod_add_mod]
    congr 1; ring

theorem sin_turns (n : ℕ) : Real.sin (2 * Real.pi * (((n % 4294967296 : ℕ) : ℝ) / 4294967296)) = Real.sin (2 * Real.pi * ((n : ℝ) / 4294967296)) := by
  have : (n : ℝ) = (4294967296 * (n / 4294967296 : ℕ) + (n % 4294967296 : ℕ) : ℕ) := by rw [Nat.div_add_mod]
  conv_rhs => rw [this]
  push_cast
  rw [show 2 * Real.pi * ((4294967296 * ((n / 4294967296 : ℕ) : ℝ) + ((n % 4294967296 : ℕ) : ℝ)) / 4294967296) = 2 * Real.pi * (((n % 4294967296 : ℕ) : ℝ) / 4294967296) + ((n / 4294967296 : ℕ) : ℝ) * (2 * Real.pi) by ring, Real.sin_add_nat_mul_two_pi]

/-- **C140**: from any state, the n-th call of process_bipolar gives sin(2 pi (phase + n * increment) / 2^32) within 2.4 millionths, of process_unipolar that sine moved to [0,1] within 1.3 millionths, and of process within 6000 of it times 4294967040, in exact arithmetic and in binary32 with any rounding to nearest. -/
theorem C140_sine (rnd : ℚ → ℚ) (hr : rnd = id ∨ Nearest rnd) (s : Oscs.Accum) (n : ℕ) (w : ℝ) (hw : w = Real.sin (2 * Real.pi * ((s.phase + (n + 1) * s.inc : ℕ) / 4294967296))) :
    (∃ v : ℚ, processBipolar rnd (Oscs.Accum.update^[n] s) = .ok (Oscs.Accum.update^[n + 1] s, v) ∧ |(v : ℝ) - w| ≤ 24 / 10 ^ 7) ∧
    (∃ v : ℚ, processUnipolar rnd (Oscs.Accum.update^[n] s) = .ok (Oscs.Accum.update^[n + 1] s, v) ∧ |(v : ℝ) - (1 + w) / 2| ≤ 13 / 10 ^ 7) ∧
    (∃ k : ℕ, process rnd (Oscs.Accum.update^[n] s) = .ok (Oscs.Accum.update^[n + 1] s, k) ∧ |(k : ℝ) - (1 + w) / 2 * 4294967040| ≤ 6000) := by
  obtain ⟨v, hv, hb⟩ := bipolar_close rnd hr (Oscs.Accum.update^[n] s)
  rw [← Function.iterate_succ_apply' Oscs.Accum.update n s] at hv hb
  rw [(update_iter s n).2, sin_turns, ← hw] at hb
  obtain ⟨⟨v1, hv1, l1, u1⟩, ⟨v2, hv2, l2, u2⟩, ⟨k, hk, -⟩⟩ := C133_range rnd hr (Oscs.Accum.update^[n] s)
  rw [← Function.iterate_succ_apply' Oscs.Accum.update n s] at hv1 hv2 hk
  rw [hv] at hv1
  cases hv1
  refine ⟨⟨v, hv, hb⟩, ?_⟩
  have e2 : v2 = rnd (rnd (v * (1 / 2)) + 1 / 2) := by
    unfold processUnipolar at hv2
    rw [hv, R.bind_ok] at hv2
    cases hv2; rfl
  have r2 : |v2 - (v / 2 + 1 / 2)| ≤ 2 / 2 ^ 25 := by
    rcases hr with rfl | h
    · rw [e2]; simp only [id]
      rw [show v * (1 / 2) + 1 / 2 - (v / 2 + 1 / 2) = 0 by ring, abs_zero]; positivity
    · have hhalf : F32 (1 / 2) := by have := f32_div 1 (by norm_num) 1 (by norm_num); norm_num at this ⊢; exact this
      have a := round_within rnd h 0 (v * (1 / 2)) (by rw [abs_le, pow_zero]; constructor <;> linarith)
      have b1 : rnd (v * (1 / 2)) ≤ 1 / 2 := h.le hhalf (by linarith)
      have b2 : -(1 / 2) ≤ rnd (v * (1 / 2)) := h.ge (f32_neg hhalf) (by linarith)
      have b := round_within rnd h 0 (rnd (v * (1 / 2)) + 1 / 2) (by rw [abs_le, pow_zero]; constructor <;> linarith)
      rw [← e2] at b
      rw [pow_zero] at a b
      rw [abs_le] at a b ⊢
      constructor <;> linarith [a.1, a.2, b.1, b.2]
  have r2R : |(v2 : ℝ) - ((v : ℝ) / 2 + 1 / 2)| ≤ 2 / 2 ^ 25 := by
    have := (Rat.cast_le (K := ℝ)).mpr r2
    push_cast at this
    exact this
  have c2 : |(v2 : ℝ) - (1 + w) / 2| ≤ 13 / 10 ^ 7 := by
    rw [abs_le] at r2R hb ⊢
    constructor <;> norm_num at * <;> linarith [r2R.1, r2R.2, hb.1, hb.2]
  refine ⟨⟨v2, hv2, c2⟩, k, hk, ?_⟩
  have ek : Color.trunc 4294967296 (rnd (v2 * 4294967040)) = .ok k := by
    unfold process at hk
    rw [hv2, R.bind_ok] at hk
    cases h : Color.trunc 4294967296 (rnd (v2 * 4294967040)) with
    | ub => simp only [h] at hk; cases hk
    | ok j =>
      simp only [h, R.bind_ok] at hk
      cases hk; rfl
  have rb : |rnd (v2 * 4294967040) - v2 * 4294967040| ≤ 128 ∧ 0 ≤ rnd (v2 * 4294967040) := by
    rcases hr with rfl | h
    · refine ⟨?_, by simp only [id]; positivity⟩
      rw [id, sub_self, abs_zero]; norm_num
    · refine ⟨?_, h.ge f32_zero (by positivity)⟩
      have := round_within rnd h 32 (v2 * 4294967040) (by rw [abs_of_nonneg (by positivity)]; norm_num; linarith)
      norm_num at this
      exact this
  have tk : |(k : ℚ) - rnd (v2 * 4294967040)| ≤ 1 := by
    unfold Color.trunc at ek
    split at ek
    · cases ek
      have hf : 0 ≤ ⌊rnd (v2 * 4294967040)⌋ := Int.floor_nonneg.mpr rb.2
      have : ((⌊rnd (v2 * 4294967040)⌋.toNat : ℕ) : ℚ) = (⌊rnd (v2 * 4294967040)⌋ : ℚ) := by
        have := Int.toNat_of_nonneg hf
        exact_mod_cast this
      rw [this, abs_le]
      have := Int.floor_le (rnd (v2 * 4294967040))
      have := Int.lt_floor_add_one (rnd (v2 * 4294967040))
      constructor <;> linarith
    · cases ek
  have kc : |(k : ℚ) - v2 * 4294967040| ≤ 129 := by
    have := abs_sub_le (k : ℚ) (rnd (v2 * 4294967040)) (v2 * 4294967040)
    linarith [rb.1]
  have kR : |(k : ℝ) - (v2 : ℝ) * 4294967040| ≤ 129 := by
    have := (Rat.cast_le (K := ℝ)).mpr kc
    push_cast at this
    exact this
  rw [abs_le] at kR c2 ⊢
  constructor <;> norm_num at * <;> linarith [kR.1, kR.2, c2.1, c2.2]

-- an oscillator a quarter of the way through its cycle
example : ∃ v : ℚ, processBipolar id ⟨1073741824, 0⟩ = .ok (⟨1073741824, 0⟩, v) ∧ |(v : ℝ) - 1| ≤ 24 / 10 ^ 7 := by
  obtain ⟨⟨v, hv, hb⟩, -⟩ := C140_sine id (.inl rfl) ⟨1073741824, 0⟩ 0 1 (by
    simp only []
    rw [show 2 * Real.pi * (((1073741824 + (0 + 1) * 0 : ℕ) : ℝ) / 4294967296) = Real.pi / 2 by push_cast; ring, Real.sin_pi_div_two])
  exact ⟨v, hv, hb⟩

end AccuracyFloat
