import Verif.Model.ExpFloat
import Verif.Props.InterpFloat
import Verif.Props.AccuracyFloat
/-! # C159, C160: powers of two, pitch multiples and logarithmic frequencies in binary32 -/

namespace ExpFloat
open Flt Interp Interp.Spec MathTables MathFns InterpFloat Tables

attribute [local irreducible] sinTable exp5Table logTable tanTable

theorem map_at (rnd : ℚ → ℚ) (data : List ℚ) (i : ℕ) (hi : i < data.length) : at' (data.map rnd) i = rnd (at' data i) := AccuracyFloat.map_at rnd data i hi

/-- `interp` in binary32 in a table of 2048 literals: it blends the same two entries as exact interpolation at a place that is within rounding of the argument. -/
theorem interp_near (rnd : ℚ → ℚ) (h : Nearest rnd) (data : List ℚ) (hl : data.length = 2048) (p : ℚ) (h0 : 0 ≤ p) (h1 : p ≤ 1) :
    ∃ (v q : ℚ) (k : ℕ), InterpFloat.interp rnd (data.map rnd) p = .ok v ∧ 0 ≤ q ∧ q ≤ 1 ∧ |q - p| ≤ p / 2 ^ 24 + 1 / 2 ^ 150 ∧ k + 1 < 2048 ∧ (k : ℚ) ≤ q * 2047 ∧ q * 2047 ≤ k + 1 ∧
      InterpArray.interp data q = .ok (lerp (at' data k) (at' data (k + 1)) (q * 2047 - k)) ∧
      ∀ M : ℚ, 1 ≤ M → |at' data k| ≤ M → |at' data (k + 1)| ≤ M → |v - lerp (at' data k) (at' data (k + 1)) (q * 2047 - k)| ≤ 51 / 10 * M / 2 ^ 24 := by
  have hlm : (data.map rnd).length = 2048 := by rw [List.length_map, hl]
  have hp2047 : 0 ≤ p * 2047 := by positivity
  have f2047 : F32 (2047 : ℚ) := by have := f32_int 2047 (by norm_num); exact_mod_cast this
  obtain ⟨x, hx⟩ : ∃ x, x = rnd (p * 2047) := ⟨_, rfl⟩
  have hx0 : 0 ≤ x := by rw [hx]; exact h.ge f32_zero hp2047
  have hx1 : x ≤ 2047 := by rw [hx]; exact h.le f2047 (by linarith)
  have hxF : F32 x := by rw [hx]; exact h.f32 _
  have hxe := h.rel (p * 2047)
  rw [← hx, abs_of_nonneg hp2047] at hxe
  have hidx : InterpFloat.interp rnd (data.map rnd) p = interpByIndex rnd (data.map rnd) x := by
    unfold InterpFloat.interp
    rw [hlm, hx]
    have : rnd (((2048 - 1 : ℕ) : ℕ) : ℚ) = 2047 := by
      have := nat_fix h 2047 (by norm_num)
      push_cast at this ⊢
      norm_num
      exact this
    rw [this]
  have hq : |x / 2047 - p| ≤ p / 2 ^ 24 + 1 / 2 ^ 150 := by
    have e : x / 2047 - p = (x - p * 2047) / 2047 := by field_simp
    rw [e, abs_div, abs_of_pos (by norm_num : (0 : ℚ) < 2047), div_le_iff₀ (by norm_num)]
    refine hxe.trans ?_
    norm_num
    linarith
  have hq1 : x / 2047 ≤ 1 := by rw [div_le_one (by norm_num)]; exact hx1
  have hqx : x / 2047 * 2047 = x := by field_simp
  obtain ⟨k, hk, hk0, hk1, e⟩ := interp_cell data (by rw [hl]; norm_num) (by rw [hl]; norm_num) (x / 2047) (by positivity) hq1
  rw [hl] at hk hk0 hk1 e
  norm_num only [hqx] at hk0 hk1 e
  have hd : ∀ a ∈ data.map rnd, F32 a := by
    intro a ha
    rw [List.mem_map] at ha
    obtain ⟨b, _, rfl⟩ := ha
    exact h.f32 b
  have near : ∀ (d M : ℚ), 1 ≤ M → |d| ≤ M → |rnd d - d| ≤ M / 2 ^ 24 + 1 / 2 ^ 150 ∧ |rnd d| ≤ M + M / 2 ^ 24 + 1 / 2 ^ 150 := by
    intro d M _ hdM
    have hr := h.rel d
    have h2 : |rnd d - d| ≤ M / 2 ^ 24 + 1 / 2 ^ 150 := hr.trans (by gcongr)
    refine ⟨h2, ?_⟩
    have := abs_add_le (rnd d - d) d
    rw [sub_add_cancel] at this
    linarith
  -- the computed value
  rcases lt_or_ge x (k + 1) with hlt | hge
  · refine ⟨mix rnd (rnd (at' data k)) (rnd (at' data (k + 1))) (x - k), x / 2047, k, ?_, by positivity, hq1, hq, hk, by rw [hqx]; exact hk0, by rw [hqx]; exact hk1, by rw [hqx]; exact e, ?_⟩
    · rw [hidx]
      unfold interpByIndex
      rw [trunc_cell _ k x hk0 hlt (by omega), R.bind_ok]
      simp only []
      rw [phase_eq h x hxF k hk0 hlt (by omega), blend_eq rnd _ k (by omega), hlm, Nat.mod_eq_of_lt hk, map_at _ _ _ (by omega), map_at _ _ _ (by omega)]
      rfl
    · intro M hM ha hb
      rw [hqx]
      obtain ⟨a1, a2⟩ := near _ M hM ha
      obtain ⟨b1, b2⟩ := near _ M hM hb
      have mc := mix_close h (f32_frac hxF k hk0 hlt) (by linarith) (by linarith) a2 b2
      have t0 : 0 ≤ x - k := by linarith
      have t1 : x - k ≤ 1 := by linarith
      generalize x - (k : ℚ) = t at *
      generalize mix rnd (rnd (at' data k)) (rnd (at' data (k + 1))) t = V at *
      generalize rnd (at' data k) = A at *
      generalize rnd (at' data (k + 1)) = B at *
      generalize at' data k = a at *
      generalize at' data (k + 1) = b at *
      have hl2 : |lerp A B t - lerp a b t| ≤ M / 2 ^ 24 + 1 / 2 ^ 150 := by
        unfold lerp
        have e : A + (B - A) * t - (a + (b - a) * t) = (A - a) * (1 - t) + (B - b) * t := by ring
        rw [e]
        refine (abs_add_le _ _).trans ?_
        rw [abs_mul, abs_mul, abs_of_nonneg t0, abs_of_nonneg (by linarith : 0 ≤ 1 - t)]
        have g1 := mul_le_mul_of_nonneg_right a1 (by linarith : 0 ≤ 1 - t)
        have g2 := mul_le_mul_of_nonneg_right b1 t0
        linarith
      refine (abs_sub_le _ (lerp A B t) _).trans ((add_le_add mc hl2).trans ?_)
      norm_num
      linarith
  · have hxk : x = ((k + 1 : ℕ) : ℚ) := by push_cast; linarith
    refine ⟨rnd (at' data (k + 1)), x / 2047, k, ?_, by positivity, hq1, hq, hk, by rw [hqx]; exact hk0, by rw [hqx]; exact hk1, by rw [hqx]; exact e, ?_⟩
    · rw [hidx, hxk]
      have hB : ∃ B : ℚ, ∀ p ∈ data.map rnd, |p| ≤ B := by
        refine ⟨((data.map rnd).map (fun p => |p|)).sum, fun p hp => ?_⟩
        exact List.single_le_sum (by intro y hy; rw [List.mem_map] at hy; obtain ⟨z, _, rfl⟩ := hy; exact abs_nonneg z) _ (List.mem_map_of_mem hp)
      obtain ⟨B, hB⟩ := hB
      rw [(C147_by_index rnd h (data.map rnd) hd (by rw [hlm]; norm_num) ((k + 1 : ℕ) : ℚ) (hxk ▸ hxF) (k + 1) le_rfl (by push_cast; linarith) B hB).2 (by omega), map_at _ _ _ (by omega)]
    · intro M hM ha hb
      rw [hqx, hxk]
      unfold lerp
      push_cast
      rw [show at' data k + (at' data (k + 1) - at' data k) * ((k : ℚ) + 1 - k) = at' data (k + 1) by ring]
      refine (near _ M hM hb).1.trans ?_
      norm_num
      linarith

/-- Neighbours of the exponential table differ by less than one per cent. -/
theorem exp5_step (i : ℕ) (hi : i + 1 < 2048) : 1 ≤ at' exp5Table i ∧ at' exp5Table i ≤ at' exp5Table (i + 1) ∧ at' exp5Table (i + 1) ≤ 101 / 100 * at' exp5Table i := by
  have h := chk_get (fun a b => decide (1000000 ≤ a) && decide (a ≤ b) && decide (b * 100 ≤ 101 * a)) exp5Data (by decide +kernel) i (by rw [show exp5Data.length = 2048 by decide +kernel]; exact hi)
  rw [Bool.and_eq_true, Bool.and_eq_true, decide_eq_true_eq, decide_eq_true_eq, decide_eq_true_eq] at h
  unfold exp5Table
  rw [tab_at, tab_at]
  obtain ⟨⟨h1, h2⟩, h3⟩ := h
  have h1' : (1000000 : ℚ) ≤ exp5Data.getD i 0 := by exact_mod_cast h1
  have h2' : (exp5Data.getD i 0 : ℚ) ≤ exp5Data.getD (i + 1) 0 := by exact_mod_cast h2
  have h3' : (exp5Data.getD (i + 1) 0 : ℚ) * 100 ≤ 101 * exp5Data.getD i 0 := by exact_mod_cast h3
  refine ⟨?_, ?_, ?_⟩
  · rw [le_div_iff₀ (by norm_num)]; linarith
  · gcongr
  · rw [div_le_iff₀ (by norm_num)]; linarith

/-- A small change of the exponent. -/
theorem pow_shift (s : ℝ) (hs : |s| ≤ 1 / 1000) : |(2 : ℝ) ^ s - 1| ≤ 7 / 10 * |s| := by
  have l0 : 0 < Real.log 2 := Real.log_pos (by norm_num)
  have l1 := Real.log_two_lt_d9
  rw [Real.rpow_def_of_pos (by norm_num)]
  have hy : |Real.log 2 * s| ≤ 0.6931471808 * |s| := by
    rw [abs_mul, abs_of_pos l0]; gcongr
  have hs0 := abs_nonneg s
  have h1 : |Real.log 2 * s| ≤ 1 := by
    have : (0.6931471808 : ℝ) * |s| ≤ 1 := by norm_num; linarith
    linarith
  have := Real.abs_exp_sub_one_sub_id_le h1
  have h2 : (Real.log 2 * s) ^ 2 ≤ 0.001 * |s| := by
    rw [← sq_abs]
    have := abs_nonneg (Real.log 2 * s)
    nlinarith
  have h3 := abs_add_le (Real.exp (Real.log 2 * s) - 1 - Real.log 2 * s) (Real.log 2 * s)
  rw [sub_add_cancel] at h3
  generalize |Real.log 2 * s| = L at *
  norm_num at hy h2 ⊢
  linarith

/-- exp5Table.interp in binary32. -/
theorem exp5_close (rnd : ℚ → ℚ) (h : Nearest rnd) (p : ℚ) (h0 : 0 ≤ p) (h1 : p ≤ 1) :
    ∃ v : ℚ, InterpFloat.interp rnd (exp5R rnd) p = .ok v ∧ |(v : ℝ) - 2 ^ (5 * (p : ℝ))| ≤ 16 / 10 ^ 7 * 2 ^ (5 * (p : ℝ)) := by
  obtain ⟨v, q, k, hv, q0, q1, hqp, hk, hk0, hk1, hw, hM⟩ := interp_near rnd h exp5Table exp5_len p h0 h1
  obtain ⟨w, hw', hb⟩ := (Accuracy.C136_exp_tables q q0 q1).1
  rw [hw] at hw'
  injection hw' with hw'
  obtain ⟨e1, e2, e3⟩ := exp5_step k hk
  have hm := hM (at' exp5Table (k + 1)) (by linarith) (by rw [abs_of_nonneg (by linarith)]; exact e2) (by rw [abs_of_nonneg (by linarith)])
  have hlb : at' exp5Table k ≤ w := by
    rw [← hw']
    unfold lerp
    have : 0 ≤ (at' exp5Table (k + 1) - at' exp5Table k) * (q * 2047 - k) := mul_nonneg (by linarith) (by linarith)
    linarith
  rw [hw'] at hm
  have hvw : |v - w| ≤ 52 / 10 * w / 2 ^ 24 := by
    refine hm.trans ?_
    have : at' exp5Table (k + 1) ≤ 101 / 100 * w := by linarith
    norm_num
    linarith
  have hvwR : |(v : ℝ) - w| ≤ 52 / 10 * w / 2 ^ 24 := by
    have := (Rat.cast_le (K := ℝ)).mpr hvw; push_cast at this; exact this
  have hqpR : |(q : ℝ) - p| ≤ (p : ℝ) / 2 ^ 24 + 1 / 2 ^ 150 := by
    have := (Rat.cast_le (K := ℝ)).mpr hqp; push_cast at this; exact this
  have hp1 : (p : ℝ) ≤ 1 := by exact_mod_cast h1
  have hs : |5 * (q : ℝ) - 5 * p| ≤ 299 / 10 ^ 9 := by
    rw [← mul_sub, abs_mul, abs_of_pos (by norm_num : (0 : ℝ) < 5)]
    norm_num at hqpR ⊢
    linarith
  have sh := pow_shift (5 * (q : ℝ) - 5 * p) (hs.trans (by norm_num))
  have hF : (0 : ℝ) < 2 ^ (5 * (p : ℝ)) := Real.rpow_pos_of_pos (by norm_num) _
  have e : (2 : ℝ) ^ (5 * (q : ℝ)) = 2 ^ (5 * (p : ℝ)) * 2 ^ (5 * (q : ℝ) - 5 * p) := by
    rw [← Real.rpow_add (by norm_num)]; congr 1; ring
  rw [e] at hb
  refine ⟨v, hv, ?_⟩
  generalize (2 : ℝ) ^ (5 * (p : ℝ)) = F at *
  generalize (2 : ℝ) ^ (5 * (q : ℝ) - 5 * p) = g at *
  have hg : |g - 1| ≤ 21 / 10 ^ 8 := sh.trans (by norm_num at hs ⊢; linarith)
  rw [abs_le] at hg hb hvwR ⊢
  have g1 : F * g ≤ F * (1 + 21 / 10 ^ 8) := by gcongr; linarith
  have g2 : F * (1 - 21 / 10 ^ 8) ≤ F * g := by gcongr; linarith
  constructor <;> norm_num at * <;> linarith

/-- A float less one is a float (from 1 up to 2^24). -/
theorem f32_pred {x : ℚ} (hx : F32 x) (h1 : 1 ≤ x) (h2 : x < 2 ^ 24) : F32 (x - 1) := by
  obtain ⟨k, hk0, hk1⟩ := cell x (by linarith)
  obtain ⟨m, e, hm, he, hxe⟩ := hx
  by_cases hneg : 0 ≤ e
  · obtain ⟨j, rfl⟩ := Int.eq_ofNat_of_zero_le hneg
    have hxi : x = ((m * 2 ^ j : ℤ) : ℚ) := by rw [hxe]; push_cast; rw [zpow_natCast]
    rw [hxi] at h1 h2 ⊢
    have a : (1 : ℤ) ≤ m * 2 ^ j := by exact_mod_cast h1
    have b : m * 2 ^ j < (2 : ℤ) ^ 24 := by exact_mod_cast h2
    have := f32_int (m * 2 ^ j - 1) (by rw [abs_of_nonneg (by omega)]; omega)
    push_cast at this ⊢
    exact this
  · obtain ⟨j, hj⟩ : ∃ j : ℕ, e = -(j : ℤ) := ⟨(-e).toNat, by omega⟩
    have hxj : x * 2 ^ j = m := by
      rw [hxe, hj, zpow_neg, zpow_natCast]; field_simp
    have hp : (0 : ℚ) < 2 ^ j := by positivity
    have hm1 : (2 : ℤ) ^ j ≤ m := by
      have : (2 : ℚ) ^ j ≤ m := by rw [← hxj]; nlinarith
      exact_mod_cast this
    have hp' : (0 : ℤ) < 2 ^ j := by positivity
    rw [abs_of_nonneg (by omega)] at hm
    refine ⟨m - 2 ^ j, e, ?_, he, ?_⟩
    · rw [abs_of_nonneg (by omega)]; omega
    · rw [hxe, hj, zpow_neg, zpow_natCast]; push_cast; field_simp

/-- The loop of `pow2` in binary32. -/
theorem pow2Loop_eq (rnd : ℚ → ℚ) (h : Nearest rnd) (e : ℚ) (he : F32 e) : ∀ (n : ℕ) (x : ℚ) (j : ℕ), F32 x → (n : ℚ) ≤ x → x < n + 1 → x < 2 ^ 24 → InterpFloat.interp rnd (exp5R rnd) (x - n) = .ok e →
    ∀ fuel, n < fuel → pow2Loop rnd fuel x (2 ^ j) = some (.ok (2 ^ j * 32 ^ n * e)) := by
  intro n
  induction n with
  | zero =>
    intro x j hx h0 h1 h2 hi fuel hf
    obtain ⟨f, rfl⟩ : ∃ f, fuel = f + 1 := ⟨fuel - 1, by omega⟩
    rw [pow2Loop, if_pos (by push_cast at h1; linarith)]
    rw [Nat.cast_zero, sub_zero] at hi
    rw [hi, R.bind_ok]
    have : F32 (2 ^ j * e) := by rw [mul_comm]; exact f32_scale he j
    rw [h.fix this, pow_zero, mul_one]
  | succ n ih =>
    intro x j hx h0 h1 h2 hi fuel hf
    obtain ⟨f, rfl⟩ : ∃ f, fuel = f + 1 := ⟨fuel - 1, by omega⟩
    push_cast at h0 h1
    have hn : (0 : ℚ) ≤ n := Nat.cast_nonneg _
    rw [pow2Loop, if_neg (by linarith)]
    have hp := f32_pred hx (by linarith) h2
    rw [h.fix hp, show (2 : ℚ) ^ j * 32 = 2 ^ (j + 5) by rw [pow_add]; norm_num, h.fix (f32_pow2 _)]
    rw [ih (x - 1) (j + 5) hp (by linarith) (by linarith) (by linarith) (by rw [← hi]; congr 1; push_cast; ring) f (by omega)]
    congr 2
    rw [pow_add, pow_succ (32 : ℚ) n, show (2 : ℚ) ^ 5 = 32 by norm_num]
    ring

theorem interp_f32 (rnd : ℚ → ℚ) (h : Nearest rnd) (data : List ℚ) (p v : ℚ) (hv : InterpFloat.interp rnd data p = .ok v) : F32 v := by
  unfold InterpFloat.interp interpByIndex InterpFloat.blend at hv
  generalize rnd (p * rnd (((data.length - 1 : ℕ) : ℕ) : ℚ)) = x at hv
  cases ht : Color.trunc 4294967296 x with
  | ub => rw [ht] at hv; exact absurd hv (by simp)
  | ok i =>
    rw [ht, R.bind_ok] at hv
    simp only [] at hv
    generalize (if i = data.length - 1 then 0 else i + 1) = j at hv
    cases g1 : arrGet data j with
    | ub => rw [g1] at hv; exact absurd hv (by simp)
    | ok d1 =>
      rw [g1, R.bind_ok] at hv
      cases g0 : arrGet data i with
      | ub => rw [g0] at hv; exact absurd hv (by simp)
      | ok d0 =>
        rw [g0, R.bind_ok] at hv
        injection hv with hv
        rw [← hv]
        exact h.f32 _

/-- **C159**: in binary32 pow2(x) ends after at most x/5 + 2 turns and is within 1.7 millionths plus 4.3e-8 x, relatively, of 2^x, for every float x from 0 to 127. -/
theorem C159_pow2 (rnd : ℚ → ℚ) (h : Nearest rnd) (x : ℚ) (h0 : 0 ≤ x) (h1 : x ≤ 127) :
    ∃ v : ℚ, (∀ fuel : ℕ, x / 5 + 2 ≤ fuel → pow2 rnd fuel x = some (.ok v)) ∧ |(v : ℝ) - 2 ^ (x : ℝ)| ≤ (17 / 10 ^ 7 + 43 / 10 ^ 9 * x) * 2 ^ (x : ℝ) := by
  have hz0 : 0 ≤ x / 5 := by positivity
  have hzr := h.rel (x / 5)
  rw [abs_of_nonneg hz0] at hzr
  obtain ⟨z, hz⟩ : ∃ z, z = rnd (x / 5) := ⟨_, rfl⟩
  have hzF : F32 z := by rw [hz]; exact h.f32 _
  have hzn : 0 ≤ z := by rw [hz]; exact h.ge f32_zero hz0
  rw [← hz] at hzr
  obtain ⟨k, hk0, hk1⟩ := cell z hzn
  have hzu : z ≤ x / 5 + x / 5 / 2 ^ 24 + 1 / 2 ^ 150 := by have := (abs_le.mp hzr).2; linarith
  have hz30 : z ≤ 30 := by norm_num at hzu; linarith
  obtain ⟨e, he, hb⟩ := exp5_close rnd h (z - k) (by linarith) (by linarith)
  have hl := pow2Loop_eq rnd h e (interp_f32 rnd h _ _ _ he) k z 0 hzF hk0 hk1 (by norm_num; linarith) he
  refine ⟨32 ^ k * e, fun fuel hf => ?_, ?_⟩
  · have : (k : ℚ) < fuel := by norm_num at hzu; linarith
    have := hl fuel (by exact_mod_cast this)
    rw [pow_zero, one_mul] at this
    unfold pow2
    rw [← hz]; exact this
  · have hs : |5 * (z : ℝ) - x| ≤ (x : ℝ) / 2 ^ 24 + 5 / 2 ^ 150 := by
      have h5 : |5 * z - x| ≤ x / 2 ^ 24 + 5 / 2 ^ 150 := by
        have e : 5 * z - x = 5 * (z - x / 5) := by ring
        rw [e, abs_mul, abs_of_pos (by norm_num : (0 : ℚ) < 5)]
        linarith
      have := (Rat.cast_le (K := ℝ)).mpr h5; push_cast at this; exact this
    have hx0 : (0 : ℝ) ≤ x := by exact_mod_cast h0
    have hx1 : (x : ℝ) ≤ 127 := by exact_mod_cast h1
    have sh := pow_shift (5 * (z : ℝ) - x) (hs.trans (by norm_num; linarith))
    have hF : (0 : ℝ) < 2 ^ (x : ℝ) := Real.rpow_pos_of_pos (by norm_num) _
    have e1 : (32 : ℝ) ^ k * 2 ^ (5 * ((z - k : ℚ) : ℝ)) = 2 ^ (x : ℝ) * 2 ^ (5 * (z : ℝ) - x) := by
      rw [← Real.rpow_add (by norm_num), show (x : ℝ) + (5 * z - x) = ((5 * k : ℕ) : ℝ) + 5 * ((z - k : ℚ) : ℝ) by push_cast; ring, Real.rpow_add (by norm_num), Real.rpow_natCast, pow_mul]
      norm_num
    have hb' : |(32 : ℝ) ^ k * e - 32 ^ k * 2 ^ (5 * ((z - k : ℚ) : ℝ))| ≤ 16 / 10 ^ 7 * (32 ^ k * 2 ^ (5 * ((z - k : ℚ) : ℝ))) := by
      rw [← mul_sub, abs_mul, abs_of_pos (by positivity : (0 : ℝ) < 32 ^ k)]
      calc _ ≤ (32 : ℝ) ^ k * (16 / 10 ^ 7 * 2 ^ (5 * ((z - k : ℚ) : ℝ))) := by gcongr
        _ = _ := by ring
    rw [e1] at hb'
    push_cast
    generalize (32 : ℝ) ^ k * e = V at *
    generalize (2 : ℝ) ^ (x : ℝ) = F at *
    generalize (2 : ℝ) ^ (5 * (z : ℝ) - x) = g at *
    have hg : |g - 1| ≤ 418 / 10 ^ 10 * x + 1 / 10 ^ 12 := sh.trans (by norm_num at hs ⊢; linarith)
    rw [abs_le] at hg hb' ⊢
    have g1 : F * g ≤ F * (1 + (418 / 10 ^ 10 * x + 1 / 10 ^ 12)) := by gcongr; linarith
    have g2 : F * (1 - (418 / 10 ^ 10 * x + 1 / 10 ^ 12)) ≤ F * g := by gcongr; linarith
    have hFx : 0 ≤ F * x := by positivity
    have g3 : F * x ≤ F * 127 := by gcongr
    constructor <;> norm_num at * <;> nlinarith

/-- **C159**: in binary32 setPitchMultiple(v) is within 1.7 millionths, relatively, of 2^(5 v) for every float v in [-1, 1]. -/
theorem C159_pitch (rnd : ℚ → ℚ) (h : Nearest rnd) (v : ℚ) (hv : F32 v) (h0 : -1 ≤ v) (h1 : v ≤ 1) :
    ∃ m : ℚ, setPitchMultiple rnd v = .ok m ∧ |(m : ℝ) - 2 ^ (5 * (v : ℝ))| ≤ 17 / 10 ^ 7 * 2 ^ (5 * (v : ℝ)) := by
  by_cases hv0 : 0 ≤ v
  · obtain ⟨m, hm, hb⟩ := exp5_close rnd h v hv0 h1
    refine ⟨m, ?_, hb.trans (mul_le_mul_of_nonneg_right (by norm_num) (Real.rpow_pos_of_pos (by norm_num) _).le)⟩
    unfold setPitchMultiple constrain
    rw [if_pos hv0, if_neg (by linarith), if_neg (by linarith)]
    exact hm
  · rw [not_le] at hv0
    obtain ⟨m, hm, hb⟩ := exp5_close rnd h (-v) (by linarith) (by linarith)
    have hpos : (0 : ℝ) < 2 ^ (5 * (v : ℝ)) := Real.rpow_pos_of_pos (by norm_num) _
    have hinv : (2 : ℝ) ^ (5 * ((-v : ℚ) : ℝ)) = (2 ^ (5 * (v : ℝ)))⁻¹ := by
      rw [← Real.rpow_neg (by norm_num)]; push_cast; congr 1; ring
    have hup : (2 : ℝ) ^ (5 * ((-v : ℚ) : ℝ)) ≤ 32 := by
      have hv1 : 5 * ((-v : ℚ) : ℝ) ≤ ((5 : ℕ) : ℝ) := by
        have : (-v : ℚ) ≤ 1 := by linarith
        have : ((-v : ℚ) : ℝ) ≤ 1 := by exact_mod_cast this
        push_cast at this ⊢; linarith
      refine (Real.rpow_le_rpow_of_exponent_le (by norm_num) hv1).trans ?_
      rw [Real.rpow_natCast]; norm_num
    rw [hinv] at hb hup
    generalize (2 : ℝ) ^ (5 * (v : ℝ)) = F at hpos hb hup ⊢
    have hF : 0 < F⁻¹ := inv_pos.mpr hpos
    rw [abs_le] at hb
    have hm0 : (0 : ℝ) < m := by norm_num at hb; linarith [hb.1]
    have hm0' : 0 < m := by exact_mod_cast hm0
    have hm33 : m ≤ 33 := by
      have : (m : ℝ) ≤ 33 := by norm_num at hb; linarith [hb.2]
      exact_mod_cast this
    have hm1 : m ≠ 0 := hm0'.ne'
    have hq : (1 : ℚ) / 33 ≤ 1 / m := one_div_le_one_div_of_le hm0' hm33
    have hq0 : 0 < 1 / m := by positivity
    have hrel := h.rel_normal (1 / m) (by rw [abs_of_pos hq0]; refine le_trans ?_ hq; norm_num)
    rw [abs_of_pos hq0] at hrel
    refine ⟨rnd (1 / m), ?_, ?_⟩
    · unfold setPitchMultiple constrain
      rw [if_neg (by linarith), show v * (-1) = -v by ring, h.fix (f32_neg hv)]
      simp only []
      rw [if_neg (by linarith : ¬ -v < 0), if_neg (by linarith : ¬ -v > 1), hm]
      simp [hm1]
    · have hrelR : |((rnd (1 / m) : ℚ) : ℝ) - 1 / (m : ℝ)| ≤ 1 / (m : ℝ) / 2 ^ 24 := by
        have := (Rat.cast_le (K := ℝ)).mpr hrel; push_cast at this; exact this
      have hmain : |1 / (m : ℝ) - F| ≤ 161 / 10 ^ 8 * F := by
        have e : 1 / (m : ℝ) - F = (F⁻¹ - m) * F / m := by field_simp
        rw [e, abs_div, abs_mul, abs_of_pos hpos, abs_of_pos hm0, div_le_iff₀ hm0]
        have : |F⁻¹ - (m : ℝ)| ≤ 161 / 10 ^ 8 * m := by
          rw [abs_le]; constructor <;> norm_num at hb ⊢ <;> linarith [hb.1, hb.2]
        nlinarith
      generalize 1 / (m : ℝ) = Q at *
      generalize ((rnd (1 / m) : ℚ) : ℝ) = W at *
      rw [abs_le] at *
      constructor <;> norm_num at * <;> linarith [hrelR.1, hrelR.2, hmain.1, hmain.2]

/-- **C160**: in binary32 audioFreqToNorm(x) approximates log(x/20)/log(1000) for every float frequency from 20 to 20000. The error is at most 2.8 millionths plus 1.73 / g^2, g being the larger of 20 and x - 9.78. -/
theorem C160_freq (rnd : ℚ → ℚ) (h : Nearest rnd) (x : ℚ) (hx : F32 x) (h0 : 20 ≤ x) (h1 : x ≤ 20000) (g : ℝ) (hg0 : 0 < g) (hg : g ≤ 20 ∨ g ≤ (x : ℝ) - 9.78) :
    ∃ v : ℚ, audioFreqToNorm rnd x = .ok v ∧ |(v : ℝ) - Real.log (x / 20) / Real.log 1000| ≤ 1.73 / g ^ 2 + 28 / 10 ^ 7 := by
  have f20 : F32 (20 : ℚ) := by have := f32_int 20 (by norm_num); exact_mod_cast this
  have f19980 : F32 (19980 : ℚ) := by have := f32_int 19980 (by norm_num); exact_mod_cast this
  have hc : constrain x 20 20000 = x := by unfold constrain; rw [if_neg (by linarith), if_neg (by linarith)]
  -- the argument of the table
  obtain ⟨a, ha⟩ : ∃ a, a = rnd (x - 20) := ⟨_, rfl⟩
  have ha0 : 0 ≤ a := by rw [ha]; exact h.ge f32_zero (by linarith)
  have ha1 : a ≤ 19980 := by rw [ha]; exact h.le f19980 (by linarith)
  have har := h.sub_rel hx f20
  rw [← ha, abs_of_nonneg (by linarith : 0 ≤ x - 20)] at har
  obtain ⟨p, hp⟩ : ∃ p, p = rnd (a / 19980) := ⟨_, rfl⟩
  have hq0 : 0 ≤ a / 19980 := by positivity
  have hp0 : 0 ≤ p := by rw [hp]; exact h.ge f32_zero hq0
  have hp1 : p ≤ 1 := by rw [hp]; exact h.le f32_one (by rw [div_le_one (by norm_num)]; exact ha1)
  have hpr := h.rel (a / 19980)
  rw [← hp, abs_of_nonneg hq0] at hpr
  have hm : MathFloat.mapValue rnd x 20 20000 0 1 = p := by
    unfold MathFloat.mapValue
    rw [← ha, sub_zero, h.fix f32_one, mul_one, show rnd a = a by rw [ha]; exact h.fix (h.f32 _), show (20000 : ℚ) - 20 = 19980 by norm_num, h.fix f19980, ← hp, add_zero]
    rw [hp]; exact h.fix (h.f32 _)
  obtain ⟨t, q, k, ht, q0, q1, hqp, hk, hk0, hk1, hw, hM⟩ := interp_near rnd h logTable log_len p hp0 hp1
  obtain ⟨w, hwd⟩ : ∃ w, w = lerp (at' logTable k) (at' logTable (k + 1)) (q * 2047 - k) := ⟨_, rfl⟩
  rw [← hwd] at hw hM
  -- the frequency the table is read at
  obtain ⟨y, hy⟩ : ∃ y, y = 20 + 19980 * q := ⟨_, rfl⟩
  have hy0 : 20 ≤ y := by rw [hy]; linarith
  have hy1 : y ≤ 20000 := by rw [hy]; linarith
  have hyx : |y - x| ≤ 31 / 10 * x / 2 ^ 24 := by
    have e : y - x = 19980 * (q - p) + 19980 * (p - a / 19980) + (a - (x - 20)) := by rw [hy]; ring
    rw [e]
    have i1 := abs_add_le (19980 * (q - p) + 19980 * (p - a / 19980)) (a - (x - 20))
    have i2 := abs_add_le (19980 * (q - p)) (19980 * (p - a / 19980))
    rw [abs_mul, abs_mul, abs_of_pos (by norm_num : (0 : ℚ) < 19980)] at i2
    have hau : a ≤ (x - 20) + (x - 20) / 2 ^ 24 := by have := (abs_le.mp har).2; linarith
    have hpu : p ≤ a / 19980 + a / 19980 / 2 ^ 24 + 1 / 2 ^ 150 := by have := (abs_le.mp hpr).2; linarith
    generalize |q - p| = A at *
    generalize |p - a / 19980| = B at *
    generalize |a - (x - 20)| = C at *
    norm_num at *
    linarith
  have hyxR : |(y : ℝ) - x| ≤ 31 / 10 * x / 2 ^ 24 := by
    have := (Rat.cast_le (K := ℝ)).mpr hyx; push_cast at this; exact this
  have hx20 : (20 : ℝ) ≤ x := by exact_mod_cast h0
  have hx2 : (x : ℝ) ≤ 20000 := by exact_mod_cast h1
  have hy20 : (20 : ℝ) ≤ y := by exact_mod_cast hy0
  have hgy : g ≤ 20 ∨ g ≤ (y : ℝ) - 9.77 := by
    rcases hg with hg | hg
    · exact Or.inl hg
    · right
      have := (abs_le.mp hyxR).1
      norm_num at this hg ⊢
      linarith
  obtain ⟨u, hu, hub⟩ := Accuracy.C137_freq y hy0 hy1 g hg0 hgy
  have huw : u = (w - 299573 / 100000) / (690776 / 100000) := by
    have hc' : constrain y 20 20000 = y := by unfold constrain; rw [if_neg (by linarith), if_neg (by linarith)]
    have hm' : RatMath.mapValue y 20 20000 0 1 = q := by rw [hy]; unfold RatMath.mapValue; norm_num
    unfold MathFns.audioFreqToNorm at hu
    rw [hc'] at hu
    simp only [] at hu
    rw [hm', hw, R.bind_ok] at hu
    injection hu with hu
    exact hu.symm
  -- the result
  have lo : ∀ i, i < 2048 → 2995732 / 1000000 ≤ at' logTable i ∧ at' logTable i ≤ 9903487 / 1000000 := by
    intro i hi
    constructor
    · rcases Nat.eq_zero_or_pos i with h | h
      · rw [h, log_ends.1]
      · have := log_strict 0 i h (by rw [log_len]; exact hi)
        rw [log_ends.1] at this; exact this.le
    · rcases Nat.lt_or_ge i 2047 with h | h
      · have := log_strict i 2047 h (by rw [log_len]; norm_num)
        rw [log_ends.2] at this; exact this.le
      · rw [show i = 2047 by omega, log_ends.2]
  obtain ⟨l1, l2⟩ := lo k (by omega)
  obtain ⟨l3, l4⟩ := lo (k + 1) hk
  have htw := hM (9903487 / 1000000) (by norm_num) (by rw [abs_of_nonneg (by linarith)]; exact l2) (by rw [abs_of_nonneg (by linarith)]; exact l4)
  have hw01 : 2995732 / 1000000 ≤ w ∧ w ≤ 9903487 / 1000000 := by
    rw [hwd]; unfold lerp
    have t0 : 0 ≤ q * 2047 - k := by linarith
    have t1 : q * 2047 - k ≤ 1 := by linarith
    generalize q * 2047 - (k : ℚ) = s at *
    constructor <;> nlinarith
  have c1 := h.rel_normal (299573 / 100000) (by norm_num)
  have c2 := h.rel_normal (690776 / 100000) (by norm_num)
  rw [abs_of_pos (by norm_num : (0 : ℚ) < 299573 / 100000)] at c1
  rw [abs_of_pos (by norm_num : (0 : ℚ) < 690776 / 100000)] at c2
  refine ⟨rnd (rnd (t - rnd (299573 / 100000)) / rnd (690776 / 100000)), ?_, ?_⟩
  · unfold audioFreqToNorm
    rw [hc]
    simp only []
    rw [hm]
    unfold logR
    rw [ht, R.bind_ok]
  · have key : |rnd (rnd (t - rnd (299573 / 100000)) / rnd (690776 / 100000)) - u| ≤ 7 / 10 ^ 7 := by
      rw [huw]
      have d1 := h.sub_rel (interp_f32 rnd h _ _ _ ht) (h.f32 (299573 / 100000))
      generalize rnd (299573 / 100000) = C at *
      generalize rnd (690776 / 100000) = D at *
      have hD : 69 / 10 ≤ D ∧ D ≤ 691 / 100 := by rw [abs_le] at c2; norm_num at c2; constructor <;> linarith [c2.1, c2.2]
      have htC : |t - C| ≤ 691 / 100 := by
        rw [abs_le] at htw c1 ⊢; norm_num at htw c1; constructor <;> linarith [c1.1, c1.2, htw.1, htw.2, hw01.1, hw01.2]
      generalize hs : rnd (t - C) = S at *
      have hS : |S - (w - 299573 / 100000)| ≤ 624 / 10 / 2 ^ 24 := by
        have hd1 : |S - (t - C)| ≤ 691 / 100 / 2 ^ 24 := d1.trans (by gcongr)
        rw [abs_le] at hd1 htw c1 ⊢
        norm_num at hd1 htw c1 ⊢
        constructor <;> linarith [hd1.1, hd1.2, c1.1, c1.2, htw.1, htw.2]
      have hSb : |S| ≤ 692 / 100 := by
        rw [abs_le] at hS ⊢
        norm_num at hS
        constructor <;> linarith [hS.1, hS.2, hw01.1, hw01.2]
      have hD0 : 0 < D := by linarith
      have hSD : |S / D| ≤ 101 / 100 := by
        rw [abs_div, abs_of_pos hD0, div_le_iff₀ hD0]; linarith
      have hr := h.rel (S / D)
      have hSDu : |S / D - (w - 299573 / 100000) / (690776 / 100000)| ≤ 103 / 10 / 2 ^ 24 := by
        have e : S / D - (w - 299573 / 100000) / (690776 / 100000) = ((S - (w - 299573 / 100000)) - S / D * (D - 690776 / 100000)) / (690776 / 100000) := by
          field_simp; ring
        rw [e, abs_div, abs_of_pos (by norm_num : (0 : ℚ) < 690776 / 100000), div_le_iff₀ (by norm_num)]
        have i1 := abs_sub (S - (w - 299573 / 100000)) (S / D * (D - 690776 / 100000))
        rw [abs_mul] at i1
        have i2 : |S / D| * |D - 690776 / 100000| ≤ 101 / 100 * (690776 / 100000 / 2 ^ 24) := mul_le_mul hSD c2 (abs_nonneg _) (by norm_num)
        norm_num at *
        linarith
      have := abs_sub_le (rnd (S / D)) (S / D) ((w - 299573 / 100000) / (690776 / 100000))
      norm_num at *
      linarith
    have keyR : |((rnd (rnd (t - rnd (299573 / 100000)) / rnd (690776 / 100000)) : ℚ) : ℝ) - u| ≤ 7 / 10 ^ 7 := by
      have := (Rat.cast_le (K := ℝ)).mpr key; push_cast at this ⊢; exact this
    -- from y to x
    have hlog : |Real.log (y / 20) / Real.log 1000 - Real.log (x / 20) / Real.log 1000| ≤ 1 / 10 ^ 7 := by
      have hl1000 : 6 ≤ Real.log 1000 := by
        have l2 := Real.log_two_gt_d9
        have : Real.log ((2 : ℝ) ^ 9) ≤ Real.log 1000 := Real.log_le_log (by norm_num) (by norm_num)
        rw [Real.log_pow] at this
        norm_num at this l2 ⊢
        linarith
      rw [← sub_div, abs_div, abs_of_pos (by linarith : 0 < Real.log 1000), div_le_iff₀ (by linarith)]
      have hx0 : (0 : ℝ) < x := by linarith
      have hy00 : (0 : ℝ) < y := by linarith
      rw [← Real.log_div (by positivity) (by positivity), show (y : ℝ) / 20 / ((x : ℝ) / 20) = y / x by field_simp]
      have hrat : |(y : ℝ) / x - 1| ≤ 31 / 10 / 2 ^ 24 := by
        rw [show (y : ℝ) / x - 1 = (y - x) / x by field_simp, abs_div, abs_of_pos hx0, div_le_iff₀ hx0]
        linarith
      have hr0 : (0 : ℝ) < y / x := by positivity
      have u1 := Real.log_le_sub_one_of_pos hr0
      have u2 := Real.one_sub_inv_le_log_of_pos hr0
      generalize (y : ℝ) / x = r at *
      rw [abs_le] at hrat
      have hri : r⁻¹ ≤ 1 + 4 / 2 ^ 24 := by
        rw [inv_le_iff_one_le_mul₀ hr0]
        norm_num at hrat ⊢
        nlinarith [hrat.1]
      rw [abs_le]
      norm_num at *
      constructor <;> linarith [hrat.1, hrat.2]
    have i1 := abs_sub_le (((rnd (rnd (t - rnd (299573 / 100000)) / rnd (690776 / 100000)) : ℚ) : ℝ)) (u : ℝ) (Real.log (x / 20) / Real.log 1000)
    have i2 := abs_sub_le (u : ℝ) (Real.log (y / 20) / Real.log 1000) (Real.log (x / 20) / Real.log 1000)
    have : (7 : ℝ) / 10 ^ 7 + 2 / 10 ^ 6 + 1 / 10 ^ 7 = 28 / 10 ^ 7 := by norm_num
    linarith

-- 440 Hz: g = 400
example (rnd : ℚ → ℚ) (h : Nearest rnd) : ∃ v : ℚ, audioFreqToNorm rnd 440 = .ok v ∧ |(v : ℝ) - Real.log ((440 : ℚ) / 20) / Real.log 1000| ≤ 1.73 / 400 ^ 2 + 28 / 10 ^ 7 :=
  C160_freq rnd h 440 (by have := f32_int 440 (by norm_num); exact_mod_cast this) (by norm_num) (by norm_num) 400 (by norm_num) (Or.inr (by norm_num))

-- two octaves and a half, and half of the range downwards
example (rnd : ℚ → ℚ) (h : Nearest rnd) : (∃ v : ℚ, pow2 rnd 3 (5 / 2) = some (.ok v) ∧ |(v : ℝ) - 2 ^ ((5 / 2 : ℚ) : ℝ)| ≤ 2 / 10 ^ 6 * 2 ^ ((5 / 2 : ℚ) : ℝ)) ∧ ∃ m : ℚ, setPitchMultiple rnd (-1 / 2) = .ok m := by
  constructor
  · obtain ⟨v, h1, h2⟩ := C159_pow2 rnd h (5 / 2) (by norm_num) (by norm_num)
    refine ⟨v, h1 3 (by norm_num), h2.trans (mul_le_mul_of_nonneg_right (by norm_num) (Real.rpow_pos_of_pos (by norm_num) _).le)⟩
  · obtain ⟨m, hm, _⟩ := C159_pitch rnd h (-1 / 2) (by have := f32_div (-1) (by norm_num) 1 (by norm_num); norm_num at this ⊢; exact this) (by norm_num) (by norm_num)
    exact ⟨m, hm⟩

end ExpFloat
