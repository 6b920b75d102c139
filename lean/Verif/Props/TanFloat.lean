import Verif.Model.ExpFloat
import Verif.Props.AccuracyTan
import Verif.Props.AccuracyFloat
import Verif.Props.InterpFloat
/-!
# cos_close, tan and tan_close in binary32
-/

namespace ExpFloat
open Flt Interp InterpArray Interp.Spec MathTables MathFns InterpFloat Tables

attribute [local irreducible] sinTable exp5Table logTable tanTable

/-- The wrapped look-up at a float phase: the exact index and the entries around it. -/
theorem wrap_cell (rnd : ℚ → ℚ) (h : Nearest rnd) (data : List ℚ) (hl : data.length = 2048) (p : ℚ) (hp : F32 p) (h0 : 0 ≤ p) (h1 : p < 2 ^ 21) :
    ∃ k : ℕ, (k : ℚ) ≤ p * 2048 ∧ p * 2048 < k + 1 ∧ k < 2 ^ 32 ∧ F32 (p * 2048 - k) ∧
      InterpFloat.interpWrap rnd (data.map rnd) p = .ok (mix rnd (rnd (at' data (k % 2048))) (rnd (at' data ((k + 1) % 2048))) (p * 2048 - k)) ∧
      InterpFloat.closestWrap rnd (data.map rnd) p = .ok (rnd (at' data (k % 2048))) := by
  obtain ⟨k, hk0, hk1⟩ := cell (p * 2048) (by positivity)
  have hk2 : k < 4294967296 := by
    have h1' : p < 2097152 := by norm_num at h1; exact h1
    have : (k : ℚ) < 4294967296 := by linarith
    exact_mod_cast this
  have hlm : (data.map rnd).length = 2048 := by rw [List.length_map, hl]
  have h2048 : rnd 2048 = 2048 := by have := f32_int 2048 (by norm_num); exact h.fix (by exact_mod_cast this)
  have hF : F32 (p * 2048) := by have := f32_scale hp 11; norm_num at this; exact this
  have hidx : rnd (p * 2048) = p * 2048 := h.fix hF
  have hfr := AccuracyFloat.f32_frac hF k hk0 hk1
  have m1 : k % 2048 < data.length := by rw [hl]; exact Nat.mod_lt _ (by norm_num)
  have m2 : (k + 1) % 2048 < data.length := by rw [hl]; exact Nat.mod_lt _ (by norm_num)
  refine ⟨k, hk0, hk1, by omega, hfr.2, ?_, ?_⟩
  · unfold InterpFloat.interpWrap InterpFloat.interpByIndexWrap
    rw [hlm]
    push_cast
    rw [h2048, hidx, trunc_cell _ k _ hk0 hk1 hk2, R.bind_ok]
    rw [h.fix hfr.1, h.fix hfr.2, InterpArray.wrapIdx_eq _ (by norm_num), blend_eq rnd _ _ (by rw [hlm]; exact Nat.mod_lt _ (by norm_num)), hlm, Nat.mod_add_mod, AccuracyFloat.map_at _ _ _ m1, AccuracyFloat.map_at _ _ _ m2]
    rfl
  · unfold InterpFloat.closestWrap
    rw [hlm]
    push_cast
    rw [h2048, hidx, trunc_cell _ k _ hk0 hk1 hk2, R.bind_ok, InterpArray.wrapIdx_eq _ (by norm_num), get_at _ _ (by rw [hlm]; exact Nat.mod_lt _ (by norm_num)), AccuracyFloat.map_at _ _ _ m1]

/-- **C161**: in binary32 cos_close(x) is within 3.08 thousandths plus 1.5e-7 x of the real cosine, for every x from 0 to ten million. -/
theorem C161_cos_close (rnd : ℚ → ℚ) (h : Nearest rnd) (x : ℚ) (h0 : 0 ≤ x) (h1 : x ≤ 10 ^ 7) :
    ∃ v : ℚ, cosClose rnd x = .ok v ∧ |(v : ℝ) - Real.cos x| ≤ 308 / 10 ^ 5 + 15 / 10 ^ 8 * x := by
  have hp := pif_pos
  have hp3 : (3.14 : ℚ) ≤ pif := by unfold pif; norm_num
  have hq0 : 0 ≤ x / (2 * pif) := by positivity
  have hq1 : x / (2 * pif) ≤ x / 6.28 := by apply div_le_div_of_nonneg_left h0 (by norm_num); linarith
  obtain ⟨he, hr0, -⟩ := AccuracyFloat.rnd_err rnd (.inr h) (x / (2 * pif)) hq0
  have hr1 : rnd (x / (2 * pif)) ≤ x / 6.28 * (1 + 1 / 2 ^ 24) + 1 / 2 ^ 25 := by
    rw [abs_le] at he
    have : x / (2 * pif) / 2 ^ 24 ≤ x / 6.28 / 2 ^ 24 := by gcongr
    linarith [he.2]
  obtain ⟨he2, hr2, hF⟩ := AccuracyFloat.rnd_err rnd (.inr h) (rnd (x / (2 * pif)) + 1 / 4) (by linarith)
  have hlt : rnd (rnd (x / (2 * pif)) + 1 / 4) < 2 ^ 21 := by
    rw [abs_le] at he2
    norm_num at he2 h1 hr1 ⊢
    linarith [he2.2]
  obtain ⟨k, hk0, hk1, hk2, -, -, ev⟩ := wrap_cell rnd h sinTable sin_len _ (hF h) hr2 hlt
  refine ⟨_, by unfold cosClose sinR; rw [AccuracyFloat.rnd_pif2 rnd (.inr h)]; exact ev, ?_⟩
  -- the entry
  have ent : |((rnd (at' sinTable (k % 2048)) : ℚ) : ℝ) - Real.sin (2 * Real.pi * (k / 2048))| ≤ 25 / 10 ^ 7 := by
    obtain ⟨w, hw, hb⟩ := Accuracy.C135_sin01 ((k : ℚ) / 2048) (by positivity) (by
      have : (k : ℚ) < 4294967296 := by exact_mod_cast hk2
      rw [div_lt_iff₀ (by norm_num)]; exact lt_of_lt_of_eq this (by norm_num))
    have hcast : (k : ℚ) / 2048 * (sinTable.length : ℚ) = k := by rw [sin_len]; push_cast; field_simp
    have e := (C101_wrap_index sinTable sin_ne ((k : ℚ) / 2048 * sinTable.length) k (by rw [hcast]) (by rw [hcast]; linarith) (by omega) _ _ rfl rfl).1
    have : w = at' sinTable (k % 2048) := by
      unfold MathFns.sin01 InterpArray.interpWrap at hw
      rw [e, hcast, sub_self, sin_len] at hw
      injection hw with hw
      rw [← hw]; unfold lerp; ring
    rw [this] at hb
    push_cast at hb
    obtain ⟨b1, b2⟩ := sin_bound (k % 2048)
    have hr := AccuracyFloat.round_within rnd h 0 (at' sinTable (k % 2048)) (by rw [pow_zero]; exact abs_le.mpr ⟨b1, b2⟩)
    have hr' := (Rat.cast_le (K := ℝ)).mpr hr
    push_cast at hr'
    have t := abs_sub_le ((rnd (at' sinTable (k % 2048)) : ℚ) : ℝ) ((at' sinTable (k % 2048) : ℚ) : ℝ) (Real.sin (2 * Real.pi * (k / 2048)))
    refine t.trans ((add_le_add hr' hb).trans ?_)
    norm_num
  have hx0 : (0 : ℝ) ≤ x := by exact_mod_cast h0
  have t := Accuracy.turns_near x hx0
  have heR : |((rnd (x / (2 * pif)) : ℚ) : ℝ) - (x : ℝ) / (2 * (pif : ℝ))| ≤ (x : ℝ) / 6.28 / 2 ^ 24 + 1 / 2 ^ 25 := by
    have : |rnd (x / (2 * pif)) - x / (2 * pif)| ≤ x / 6.28 / 2 ^ 24 + 1 / 2 ^ 25 := he.trans (by gcongr)
    have := (Rat.cast_le (K := ℝ)).mpr this
    push_cast at this
    exact this
  have he2R : |((rnd (rnd (x / (2 * pif)) + 1 / 4) : ℚ) : ℝ) - (((rnd (x / (2 * pif)) : ℚ) : ℝ) + 1 / 4)| ≤ ((x : ℝ) / 6.28 * (1 + 1 / 2 ^ 24) + 1 / 2 ^ 25 + 1 / 4) / 2 ^ 24 + 1 / 2 ^ 25 := by
    have : |rnd (rnd (x / (2 * pif)) + 1 / 4) - (rnd (x / (2 * pif)) + 1 / 4)| ≤ (x / 6.28 * (1 + 1 / 2 ^ 24) + 1 / 2 ^ 25 + 1 / 4) / 2 ^ 24 + 1 / 2 ^ 25 := he2.trans (by gcongr)
    have := (Rat.cast_le (K := ℝ)).mpr this
    push_cast at this
    exact this
  have hkR : |(k : ℝ) / 2048 - ((rnd (rnd (x / (2 * pif)) + 1 / 4) : ℚ) : ℝ)| ≤ 1 / 2048 := by
    have : |(k : ℚ) / 2048 - rnd (rnd (x / (2 * pif)) + 1 / 4)| ≤ 1 / 2048 := by rw [abs_le]; constructor <;> linarith
    have := (Rat.cast_le (K := ℝ)).mpr this
    push_cast at this
    exact this
  generalize ((rnd (rnd (x / (2 * pif)) + 1 / 4) : ℚ) : ℝ) = r at *
  generalize ((rnd (x / (2 * pif)) : ℚ) : ℝ) = q at *
  generalize (k : ℝ) / 2048 = s at *
  have pu := Real.pi_lt_d6
  have hpi := Real.pi_pos
  have ang : |2 * Real.pi * s - (x + Real.pi / 2)| ≤ 30681 / 10 ^ 7 + 12 / 10 ^ 8 * x + 48 / 10 ^ 8 + 3 / 10 ^ 8 * x := by
    have : 2 * Real.pi * s - (x + Real.pi / 2) = 2 * Real.pi * (s - r) + (2 * Real.pi * (r - (q + 1 / 4)) + 2 * Real.pi * (q - (x : ℝ) / (2 * (pif : ℝ)))) + (2 * Real.pi * ((x : ℝ) / (2 * (pif : ℝ))) - x) := by ring
    rw [this]
    refine (abs_add_le _ _).trans (add_le_add ((abs_add_le _ _).trans ((add_le_add le_rfl (abs_add_le _ _)).trans ?_)) t)
    rw [abs_mul (2 * Real.pi), abs_mul (2 * Real.pi), abs_mul (2 * Real.pi), abs_of_pos (by positivity : 0 < 2 * Real.pi)]
    calc 2 * Real.pi * |s - r| + (2 * Real.pi * |r - (q + 1 / 4)| + 2 * Real.pi * |q - (x : ℝ) / (2 * (pif : ℝ))|) ≤ 2 * 3.141593 * (1 / 2048) + (2 * 3.141593 * (((x : ℝ) / 6.28 * (1 + 1 / 2 ^ 24) + 1 / 2 ^ 25 + 1 / 4) / 2 ^ 24 + 1 / 2 ^ 25) + 2 * 3.141593 * ((x : ℝ) / 6.28 / 2 ^ 24 + 1 / 2 ^ 25)) := by gcongr
      _ ≤ _ := by norm_num; linarith
  have hs := (Real.abs_sin_sub_sin_le (2 * Real.pi * s) (x + Real.pi / 2)).trans ang
  rw [Real.sin_add_pi_div_two] at hs
  refine (abs_sub_le _ (Real.sin (2 * Real.pi * s)) _).trans ((add_le_add ent hs).trans ?_)
  norm_num
  linarith

example (rnd : ℚ → ℚ) (h : Nearest rnd) := C161_cos_close rnd h 2000 (by norm_num) (by norm_num)

/-- The tangent is Lipschitz where it is bounded. -/
theorem tan_lip (c d T y z : ℝ) (hT : ∀ z ∈ Set.Icc c d, Real.cos z ≠ 0 ∧ |Real.tan z| ≤ T) (hy : y ∈ Set.Icc c d) (hz : z ∈ Set.Icc c d) :
    |Real.tan z - Real.tan y| ≤ (1 + T ^ 2) * |z - y| := by
  have := Convex.norm_image_sub_le_of_norm_hasDerivWithin_le (f := Real.tan) (f' := fun z => 1 / Real.cos z ^ 2) (C := 1 + T ^ 2) (s := Set.Icc c d) (x := y) (y := z)
    (fun z hz => (Real.hasDerivAt_tan (hT z hz).1).hasDerivWithinAt)
    (fun z hz => by
      obtain ⟨hc, ht⟩ := hT z hz
      rw [Accuracy.one_add_tan z hc, Real.norm_eq_abs, abs_of_pos (by positivity)]
      have : Real.tan z ^ 2 ≤ T ^ 2 := by rw [← sq_abs]; gcongr
      gcongr) (convex_Icc _ _) hy hz
  rwa [Real.norm_eq_abs, Real.norm_eq_abs] at this

/-- The rounded blend of two rounded literals. -/
theorem mix_near (rnd : ℚ → ℚ) (h : Nearest rnd) (a b t M : ℚ) (ht : F32 t) (t0 : 0 ≤ t) (t1 : t ≤ 1) (hM : 1 ≤ M) (ha : |a| ≤ M) (hb : |b| ≤ M) :
    |mix rnd (rnd a) (rnd b) t - lerp a b t| ≤ 51 / 10 * M / 2 ^ 24 := by
  have near : ∀ d : ℚ, |d| ≤ M → |rnd d - d| ≤ M / 2 ^ 24 + 1 / 2 ^ 150 ∧ |rnd d| ≤ M + M / 2 ^ 24 + 1 / 2 ^ 150 := by
    intro d hdM
    have hr := h.rel d
    have h2 : |rnd d - d| ≤ M / 2 ^ 24 + 1 / 2 ^ 150 := hr.trans (by gcongr)
    refine ⟨h2, ?_⟩
    have := abs_add_le (rnd d - d) d
    rw [sub_add_cancel] at this
    linarith
  obtain ⟨a1, a2⟩ := near a ha
  obtain ⟨b1, b2⟩ := near b hb
  have mc := mix_close h ht t0 t1 a2 b2
  have lc : |lerp (rnd a) (rnd b) t - lerp a b t| ≤ M / 2 ^ 24 + 1 / 2 ^ 150 := by
    unfold lerp
    rw [show rnd a + (rnd b - rnd a) * t - (a + (b - a) * t) = (rnd a - a) * (1 - t) + (rnd b - b) * t by ring]
    have i := abs_add_le ((rnd a - a) * (1 - t)) ((rnd b - b) * t)
    rw [abs_mul, abs_mul, abs_of_nonneg t0, abs_of_nonneg (by linarith : 0 ≤ 1 - t)] at i
    generalize |rnd a - a| = A at *
    generalize |rnd b - b| = B at *
    nlinarith
  have := abs_sub_le (mix rnd (rnd a) (rnd b) t) (lerp (rnd a) (rnd b) t) (lerp a b t)
  norm_num at *
  linarith

/-- The entry that belongs to a multiple of a table step, near x. -/
theorem entry_near (x T : ℝ) (x0 : 0 ≤ x) (hT : ∀ z : ℝ, |z - x| ≤ 32 / 10 ^ 4 + 2 / 10 ^ 7 * x → Real.cos z ≠ 0 ∧ |Real.tan z| ≤ T) (k : ℕ) (hk : k < 2 ^ 32)
    (hkx : |(k : ℝ) / 2048 * (pif : ℝ) - x| ≤ 1535 / 10 ^ 6 + 6 / 10 ^ 8 * x) :
    |((at' tanTable (k % 2048) : ℚ) : ℝ) - Real.tan ((k : ℝ) / 2048 * (pif : ℝ))| ≤ (81 / 10 ^ 8 * (1 + T) + 31 / 10 ^ 9 * x) * (1 + T ^ 2) := by
  have hp := pif_pos
  have hl := tan_len
  have hT0 : 0 ≤ T := (abs_nonneg _).trans (hT x (by rw [sub_self, abs_zero]; positivity)).2
  obtain ⟨s, hs⟩ : ∃ s : ℚ, s = (k : ℚ) / 2048 * pif := ⟨_, rfl⟩
  have hsR : (s : ℝ) = (k : ℝ) / 2048 * (pif : ℝ) := by rw [hs]; push_cast; ring
  rw [← hsR] at hkx ⊢
  have hs0 : 0 ≤ s := by rw [hs]; positivity
  have hsl : s < 2 ^ 21 * pif := by
    rw [hs]
    apply mul_lt_mul_of_pos_right _ hp
    have : (k : ℚ) < 4294967296 := by exact_mod_cast hk
    rw [div_lt_iff₀ (by norm_num)]; exact lt_of_lt_of_eq this (by norm_num)
  have hsx := abs_le.mp hkx
  obtain ⟨w, hw, hb⟩ := Accuracy.C138_tan_partial s hs0 hsl T (by
    intro z hz
    apply hT
    have := abs_sub_le z (s : ℝ) x
    generalize |z - s| = A at *
    generalize |(s : ℝ) - x| = B at *
    norm_num at *
    linarith [hsx.2])
  have hcast : s / pif * (tanTable.length : ℚ) = k := by rw [hl, hs]; push_cast; field_simp
  have e := (C101_wrap_index tanTable tan_ne (s / pif * tanTable.length) k (by rw [hcast]) (by rw [hcast]; linarith) (by omega) _ _ rfl rfl).1
  have : w = at' tanTable (k % 2048) := by
    unfold MathFns.tan InterpArray.interpWrap at hw
    rw [e, hcast, sub_self, hl] at hw
    injection hw with hw
    rw [← hw]; unfold lerp; ring
  rw [this] at hb
  refine hb.trans ?_
  apply mul_le_mul_of_nonneg_right _ (by positivity)
  norm_num at *
  linarith [hsx.2]

set_option maxHeartbeats 1000000 in
/-- **C161** (partial): in binary32 tan(x) and tan_close(x) are close to the real tangent. If |tan| is at most T within 0.0032 + 2e-7 x of x, then tan(x) is off by at most (0.0000014 (1 + T) + 1e-7 x)(1 + T^2) and tan_close(x) by at most (0.0016 + 0.000001 T + 1e-7 x)(1 + T^2), for every x from 0 to six million. What is missing is the neighbourhood of odd multiples of half pi, see C138. -/
theorem C161_tan_partial (rnd : ℚ → ℚ) (h : Nearest rnd) (x : ℚ) (h0 : 0 ≤ x) (h1 : x ≤ 6 * 10 ^ 6) (T : ℝ) (hT : ∀ z : ℝ, |z - x| ≤ 32 / 10 ^ 4 + 2 / 10 ^ 7 * x → Real.cos z ≠ 0 ∧ |Real.tan z| ≤ T) :
    (∃ v : ℚ, ExpFloat.tan rnd x = .ok v ∧ |(v : ℝ) - Real.tan x| ≤ (14 / 10 ^ 7 * (1 + T) + 1 / 10 ^ 7 * x) * (1 + T ^ 2)) ∧
    ∃ v : ℚ, ExpFloat.tanClose rnd x = .ok v ∧ |(v : ℝ) - Real.tan x| ≤ (16 / 10 ^ 4 + 1 / 10 ^ 6 * T + 1 / 10 ^ 7 * x) * (1 + T ^ 2) := by
  have hp := pif_pos
  have hp3 : (3.1415926 : ℚ) ≤ pif ∧ pif ≤ 3.141593 := by unfold pif; norm_num
  have x0 : (0 : ℝ) ≤ x := by exact_mod_cast h0
  have x1 : (x : ℝ) ≤ 6 * 10 ^ 6 := by exact_mod_cast h1
  have hq0 : 0 ≤ x / pif := by positivity
  have hq1 : x / pif ≤ x / 3.1415926 := by apply div_le_div_of_nonneg_left h0 (by norm_num); exact hp3.1
  obtain ⟨p, hpd⟩ : ∃ p, p = rnd (x / pif) := ⟨_, rfl⟩
  have hpr := h.rel (x / pif)
  rw [← hpd, abs_of_nonneg hq0] at hpr
  have hp0 : 0 ≤ p := by rw [hpd]; exact h.ge f32_zero hq0
  have hpF : F32 p := by rw [hpd]; exact h.f32 _
  have hp1 : p < 2 ^ 21 := by
    have := (abs_le.mp hpr).2
    norm_num at *
    linarith
  obtain ⟨k, hk0, hk1, hk2, hF, ei, ec⟩ := wrap_cell rnd h tanTable tan_len p hpF hp0 hp1
  have hT0 : 0 ≤ T := (abs_nonneg _).trans (hT x (by rw [sub_self, abs_zero]; positivity)).2
  -- distances
  have dp : |p * pif - x| ≤ x / 2 ^ 24 + 1 / 2 ^ 148 := by
    rw [show p * pif - x = (p - x / pif) * pif by field_simp, abs_mul, abs_of_pos hp]
    have : |p - x / pif| * pif ≤ (x / pif / 2 ^ 24 + 1 / 2 ^ 150) * pif := by gcongr
    refine this.trans ?_
    rw [add_mul, show x / pif / 2 ^ 24 * pif = x / 2 ^ 24 by field_simp]
    norm_num
    linarith [hp3.2]
  have dk : ∀ j : ℕ, (j = k ∨ j = k + 1) → |(j : ℚ) / 2048 * pif - x| ≤ 1535 / 10 ^ 6 + 6 / 10 ^ 8 * x := by
    intro j hj
    have hjp : |(j : ℚ) / 2048 - p| ≤ 1 / 2048 := by
      rcases hj with rfl | rfl <;> push_cast <;> rw [abs_le] <;> constructor <;> linarith
    have e : (j : ℚ) / 2048 * pif - x = ((j : ℚ) / 2048 - p) * pif + (p * pif - x) := by ring
    rw [e]
    refine (abs_add_le _ _).trans ?_
    rw [abs_mul, abs_of_pos hp]
    have : |(j : ℚ) / 2048 - p| * pif ≤ 1 / 2048 * 3.141593 := mul_le_mul hjp hp3.2 hp.le (by norm_num)
    norm_num at *
    linarith
  have dkR : ∀ j : ℕ, (j = k ∨ j = k + 1) → |(j : ℝ) / 2048 * (pif : ℝ) - x| ≤ 1535 / 10 ^ 6 + 6 / 10 ^ 8 * x := by
    intro j hj
    have := (Rat.cast_le (K := ℝ)).mpr (dk j hj); push_cast at this; exact this
  have dpR : |((p * pif : ℚ) : ℝ) - x| ≤ 6 / 10 ^ 8 * x + 1 / 10 ^ 40 := by
    have := (Rat.cast_le (K := ℝ)).mpr dp; push_cast at this ⊢; norm_num at this ⊢; linarith
  have hk3 : k + 1 < 2 ^ 32 := by
    have : (k : ℚ) ≤ 4294967290 := by
      have := (abs_le.mp hpr).2
      norm_num at this hq1 h1
      linarith
    have : k ≤ 4294967290 := by exact_mod_cast this
    omega
  have Ek := entry_near x T x0 hT k hk2 (dkR k (.inl rfl))
  have Ek1 := entry_near x T x0 hT (k + 1) hk3 (dkR (k + 1) (.inr rfl))
  have lip : ∀ z : ℝ, |z - x| ≤ 1535 / 10 ^ 6 + 6 / 10 ^ 8 * x + 1 / 10 ^ 40 → |Real.tan z - Real.tan x| ≤ (1 + T ^ 2) * |z - x| ∧ |Real.tan z| ≤ T := by
    intro z hz
    refine ⟨?_, (hT z (hz.trans (by norm_num; linarith))).2⟩
    have hz' := abs_le.mp hz
    have hR : 0 ≤ 32 / 10 ^ 4 + 2 / 10 ^ 7 * (x : ℝ) := by positivity
    apply tan_lip ((x : ℝ) - (32 / 10 ^ 4 + 2 / 10 ^ 7 * x)) ((x : ℝ) + (32 / 10 ^ 4 + 2 / 10 ^ 7 * x)) T
    · intro w hw
      exact hT w (abs_le.mpr ⟨by linarith [hw.1], by linarith [hw.2]⟩)
    · exact ⟨by linarith, by linarith⟩
    · norm_num at hz' ⊢
      exact ⟨by linarith [hz'.1], by linarith [hz'.2]⟩
  have hK : 0 < 1 + T ^ 2 := by positivity
  have hE : (81 / 10 ^ 8 * (1 + T) + 31 / 10 ^ 9 * (x : ℝ)) * (1 + T ^ 2) ≤ (1 + T + x / 10) * (1 + T ^ 2) / 10 ^ 6 := by
    rw [mul_div_right_comm]
    apply mul_le_mul_of_nonneg_right _ hK.le
    norm_num; linarith
  have rounding : ∀ (A : ℚ) (ξ : ℝ), |(A : ℝ) - Real.tan ξ| ≤ (81 / 10 ^ 8 * (1 + T) + 31 / 10 ^ 9 * x) * (1 + T ^ 2) → |Real.tan ξ| ≤ T → |(A : ℝ)| ≤ T + (1 + T + x / 10) * (1 + T ^ 2) / 10 ^ 6 := by
    intro A ξ hA hξ
    have := abs_add_le ((A : ℝ) - Real.tan ξ) (Real.tan ξ)
    rw [sub_add_cancel] at this
    linarith
  have lk := lip _ ((dkR k (.inl rfl)).trans (by norm_num))
  have lk1 := lip _ ((dkR (k + 1) (.inr rfl)).trans (by norm_num))
  have ra := rounding _ _ Ek lk.2
  have rb := rounding _ _ Ek1 lk1.2
  have small : (1 + T + (x : ℝ) / 10) * (1 + T ^ 2) / 10 ^ 6 ≤ (7 / 10 + T / 10 ^ 6) * (1 + T ^ 2) := by
    rw [mul_div_right_comm]
    apply mul_le_mul_of_nonneg_right _ hK.le
    norm_num at x1 ⊢; linarith
  have hTK : T ≤ T * (1 + T ^ 2) := by nlinarith [mul_nonneg hT0 (sq_nonneg T)]
  have hK1 : 1 ≤ 1 + T ^ 2 := by nlinarith [sq_nonneg T]
  constructor
  · refine ⟨_, by unfold ExpFloat.tan tanR; rw [← hpd]; exact ei, ?_⟩
    obtain ⟨w, hw, hb⟩ := Accuracy.C138_tan_partial (p * pif) (by positivity) (by nlinarith) T (by
      intro z hz
      apply hT
      refine (abs_sub_le z ((p * pif : ℚ) : ℝ) x).trans ((add_le_add hz dpR).trans ?_)
      have := (abs_le.mp dpR).2
      generalize ((p * pif : ℚ) : ℝ) = y at *
      norm_num at this ⊢
      linarith)
    have hc : p * pif / pif = p := by field_simp
    have e := (C101_wrap_index tanTable tan_ne (p * 2048) k hk0 hk1 hk2 _ _ rfl rfl).1
    rw [tan_len] at e
    have hwl : w = lerp (at' tanTable (k % 2048)) (at' tanTable ((k + 1) % 2048)) (p * 2048 - k) := by
      unfold MathFns.tan InterpArray.interpWrap at hw
      rw [hc, tan_len] at hw
      push_cast at hw
      rw [e] at hw
      injection hw with hw
      exact hw.symm
    have mn := mix_near rnd h (at' tanTable (k % 2048)) (at' tanTable ((k + 1) % 2048)) (p * 2048 - k) (max 1 (max |at' tanTable (k % 2048)| |at' tanTable ((k + 1) % 2048)|)) hF (by linarith) (by linarith)
      (le_max_left _ _) ((le_max_left _ _).trans (le_max_right _ _)) ((le_max_right _ _).trans (le_max_right _ _))
    rw [← hwl] at mn
    have mnR := (Rat.cast_le (K := ℝ)).mpr mn
    push_cast at mnR
    have hM : max (1 : ℝ) (max |((at' tanTable (k % 2048) : ℚ) : ℝ)| |((at' tanTable ((k + 1) % 2048) : ℚ) : ℝ)|) ≤ 1 + T + (7 / 10 + T / 10 ^ 6) * (1 + T ^ 2) := by
      have : 0 ≤ (7 / 10 + T / 10 ^ 6) * (1 + T ^ 2) := by positivity
      refine max_le (by linarith) (max_le (by linarith) (by linarith))
    have l3 := (lip _ (dpR.trans (by norm_num))).1.trans (mul_le_mul_of_nonneg_left dpR hK.le)
    have xb := (abs_le.mp dpR).2
    have mm : 51 / 10 * max (1 : ℝ) (max |((at' tanTable (k % 2048) : ℚ) : ℝ)| |((at' tanTable ((k + 1) % 2048) : ℚ) : ℝ)|) / 2 ^ 24 ≤ 51 / 10 * (1 + T + (7 / 10 + T / 10 ^ 6) * (1 + T ^ 2)) / 2 ^ 24 := by gcongr
    refine (abs_sub_le _ (w : ℝ) _).trans ((add_le_add (mnR.trans mm) ((abs_sub_le _ (Real.tan ((p * pif : ℚ) : ℝ)) _).trans (add_le_add hb l3))).trans ?_)
    generalize ((p * pif : ℚ) : ℝ) = y at *
    have t1 : (1 + T ^ 2) * (6 / 10 ^ 8 * x + 1 / 10 ^ 40) = (6 / 10 ^ 8 * x + 1 / 10 ^ 40) * (1 + T ^ 2) := by ring
    have t2 : (8 / 10 ^ 7 * (1 + T) + 3 / 10 ^ 8 * y) * (1 + T ^ 2) ≤ (8 / 10 ^ 7 * (1 + T) + 3 / 10 ^ 8 * (x + (6 / 10 ^ 8 * x + 1 / 10 ^ 40))) * (1 + T ^ 2) := by
      apply mul_le_mul_of_nonneg_right _ hK.le
      linarith
    have t3 : 51 / 10 * (1 + T + (7 / 10 + T / 10 ^ 6) * (1 + T ^ 2)) / 2 ^ 24 ≤ 51 / 10 * (17 / 10 + T * (1 + 1 / 10 ^ 6)) / 2 ^ 24 * (1 + T ^ 2) := by
      have : 1 + T + (7 / 10 + T / 10 ^ 6) * (1 + T ^ 2) ≤ (17 / 10 + T * (1 + 1 / 10 ^ 6)) * (1 + T ^ 2) := by linarith
      calc 51 / 10 * (1 + T + (7 / 10 + T / 10 ^ 6) * (1 + T ^ 2)) / 2 ^ 24 ≤ 51 / 10 * ((17 / 10 + T * (1 + 1 / 10 ^ 6)) * (1 + T ^ 2)) / 2 ^ 24 := by gcongr
        _ = _ := by ring
    rw [t1]
    refine (add_le_add t3 (add_le_add t2 le_rfl)).trans ?_
    rw [← add_mul, ← add_mul]
    apply mul_le_mul_of_nonneg_right _ hK.le
    norm_num
    linarith
  · refine ⟨_, by unfold ExpFloat.tanClose tanR; rw [← hpd]; exact ec, ?_⟩
    have hr := h.rel (at' tanTable (k % 2048))
    have hr' := (Rat.cast_le (K := ℝ)).mpr hr
    push_cast at hr'
    have i1 := abs_sub_le ((rnd (at' tanTable (k % 2048)) : ℚ) : ℝ) ((at' tanTable (k % 2048) : ℚ) : ℝ) (Real.tan x)
    have i2 := abs_sub_le ((at' tanTable (k % 2048) : ℚ) : ℝ) (Real.tan ((k : ℝ) / 2048 * (pif : ℝ))) (Real.tan x)
    have i3 := lk.1.trans (mul_le_mul_of_nonneg_left (dkR k (.inl rfl)) hK.le)
    generalize |((at' tanTable (k % 2048) : ℚ) : ℝ)| = A at *
    have : A / 2 ^ 24 ≤ (T + (7 / 10 + T / 10 ^ 6) * (1 + T ^ 2)) / 2 ^ 24 := by gcongr; linarith
    refine i1.trans ((add_le_add hr' (i2.trans (add_le_add Ek i3))).trans ?_)
    have t1 : (T + (7 / 10 + T / 10 ^ 6) * (1 + T ^ 2)) / 2 ^ 24 ≤ (7 / 10 + T * (1 + 1 / 10 ^ 6)) / 2 ^ 24 * (1 + T ^ 2) := by
      rw [div_mul_eq_mul_div]
      gcongr
      linarith
    have t2 : (1 : ℝ) / 2 ^ 150 ≤ 1 / 2 ^ 150 * (1 + T ^ 2) := le_mul_of_one_le_right (by positivity) hK1
    have t3 : (1 + T ^ 2) * (1535 / 10 ^ 6 + 6 / 10 ^ 8 * (x : ℝ)) = (1535 / 10 ^ 6 + 6 / 10 ^ 8 * x) * (1 + T ^ 2) := by ring
    rw [t3]
    refine (add_le_add (add_le_add (this.trans t1) t2) le_rfl).trans ?_
    rw [← add_mul, ← add_mul, ← add_mul]
    apply mul_le_mul_of_nonneg_right _ hK.le
    norm_num
    linarith

/-- **C161** fails next to half pi: at 201/128 = 1.5703125 the tangent is above 1, and tan returns less than -10000000. -/
theorem C161_near_half_pi_violated (rnd : ℚ → ℚ) (h : Nearest rnd) : F32 (201 / 128) ∧ (∃ v : ℚ, ExpFloat.tan rnd (201 / 128) = .ok v ∧ v < -10000000) ∧ 1 < Real.tan ((201 / 128 : ℚ) : ℝ) := by
  refine ⟨by have := f32_div 201 (by norm_num) 7 (by norm_num); norm_num at this ⊢; exact this, ?_, ?_⟩
  · obtain ⟨p, hpd⟩ : ∃ p, p = rnd (201 / 128 / pif) := ⟨_, rfl⟩
    have hv : (1 : ℚ) / 4 ≤ 201 / 128 / pif := by unfold pif; norm_num
    have hpr := h.rel (201 / 128 / pif)
    rw [← hpd, abs_of_nonneg (by linarith : 0 ≤ 201 / 128 / pif)] at hpr
    have hb : 1023.68 ≤ p * 2048 ∧ p * 2048 ≤ 1023.69 := by
      rw [abs_le] at hpr
      unfold pif at hpr
      norm_num at hpr ⊢
      constructor <;> linarith [hpr.1, hpr.2]
    norm_num at hb
    obtain ⟨k, hk0, hk1, -, hF, ei, -⟩ := wrap_cell rnd h tanTable tan_len p (by rw [hpd]; exact h.f32 _) (by linarith) (by norm_num; linarith)
    have hk : k = 1023 := by
      have a : (k : ℚ) < 1024 := by linarith
      have b : (1022 : ℚ) < k := by linarith
      have a' : k < 1024 := by exact_mod_cast a
      have b' : 1022 < k := by exact_mod_cast b
      omega
    subst hk
    refine ⟨_, by unfold ExpFloat.tan tanR; rw [← hpd]; exact ei, ?_⟩
    have e0 : at' tanTable (1023 % 2048) = 651914856 / 1000000 := by
      unfold tanTable; rw [tab_at, show tanData.getD (1023 % 2048) 0 = 651914856 by decide +kernel]; norm_num
    have e1 : at' tanTable ((1023 + 1) % 2048) = -22877334 := by
      unfold tanTable; rw [tab_at, show tanData.getD ((1023 + 1) % 2048) 0 = -22877334000000 by decide +kernel]; norm_num
    have mn := mix_near rnd h (at' tanTable (1023 % 2048)) (at' tanTable ((1023 + 1) % 2048)) (p * 2048 - (1023 : ℕ)) 22877334 hF (by push_cast; linarith) (by push_cast; linarith) (by norm_num) (by rw [e0]; norm_num) (by rw [e1]; norm_num)
    have := (abs_le.mp mn).2
    generalize mix rnd (rnd (at' tanTable (1023 % 2048))) (rnd (at' tanTable ((1023 + 1) % 2048))) (p * 2048 - (1023 : ℕ)) = V at *
    rw [e0, e1] at this
    unfold lerp at this
    push_cast at this
    norm_num at this
    linarith [hb.1]
  · have l := Real.pi_gt_d6
    have u := Real.pi_lt_d6
    push_cast
    have := Real.tan_lt_tan_of_nonneg_of_lt_pi_div_two (x := Real.pi / 4) (y := 201 / 128) (by positivity) (by norm_num at *; linarith) (by norm_num at *; linarith)
    rwa [Real.tan_pi_div_four] at this

-- 0.39 radians: the hypothesis holds with T = 1
example (rnd : ℚ → ℚ) (h : Nearest rnd) : (∃ v : ℚ, ExpFloat.tan rnd (39 / 100) = .ok v ∧ |(v : ℝ) - Real.tan ((39 / 100 : ℚ) : ℝ)| ≤ 6 / 10 ^ 6) ∧
    ∃ v : ℚ, ExpFloat.tanClose rnd (39 / 100) = .ok v ∧ |(v : ℝ) - Real.tan ((39 / 100 : ℚ) : ℝ)| ≤ 33 / 10 ^ 4 := by
  have hT : ∀ z : ℝ, |z - ((39 / 100 : ℚ) : ℝ)| ≤ 32 / 10 ^ 4 + 2 / 10 ^ 7 * ((39 / 100 : ℚ) : ℝ) → Real.cos z ≠ 0 ∧ |Real.tan z| ≤ 1 := by
    intro z hz
    rw [abs_le] at hz
    push_cast at hz
    norm_num at hz
    have l := Real.pi_gt_d6
    have hz0 : 0 ≤ z := by linarith [hz.1]
    have hz1 : z < Real.pi / 4 := by norm_num at l; linarith [hz.2]
    have hc : 0 < Real.cos z := Real.cos_pos_of_mem_Ioo ⟨by linarith, by linarith⟩
    refine ⟨hc.ne', ?_⟩
    rw [abs_of_nonneg (Real.tan_nonneg_of_nonneg_of_le_pi_div_two hz0 (by linarith))]
    have := Real.tan_lt_tan_of_nonneg_of_lt_pi_div_two hz0 (by linarith) hz1
    rw [Real.tan_pi_div_four] at this
    exact this.le
  obtain ⟨⟨v, h1, h2⟩, w, h3, h4⟩ := C161_tan_partial rnd h (39 / 100) (by norm_num) (by norm_num) 1 hT
  exact ⟨⟨v, h1, h2.trans (by norm_num)⟩, w, h3, h4.trans (by norm_num)⟩

-- two thousand radians
example (rnd : ℚ → ℚ) (h : Nearest rnd) : ∃ v : ℚ, cosClose rnd 2000 = .ok v ∧ |(v : ℝ) - Real.cos ((2000 : ℚ) : ℝ)| ≤ 338 / 10 ^ 5 := by
  obtain ⟨v, h1, h2⟩ := C161_cos_close rnd h 2000 (by norm_num) (by norm_num)
  exact ⟨v, h1, h2.trans (by norm_num)⟩

end ExpFloat
