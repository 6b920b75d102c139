import Verif.Model.OscsFloat
import Verif.Props.Oscs
import Verif.Lemmas.FltLerp
/-! # Properties C149, C150: oscillators and one-shots in binary32 -/

namespace OscsFloat
open Oscs Flt

theorem max_f32 (rnd : ℚ → ℚ) (h : Nearest rnd) : rnd 4294967295 = 2 ^ 32 := by
  have := h.eq_of_close 4294967295 (2 ^ 24) 8 (by norm_num) (by norm_num) (by norm_num) (by norm_num)
  rw [this]; norm_num

/-- A rounded natural number divided by 2^32 is a float. -/
theorem scaled_f32 (rnd : ℚ → ℚ) (h : Nearest rnd) (v : Nat) : F32 (rnd v / 2 ^ 32) := by
  rcases Nat.eq_zero_or_pos v with rfl | hv
  · rw [Nat.cast_zero, h.zero, zero_div]; exact f32_zero
  · have h1 : (1 : ℚ) ≤ rnd v := h.ge f32_one (by exact_mod_cast hv)
    obtain ⟨m, e, hm, _, hx⟩ := h.f32 v
    refine ⟨m, e - 32, hm, ?_, ?_⟩
    · by_contra hc
      have h2 : (2 : ℚ) ^ e ≤ 2 ^ (-118 : ℤ) := zpow_le_zpow_right₀ (by norm_num) (by omega)
      have hp := two_zpow_pos e
      have hm' : (m : ℚ) ≤ 2 ^ 24 := by
        have := (abs_lt.mp hm).2
        exact_mod_cast this.le
      have h3 : rnd v ≤ 2 ^ 24 * 2 ^ (-118 : ℤ) := by
        rw [hx]
        calc (m : ℚ) * 2 ^ e ≤ 2 ^ 24 * 2 ^ e := mul_le_mul_of_nonneg_right hm' hp.le
          _ ≤ _ := by gcongr
      norm_num at h3
      linarith
    · rw [hx, zpow_sub₀ (by norm_num), show (2 : ℚ) ^ (32 : ℤ) = 2 ^ 32 by norm_cast]
      ring

theorem tri_float (rnd : ℚ → ℚ) (h : Nearest rnd) (t : Tri) : (triProcessFloat rnd t).2 = rnd t.process.2 / 2 ^ 32 := by
  unfold triProcessFloat
  rw [max_f32 rnd h, h.fix (scaled_f32 rnd h _)]

theorem accum_float (rnd : ℚ → ℚ) (h : Nearest rnd) (a : Accum) : (SineOsc.processFloatR rnd a).2 = rnd a.process.2 / 2 ^ 32 := by
  unfold SineOsc.processFloatR
  have e1 : rnd (1 / 2 ^ 32) = 1 / 2 ^ 32 := h.fix (by have := f32_div 1 (by norm_num) 32 (by norm_num); rwa [Int.cast_one] at this)
  rw [max_f32 rnd h, e1, mul_one_div, h.fix (scaled_f32 rnd h _)]

/-- The conversion of an unsigned 32-bit value to a fraction. -/
theorem conv (rnd : ℚ → ℚ) (h : Nearest rnd) (v : Nat) (hv : v < 2 ^ 32) :
    0 ≤ rnd v / 2 ^ 32 ∧ rnd v / 2 ^ 32 ≤ 1 ∧ |rnd v / 2 ^ 32 - v / (2 ^ 32 - 1)| ≤ 1 / 2 ^ 24 ∧ (v < 2 ^ 24 → rnd v / 2 ^ 32 = v / 2 ^ 32) ∧ (v < 2 ^ 32 - 128 → rnd v / 2 ^ 32 < 1) ∧
      (2 ^ 32 - 128 < v → rnd v / 2 ^ 32 = 1) := by
  have v0 : (0 : ℚ) ≤ v := Nat.cast_nonneg v
  have v1 : (v : ℚ) ≤ 2 ^ 32 - 1 := by
    have : ((v + 1 : ℕ) : ℚ) ≤ ((2 ^ 32 : ℕ) : ℚ) := by exact_mod_cast hv
    push_cast at this; linarith
  have h0 : 0 ≤ rnd v := h.ge f32_zero v0
  have h1 : rnd v ≤ 2 ^ 32 := h.le (f32_pow2 32) (by linarith)
  refine ⟨by positivity, by rw [div_le_one (by norm_num)]; exact h1, ?_, ?_, ?_, ?_⟩
  · have := h.grid v 8 (by norm_num) (by rw [abs_of_nonneg v0]; norm_num; linarith)
    norm_num at this
    rw [abs_le] at this ⊢
    rw [div_sub_div _ _ (by norm_num) (by norm_num), le_div_iff₀ (by norm_num), div_le_iff₀ (by norm_num)]
    norm_num at v1 ⊢
    constructor <;> linarith [this.1, this.2]
  · intro hs
    rw [h.fix]
    have := f32_int v (by rw [abs_of_nonneg (by positivity)]; exact_mod_cast hs)
    exact_mod_cast this
  · intro hs
    have hs' : (v : ℚ) ≤ 2 ^ 32 - 129 := by
      have : ((v + 129 : ℕ) : ℚ) ≤ ((2 ^ 32 : ℕ) : ℚ) := by exact_mod_cast (by omega)
      push_cast at this; linarith
    have e := h.eq_of_close (2 ^ 32 - 129) (2 ^ 24 - 1) 8 (by norm_num) (by norm_num) (by norm_num) (by norm_num [abs_of_nonneg, abs_of_neg])
    have := h.mono hs'
    rw [e] at this
    rw [div_lt_one (by norm_num)]
    norm_num at this ⊢
    linarith
  · intro hs
    have hs' : (2 ^ 32 - 127 : ℚ) ≤ v := by
      have : ((2 ^ 32 : ℕ) : ℚ) ≤ ((v + 127 : ℕ) : ℚ) := by exact_mod_cast (by omega)
      push_cast at this; linarith
    have e := h.eq_of_close (2 ^ 32 - 127) (2 ^ 24) 8 (by norm_num) (by norm_num) (by norm_num) (by norm_num)
    have := h.mono hs'
    rw [e] at this
    have : rnd v = 2 ^ 32 := le_antisymm h1 (by norm_num at this ⊢; exact this)
    rw [this]; norm_num

/-- **C149**: process_float of the triangle and the ramp advances by one update and returns the new value `v` (0 .. 2^32-1) as a fraction of 2^32: always in [0, 1], within 2^-24 of v / (2^32-1), exactly
v / 2^32 for v below 2^24, and never out of order: a larger value never gives a smaller result. -/
theorem C149_process_float (rnd : ℚ → ℚ) (h : Nearest rnd) (t t' : Tri) (a a' : Accum) :
    (triProcessFloat rnd t).1 = t.update ∧ (SineOsc.processFloatR rnd a).1 = a.update ∧
    (∀ v x, (v = t.update.val ∧ x = (triProcessFloat rnd t).2) ∨ (v = a.update.val ∧ x = (SineOsc.processFloatR rnd a).2) →
      0 ≤ x ∧ x ≤ 1 ∧ |x - v / (2 ^ 32 - 1)| ≤ 1 / 2 ^ 24 ∧ (v < 2 ^ 24 → x = v / 2 ^ 32)) ∧
    (t.update.val ≤ t'.update.val → (triProcessFloat rnd t).2 ≤ (triProcessFloat rnd t').2) ∧ (a.update.val ≤ a'.update.val → (SineOsc.processFloatR rnd a).2 ≤ (SineOsc.processFloatR rnd a').2) := by
  have ht : t.update.val < 2 ^ 32 := (C95_triangle_value t.update.phase (Nat.mod_lt _ (by decide)) t.inc 0).2.2.1
  have ha : a.update.val < 2 ^ 32 := Nat.mod_lt _ (by decide)
  refine ⟨rfl, rfl, ?_, ?_, ?_⟩
  · rintro v x (⟨rfl, rfl⟩ | ⟨rfl, rfl⟩)
    · rw [tri_float rnd h]
      obtain ⟨c1, c2, c3, c4, _⟩ := conv rnd h _ ht
      exact ⟨c1, c2, c3, c4⟩
    · rw [accum_float rnd h]
      obtain ⟨c1, c2, c3, c4, _⟩ := conv rnd h _ ha
      exact ⟨c1, c2, c3, c4⟩
  · intro hle
    rw [tri_float rnd h, tri_float rnd h]
    have : rnd t.process.2 ≤ rnd t'.process.2 := h.mono (by exact_mod_cast hle)
    gcongr
  · intro hle
    rw [accum_float rnd h, accum_float rnd h]
    have : rnd a.process.2 ≤ rnd a'.process.2 := h.mono (by exact_mod_cast hle)
    gcongr

/-- **C149**: the ramp's float value is 1 for the last 127 phases of each cycle (a phase in [0, 1) would be expected of a ramp), and below 1 for phases below 2^32 - 128. -/
theorem C149_ramp_one (rnd : ℚ → ℚ) (h : Nearest rnd) (a : Accum) :
    (2 ^ 32 - 128 < a.update.val → (SineOsc.processFloatR rnd a).2 = 1) ∧ (a.update.val < 2 ^ 32 - 128 → (SineOsc.processFloatR rnd a).2 < 1) := by
  have ha : a.update.val < 2 ^ 32 := Nat.mod_lt _ (by decide)
  rw [accum_float rnd h]
  obtain ⟨_, _, _, _, c5, c6⟩ := conv rnd h _ ha
  exact ⟨c6, c5⟩

/-- Both cases occur. -/
example : (2 ^ 32 - 128 < (Accum.mk 4294967294 1).update.val) ∧ (Accum.mk 5 1).update.val < 2 ^ 32 - 128 := by decide

theorem trunc_ok (n : Nat) (x : ℚ) (h0 : 0 ≤ x) (h1 : x < n) : ∃ k : Nat, Color.trunc n x = .ok k ∧ (k : ℚ) ≤ x ∧ x < k + 1 := by
  refine ⟨⌊x⌋.toNat, ?_, ?_, ?_⟩
  · unfold Color.trunc; rw [if_pos ⟨by linarith, h1⟩]
  · have : (⌊x⌋.toNat : ℚ) = (⌊x⌋ : ℚ) := by exact_mod_cast Int.toNat_of_nonneg (Int.floor_nonneg.mpr h0)
    rw [this]; exact Int.floor_le _
  · have : (⌊x⌋.toNat : ℚ) = (⌊x⌋ : ℚ) := by exact_mod_cast Int.toNat_of_nonneg (Int.floor_nonneg.mpr h0)
    rw [this]; exact Int.lt_floor_add_one _

theorem freqUnits_rat (rate : Nat) (hr : 0 < rate) : (freqUnits rate : ℚ) * rate ≤ 2 ^ 32 - 1 ∧ (2 : ℚ) ^ 32 - 1 < freqUnits rate * rate + rate := by
  have h1 := Nat.div_mul_le_self 0xFFFFFFFF rate
  have h2 := Nat.lt_div_mul_add (a := 0xFFFFFFFF) hr
  constructor
  · have : ((freqUnits rate * rate : ℕ) : ℚ) ≤ ((0xFFFFFFFF : ℕ) : ℚ) := by exact_mod_cast h1
    push_cast at this; norm_num at this ⊢; linarith
  · have : ((0xFFFFFFFF : ℕ) : ℚ) < ((freqUnits rate * rate + rate : ℕ) : ℚ) := by exact_mod_cast h2
    push_cast at this; norm_num at this ⊢; linarith

/-- **C149**: set_frequency(f) with a float frequency from 0 up to just below the update rate is defined, keeps the phase, and gives f cycles of 2^32 per `rate` updates up to a relative error of 2^-22, apart
from less than one unit per update lost by truncation and at most f units per update because 2^32 need not be a multiple of the rate. -/
theorem C149_frequency (rnd : ℚ → ℚ) (h : Nearest rnd) (rate : Nat) (hr : 0 < rate) (t : Tri) (f : ℚ) (h0 : 0 ≤ f) (h1 : f ≤ rate * (1 - 1 / 2 ^ 21)) :
    ∃ t', triSetFreqF rnd rate t f = .ok t' ∧ t'.phase = t.phase ∧ (t'.inc : ℚ) * rate ≤ f * 2 ^ 32 * (1 + 1 / 2 ^ 22) ∧ f * 2 ^ 32 * (1 - 1 / 2 ^ 22) ≤ t'.inc * rate + rate + f * rate := by
  obtain ⟨u1, u2⟩ := freqUnits_rat rate hr
  have hr0 : (1 : ℚ) ≤ rate := by exact_mod_cast hr
  have hvr := h.rel_nat (freqUnits rate)
  unfold triSetFreqF
  obtain ⟨u, hu⟩ : ∃ u : ℚ, (freqUnits rate : ℚ) = u := ⟨_, rfl⟩
  have u0 : 0 ≤ u := by rw [← hu]; positivity
  rw [hu] at u1 u2 hvr ⊢
  obtain ⟨v, hv⟩ : ∃ v, rnd u = v := ⟨_, rfl⟩
  rw [hv] at hvr ⊢
  have hv0 : 0 ≤ v := by rw [← hv]; exact h.ge f32_zero u0
  obtain ⟨hv1, hv2⟩ := abs_le.mp hvr
  -- the product
  obtain ⟨x, hx⟩ : ∃ x, f * v = x := ⟨_, rfl⟩
  have x0 : 0 ≤ x := by rw [← hx]; positivity
  have hfu : f * u * rate ≤ f * (2 ^ 32 - 1) := by nlinarith
  have hfu2 : f * (2 ^ 32 - 1) ≤ f * u * rate + f * rate := by nlinarith
  have fu0 : 0 ≤ f * u := by positivity
  have hx1 : x ≤ f * u + f * u / 2 ^ 24 := by rw [← hx]; have := mul_le_mul_of_nonneg_left hv2 h0; linarith
  have hx2 : f * u - f * u / 2 ^ 24 ≤ x := by rw [← hx]; have := mul_le_mul_of_nonneg_left hv1 h0; linarith
  have hfur : f * u ≤ (2 ^ 32 - 1) * (1 - 1 / 2 ^ 21) := by
    have h3 : f * u ≤ rate * (1 - 1 / 2 ^ 21) * u := mul_le_mul_of_nonneg_right h1 u0
    have h4 : u * rate * (1 - 1 / 2 ^ 21) ≤ (2 ^ 32 - 1) * (1 - 1 / 2 ^ 21) := mul_le_mul_of_nonneg_right u1 (by norm_num)
    linarith
  rw [hx]
  have y0 : 0 ≤ rnd x := h.ge f32_zero x0
  have hy : |rnd x - x| ≤ x / 2 ^ 24 + 1 / 2 ^ 150 := by have := h.rel x; rwa [abs_of_nonneg x0] at this
  obtain ⟨hy1, hy2⟩ := abs_le.mp hy
  have hyW : rnd x < (W : ℕ) := by
    rw [W_val]
    norm_num at *
    linarith
  obtain ⟨k, hk, hk1, hk2⟩ := trunc_ok W (rnd x) y0 hyW
  refine ⟨{ t with inc := k }, by rw [hk]; rfl, rfl, ?_, ?_⟩
  · show (k : ℚ) * rate ≤ _
    rcases Nat.eq_zero_or_pos k with rfl | hkp
    · rw [Nat.cast_zero, zero_mul]; positivity
    · have hkp' : (1 : ℚ) ≤ k := by exact_mod_cast hkp
      have hxb : (2 : ℚ) ^ (-126 : ℤ) ≤ x := by
        by_contra hc
        rw [not_le] at hc
        have := h.le (f32_zpow (-126) (by norm_num)) hc.le
        norm_num at this
        linarith
      have hn := h.rel_normal x (by rwa [abs_of_nonneg x0])
      rw [abs_of_nonneg x0] at hn
      have hn2 := (abs_le.mp hn).2
      have h3 : (k : ℚ) ≤ f * u * (1 + 1 / 2 ^ 24) ^ 2 := by nlinarith
      have h4 : (k : ℚ) * rate ≤ f * u * (1 + 1 / 2 ^ 24) ^ 2 * rate := mul_le_mul_of_nonneg_right h3 (by linarith)
      have h5 : f * u * rate * (1 + 1 / 2 ^ 24) ^ 2 ≤ f * (2 ^ 32 - 1) * (1 + 1 / 2 ^ 24) ^ 2 := mul_le_mul_of_nonneg_right hfu (by positivity)
      have h6 : f * (2 ^ 32 - 1) * (1 + 1 / 2 ^ 24) ^ 2 ≤ f * 2 ^ 32 * (1 + 1 / 2 ^ 22) := by
        rw [mul_assoc, mul_assoc]; exact mul_le_mul_of_nonneg_left (by norm_num) h0
      linarith
  · show _ ≤ (k : ℚ) * rate + rate + f * rate
    have h3 : x * (1 - 1 / 2 ^ 24) ≤ k + 1 := by
      by_cases hxb : (2 : ℚ) ^ (-126 : ℤ) ≤ x
      · have hn := h.rel_normal x (by rwa [abs_of_nonneg x0])
        rw [abs_of_nonneg x0] at hn
        have hn1 := (abs_le.mp hn).1
        linarith
      · rw [not_le] at hxb
        have : (0 : ℚ) ≤ k := Nat.cast_nonneg k
        norm_num at hxb ⊢
        linarith
    have h4 : f * u * (1 - 1 / 2 ^ 24) * (1 - 1 / 2 ^ 24) ≤ k + 1 := by
      have : (f * u - f * u / 2 ^ 24) * (1 - 1 / 2 ^ 24) ≤ x * (1 - 1 / 2 ^ 24) := mul_le_mul_of_nonneg_right hx2 (by norm_num)
      linarith
    have h5 : f * u * (1 - 1 / 2 ^ 24) * (1 - 1 / 2 ^ 24) * rate ≤ (k + 1) * rate := mul_le_mul_of_nonneg_right h4 (by linarith)
    have h6 : (f * (2 ^ 32 - 1) - f * rate) * ((1 - 1 / 2 ^ 24) * (1 - 1 / 2 ^ 24)) ≤ f * u * rate * ((1 - 1 / 2 ^ 24) * (1 - 1 / 2 ^ 24)) := mul_le_mul_of_nonneg_right (by linarith) (by norm_num)
    have h7 : f * rate * ((1 - 1 / 2 ^ 24) * (1 - 1 / 2 ^ 24)) ≤ f * rate := mul_le_of_le_one_right (by positivity) (by norm_num)
    have h8 : f * 2 ^ 32 * (1 - 1 / 2 ^ 22) ≤ f * (2 ^ 32 - 1) * ((1 - 1 / 2 ^ 24) * (1 - 1 / 2 ^ 24)) := by
      rw [mul_assoc, mul_assoc]; exact mul_le_mul_of_nonneg_left (by norm_num) h0
    linarith

/-- 0.1 Hz at 1000 updates per second is a legal frequency; so is 440.5 Hz at 48 kHz. -/
example : (0 : ℚ) ≤ 1 / 10 ∧ (1 / 10 : ℚ) ≤ (1000 : ℕ) * (1 - 1 / 2 ^ 21) ∧ (881 / 2 : ℚ) ≤ (48000 : ℕ) * (1 - 1 / 2 ^ 21) := by norm_num

/-- Dividing rounded values: the quotient `y` of `u` by `m / 1000`, all rounded, has a relative error of at most 2^-21. -/
theorem quotient (rnd : ℚ → ℚ) (h : Nearest rnd) (u m : Nat) (hu : 0 < u) (hm : 0 < m) (hm2 : m < 2 ^ 32) :
    0 ≤ rnd (rnd u / rnd (rnd m / 1000)) ∧ rnd (rnd u / rnd (rnd m / 1000)) * m ≤ 1000 * u * (1 + 1 / 2 ^ 21) ∧ 1000 * u * (1 - 1 / 2 ^ 21) ≤ rnd (rnd u / rnd (rnd m / 1000)) * m := by
  have u1 : (1 : ℚ) ≤ u := by exact_mod_cast hu
  have m1 : (1 : ℚ) ≤ m := by exact_mod_cast hm
  have hmu : (m : ℚ) ≤ 2 ^ 32 := by exact_mod_cast hm2.le
  obtain ⟨v1, v2⟩ := abs_le.mp (h.rel_nat u)
  obtain ⟨a1, a2⟩ := abs_le.mp (h.rel_nat m)
  have v3 : 1 ≤ rnd u := h.ge f32_one u1
  have a3 : 1 ≤ rnd m := h.ge f32_one m1
  have a4 : rnd m ≤ 2 ^ 32 := h.le (f32_pow2 32) hmu
  obtain ⟨a, ha⟩ : ∃ a, rnd (m : ℚ) = a := ⟨_, rfl⟩
  obtain ⟨v, hv⟩ : ∃ v, rnd (u : ℚ) = v := ⟨_, rfl⟩
  rw [ha] at a1 a2 a3 a4 ⊢
  rw [hv] at v1 v2 v3 ⊢
  have hb := h.rel_normal (a / 1000) (by rw [abs_of_nonneg (by linarith)]; norm_num; linarith)
  rw [abs_of_nonneg (show 0 ≤ a / 1000 by linarith)] at hb
  obtain ⟨b1, b2⟩ := abs_le.mp hb
  obtain ⟨b, hb'⟩ : ∃ b, rnd (a / 1000) = b := ⟨_, rfl⟩
  rw [hb'] at b1 b2 ⊢
  have b3 : 0 < b := by norm_num at b1 ⊢; linarith
  have b4 : b ≤ 2 ^ 32 := by norm_num at b2 a4 ⊢; linarith
  obtain ⟨x, hx⟩ : ∃ x, v / b = x := ⟨_, rfl⟩
  have hxb : x * b = v := by rw [← hx]; field_simp
  have x0 : 0 < x := by rw [← hx]; positivity
  have xn : (2 : ℚ) ^ (-126 : ℤ) ≤ x := by
    have : (1 : ℚ) / 2 ^ 32 ≤ x := by
      rw [← hx, div_le_div_iff₀ (by norm_num) b3]; nlinarith
    norm_num at this ⊢
    linarith
  have hy := h.rel_normal x (by rwa [abs_of_pos x0])
  rw [abs_of_pos x0] at hy
  obtain ⟨y1, y2⟩ := abs_le.mp hy
  rw [hx]
  have y0 : 0 ≤ rnd x := h.ge f32_zero x0.le
  obtain ⟨y, hy'⟩ : ∃ y, rnd x = y := ⟨_, rfl⟩
  rw [hy'] at y0 y1 y2 ⊢
  -- b is near m / 1000, y * b near v
  have c1 : m * (1 - 1 / 2 ^ 24) ^ 2 ≤ 1000 * b := by nlinarith
  have c2 : 1000 * b ≤ m * (1 + 1 / 2 ^ 24) ^ 2 := by nlinarith
  have c3 : y * b ≤ v * (1 + 1 / 2 ^ 24) := by rw [← hxb]; nlinarith
  have c4 : v * (1 - 1 / 2 ^ 24) ≤ y * b := by rw [← hxb]; nlinarith
  have c5 : y * b ≤ u * (1 + 1 / 2 ^ 24) ^ 2 := by nlinarith
  have c6 : u * (1 - 1 / 2 ^ 24) ^ 2 ≤ y * b := by nlinarith
  refine ⟨y0, ?_, ?_⟩
  · have e1 : y * (m * (1 - 1 / 2 ^ 24) ^ 2) ≤ y * (1000 * b) := mul_le_mul_of_nonneg_left c1 y0
    have e2 : y * m * (1 - 1 / 2 ^ 24) ^ 2 ≤ 1000 * u * (1 + 1 / 2 ^ 24) ^ 2 := by linarith
    have e3 : (1000 * u : ℚ) * (1 + 1 / 2 ^ 24) ^ 2 ≤ 1000 * u * ((1 + 1 / 2 ^ 21) * (1 - 1 / 2 ^ 24) ^ 2) := mul_le_mul_of_nonneg_left (by norm_num) (by linarith)
    have e4 : y * m * (1 - 1 / 2 ^ 24) ^ 2 ≤ 1000 * u * (1 + 1 / 2 ^ 21) * (1 - 1 / 2 ^ 24) ^ 2 := by linarith
    exact le_of_mul_le_mul_right e4 (by norm_num)
  · have e1 : y * (1000 * b) ≤ y * (m * (1 + 1 / 2 ^ 24) ^ 2) := mul_le_mul_of_nonneg_left c2 y0
    have e2 : 1000 * u * (1 - 1 / 2 ^ 24) ^ 2 ≤ y * m * (1 + 1 / 2 ^ 24) ^ 2 := by linarith
    have e3 : 1000 * u * ((1 - 1 / 2 ^ 21) * (1 + 1 / 2 ^ 24) ^ 2) ≤ (1000 * u : ℚ) * (1 - 1 / 2 ^ 24) ^ 2 := mul_le_mul_of_nonneg_left (by norm_num) (by linarith)
    have e4 : 1000 * u * (1 - 1 / 2 ^ 21) * (1 + 1 / 2 ^ 24) ^ 2 ≤ y * m * (1 + 1 / 2 ^ 24) ^ 2 := by linarith
    exact le_of_mul_le_mul_right e4 (by norm_num)

/-- **C149**: DownCounter::set_period_ms is defined for every period at every update rate from 1000 Hz up. The counter, reset, is not 0 after n updates if n updates are shorter than the period by more than
2^-21 of it, and is 0 once n times (increment's lower bound) reaches 2^32 - 1 (an increment of 0, for periods of hours, ends at once: C96). -/
theorem C149_down_period (rnd : ℚ → ℚ) (h : Nearest rnd) (rate ms : Nat) (hr : 1000 ≤ rate) (hr2 : rate < 2 ^ 31) (hm : 0 < ms) (hm2 : ms < 2 ^ 32) (d : Down) :
    ∃ d', downSetPeriodMs rnd rate d ms = .ok d' ∧ d'.phase = d.phase ∧ (d'.inc : ℚ) * ms ≤ 1000 * freqUnits rate * (1 + 1 / 2 ^ 21) ∧ 1000 * freqUnits rate * (1 - 1 / 2 ^ 21) < ((d'.inc : ℚ) + 1) * ms ∧
      (∀ n : Nat, 1000 * (n : ℚ) * (1 + 1 / 2 ^ 21) < ms * rate → d'.inc ≠ 0 → (Down.update^[n] d'.reset).val ≠ 0) ∧
      (∀ n : Nat, (2 ^ 32 - 1) * (ms : ℚ) ≤ n * (1000 * freqUnits rate * (1 - 1 / 2 ^ 21) - ms) → (Down.update^[n] d'.reset).val = 0) := by
  have hfu : 0 < freqUnits rate := Nat.div_pos (by omega) (by omega)
  have hfu2 : freqUnits rate ≤ 4294967 := by
    unfold freqUnits
    calc 0xFFFFFFFF / rate ≤ 0xFFFFFFFF / 1000 := Nat.div_le_div_left hr (by norm_num)
      _ = 4294967 := by norm_num
  have hfr := (freqUnits_rat rate (by omega)).1
  have hfu2' : (freqUnits rate : ℚ) ≤ 4294967 := by exact_mod_cast hfu2
  obtain ⟨y0, y1, y2⟩ := quotient rnd h (freqUnits rate) ms hfu hm hm2
  have m1 : (1 : ℚ) ≤ ms := by exact_mod_cast hm
  -- the quotient fits
  have hyW : rnd (rnd (freqUnits rate) / rnd (rnd ms / 1000)) < (W : ℕ) := by
    rw [W_val]
    by_cases h1 : ms = 1
    · rw [h1, Nat.cast_one, h.fix f32_one]
      have e1 : rnd (1 / 1000) = (8589935 : ℤ) * (2 : ℚ) ^ (-33 : ℤ) := h.eq_of_close _ _ _ (by norm_num) (by norm_num) (by norm_num) (by norm_num [abs_of_nonneg])
      have e2 : rnd (freqUnits rate) = freqUnits rate := h.fix (by
        have := f32_int (freqUnits rate) (by rw [abs_of_nonneg (by positivity)]; omega)
        exact_mod_cast this)
      rw [e1, e2]
      have e3 : rnd ((freqUnits rate : ℚ) / ((8589935 : ℤ) * (2 : ℚ) ^ (-33 : ℤ))) ≤ (16777215 : ℤ) * (2 : ℚ) ^ (8 : ℤ) := by
        refine h.le ⟨16777215, 8, by norm_num, by norm_num, rfl⟩ ?_
        rw [div_le_iff₀ (by norm_num)]
        norm_num
        linarith
      norm_num at e3 ⊢
      linarith
    · have h2 : (2 : ℚ) ≤ ms := by exact_mod_cast (by omega : 2 ≤ ms)
      norm_num at y1 ⊢
      nlinarith
  obtain ⟨k, hk, hk1, hk2⟩ := trunc_ok W _ y0 hyW
  obtain ⟨u, hu⟩ : ∃ u : ℚ, (freqUnits rate : ℚ) = u := ⟨_, rfl⟩
  have b1 : (k : ℚ) * ms ≤ 1000 * u * (1 + 1 / 2 ^ 21) := by
    have : (k : ℚ) * ms ≤ rnd (rnd (freqUnits rate) / rnd (rnd ms / 1000)) * ms := mul_le_mul_of_nonneg_right hk1 (by linarith)
    rw [← hu]; linarith
  have b2 : 1000 * u * (1 - 1 / 2 ^ 21) < ((k : ℚ) + 1) * ms := by
    have : rnd (rnd (freqUnits rate) / rnd (rnd ms / 1000)) * ms < ((k : ℚ) + 1) * ms := mul_lt_mul_of_pos_right hk2 (by linarith)
    rw [← hu]; linarith
  refine ⟨{ d with inc := k }, ?_, rfl, by rw [hu]; exact b1, by rw [hu]; exact b2, ?_, ?_⟩
  · unfold downSetPeriodMs
    rw [if_neg (by omega), hk]; rfl
  · intro n hn hi
    rw [(C95_down (Down.reset { d with inc := k }) hi n).1]
    show 0xFFFFFFFF - n * k ≠ 0
    have h3 : (n * k : ℚ) < 2 ^ 32 - 1 := by
      have e1 : (n : ℚ) * (k * ms) ≤ n * (1000 * u * (1 + 1 / 2 ^ 21)) := mul_le_mul_of_nonneg_left b1 (Nat.cast_nonneg n)
      have e2 : 1000 * (n : ℚ) * (1 + 1 / 2 ^ 21) * u < ms * rate * u := mul_lt_mul_of_pos_right hn (by rw [← hu]; exact_mod_cast hfu)
      rw [hu] at hfr
      have e3 : (u * rate) * ms ≤ (2 ^ 32 - 1) * ms := mul_le_mul_of_nonneg_right hfr (by linarith)
      have e4 : (n * k : ℚ) * ms < (2 ^ 32 - 1) * ms := by linarith
      exact lt_of_mul_lt_mul_right e4 (by linarith)
    have h4 : ((n * k + 1 : ℕ) : ℚ) < ((2 ^ 32 : ℕ) : ℚ) := by push_cast; linarith
    have h5 : n * k + 1 < 2 ^ 32 := by exact_mod_cast h4
    omega
  · intro n hn
    rw [hu] at hn
    by_cases hk0 : k = 0
    · have hn0 : n ≠ 0 := by
        rintro rfl
        rw [Nat.cast_zero, zero_mul] at hn
        norm_num at hn; linarith
      obtain ⟨j, rfl⟩ := Nat.exists_eq_succ_of_ne_zero hn0
      rw [Function.iterate_succ_apply]
      have e : (Down.reset { d with inc := k }).update = ⟨0, 0⟩ := by subst hk0; rfl
      rw [e]
      have : ∀ j, Down.update^[j] ⟨0, 0⟩ = ⟨0, 0⟩ := by
        intro j; induction j with
        | zero => rfl
        | succ j ih => rw [Function.iterate_succ_apply', ih]; rfl
      rw [this]; rfl
    · rw [(C95_down (Down.reset { d with inc := k }) hk0 n).1]
      show 0xFFFFFFFF - n * k = 0
      have h3 : (2 : ℚ) ^ 32 - 1 ≤ n * k := by
        have e1 : (n : ℚ) * (1000 * u * (1 - 1 / 2 ^ 21) - ms) ≤ n * (k * ms) := mul_le_mul_of_nonneg_left (by linarith) (Nat.cast_nonneg n)
        have e4 : (2 ^ 32 - 1) * (ms : ℚ) ≤ (n * k) * ms := by linarith
        exact le_of_mul_le_mul_right e4 (by linarith)
      have h4 : ((2 ^ 32 : ℕ) : ℚ) ≤ ((n * k + 1 : ℕ) : ℚ) := by push_cast; linarith
      have h5 : 2 ^ 32 ≤ n * k + 1 := by exact_mod_cast h4
      omega

/-- A 250 ms period at 48 kHz: not over after 11999 updates, over after 12002. -/
example : 1000 * ((11999 : ℕ) : ℚ) * (1 + 1 / 2 ^ 21) < (250 : ℕ) * (48000 : ℕ) ∧ (2 ^ 32 - 1) * ((250 : ℕ) : ℚ) ≤ (12002 : ℕ) * (1000 * (freqUnits 48000 : ℕ) * (1 - 1 / 2 ^ 21) - (250 : ℕ)) := by
  have : freqUnits 48000 = 89478 := by decide
  rw [this]; norm_num

end OscsFloat
