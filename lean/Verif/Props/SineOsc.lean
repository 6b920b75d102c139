import Verif.Model.SineOsc
import Verif.Props.MathFns
/-! # Property C133: sine oscillator -/

namespace SineOsc
open Flt Interp Interp.Spec InterpArray MathTables

attribute [local irreducible] sinTable

/-- Rounding a number of [0,1] moves it by at most 2^-25. -/
theorem round_unit (rnd : ℚ → ℚ) (h : Nearest rnd) (x : ℚ) (h0 : 0 ≤ x) (h1 : x ≤ 1) : |rnd x - x| ≤ 1 / 2 ^ 25 := by
  obtain ⟨n, hn⟩ : ∃ n : ℤ, n = round (x * 2 ^ 24) := ⟨_, rfl⟩
  have hr : |x * 2 ^ 24 - n| ≤ 1 / 2 := by rw [hn]; exact abs_sub_round _
  rw [abs_le] at hr
  have hn0 : 0 ≤ n := by
    have : (-1 : ℚ) < n := by
      have : 0 ≤ x * 2 ^ 24 := by positivity
      linarith
    have : (-1 : ℤ) < n := by exact_mod_cast this
    omega
  have hn1 : n ≤ 2 ^ 24 := by
    have : (n : ℚ) < 2 ^ 24 + 1 := by
      have : x * 2 ^ 24 ≤ 2 ^ 24 := by nlinarith
      linarith
    have : n < 2 ^ 24 + 1 := by exact_mod_cast this
    omega
  have hF : F32 ((n : ℚ) / 2 ^ 24) := by
    rcases eq_or_lt_of_le hn1 with h | h
    · rw [h]; norm_num; exact f32_one
    · exact f32_div n (by rw [abs_lt]; omega) 24 (by norm_num)
  refine (h.nearest x _ hF).trans ?_
  rw [show (n : ℚ) / 2 ^ 24 - x = -(x * 2 ^ 24 - n) / 2 ^ 24 by field_simp; ring, abs_div, abs_neg, abs_of_pos (show (0 : ℚ) < 2 ^ 24 by positivity)]
  rw [div_le_div_iff₀ (by positivity) (by positivity)]
  have : |x * 2 ^ 24 - (n : ℚ)| ≤ 1 / 2 := abs_le.mpr hr
  norm_num at this ⊢
  linarith

/-- A number at most 2^-25 above 1 is rounded to at most 1. -/
theorem round_one (rnd : ℚ → ℚ) (h : Nearest rnd) (x : ℚ) (hx : x ≤ 1 + 1 / 2 ^ 25) : rnd x ≤ 1 := by
  by_cases h1 : x ≤ 1
  · exact h.le f32_one h1
  · rw [not_le] at h1
    have hge : 1 ≤ rnd x := h.ge f32_one h1.le
    have hn := h.nearest x 1 f32_one
    rw [abs_of_nonpos (show 1 - x ≤ 0 by linarith), abs_le] at hn
    obtain ⟨k, hk⟩ := f32_multiple (h.f32 x) (-23) (by rw [abs_of_nonneg (by linarith)]; norm_num; exact hge)
    rw [show (2 : ℚ) ^ (-23 : ℤ) = 1 / 8388608 by norm_num] at hk
    have h3 : rnd x ≤ 1 + 1 / 2 ^ 24 := by norm_num at hx ⊢; linarith [hn.2]
    rw [hk] at h3 ⊢
    have h4 : (k : ℚ) < 8388609 := by norm_num at h3; linarith
    have h5 : k < 8388609 := by exact_mod_cast h4
    have h6 : (k : ℚ) ≤ 8388608 := by exact_mod_cast (show k ≤ 8388608 by omega)
    linarith

theorem round_neg_one (rnd : ℚ → ℚ) (h : Nearest rnd) (x : ℚ) (hx : -(1 + 1 / 2 ^ 25) ≤ x) : -1 ≤ rnd x := by
  have h' : Nearest (fun y => -rnd (-y)) := ⟨fun y => f32_neg (h.f32 _), fun y z hz => by
    have := h.nearest (-y) (-z) (f32_neg hz)
    rw [show -z - -y = -(z - y) by ring, abs_neg] at this
    rw [show -rnd (-y) - y = -(rnd (-y) - -y) by ring, abs_neg]
    exact this⟩
  have := round_one _ h' (-x) (by linarith)
  simp only [neg_neg] at this
  linarith

/-- Interpolation in a table with entries in [-1,1] stays there, also in binary32. -/
theorem interp_range (rnd : ℚ → ℚ) (hr : rnd = id ∨ Nearest rnd) (data : List ℚ) (hl : data.length = 2048) (hd : ∀ i, -1 ≤ at' data i ∧ at' data i ≤ 1) (p : ℚ) (h0 : 0 ≤ p) (h1 : p ≤ 2) :
    ∃ v, interpWrapR rnd data p = .ok v ∧ -1 ≤ v ∧ v ≤ 1 := by
  have hmono : ∀ {a b : ℚ}, a ≤ b → rnd a ≤ rnd b := by
    rcases hr with rfl | h
    · exact fun h => h
    · exact fun h' => h.mono h'
  have hfix : ∀ a : ℚ, F32 a → rnd a = a := by
    rcases hr with rfl | h
    · exact fun _ _ => rfl
    · exact fun a ha => h.fix ha
  have h2048 : F32 (((2048 : Nat) : ℚ)) := by have := f32_int 2048 (by norm_num); exact_mod_cast this
  have h4096 : F32 4096 := by have := f32_int 4096 (by norm_num); exact_mod_cast this
  unfold interpWrapR
  rw [hl, hfix _ h2048]
  obtain ⟨x, hx⟩ : ∃ x, rnd (p * ((2048 : Nat) : ℚ)) = x := ⟨_, rfl⟩
  have hx0 : 0 ≤ x := by
    rw [← hx, ← hfix 0 f32_zero]; apply hmono; positivity
  have hx1 : x ≤ 4096 := by
    rw [← hx, ← hfix 4096 h4096]; apply hmono; push_cast; linarith
  simp only [hx]
  obtain ⟨k, hk0, hk1⟩ := cell x hx0
  have hk : k ≤ 4096 := by
    have : (k : ℚ) ≤ 4096 := by linarith
    exact_mod_cast this
  rw [trunc_cell 4294967296 k x hk0 hk1 (by omega), R.bind_ok]
  have hkF : F32 (k : ℚ) := by have := f32_int (k : ℤ) (by rw [abs_lt]; omega); exact_mod_cast this
  rw [hfix _ hkF, wrapIdx_eq _ (by norm_num)]
  have hmod : k % 2048 < 2048 := Nat.mod_lt _ (by norm_num)
  have hi1 : (if k % 2048 = 2048 - 1 then 0 else k % 2048 + 1) < data.length := by rw [hl]; split <;> omega
  rw [get_at data _ hi1, R.bind_ok, get_at data (k % 2048) (by omega), R.bind_ok]
  obtain ⟨d1, hd1⟩ : ∃ d1, at' data (if k % 2048 = 2048 - 1 then 0 else k % 2048 + 1) = d1 := ⟨_, rfl⟩
  obtain ⟨d0, hd0⟩ : ∃ d0, at' data (k % 2048) = d0 := ⟨_, rfl⟩
  have b1 := hd (if k % 2048 = 2048 - 1 then 0 else k % 2048 + 1)
  have b0 := hd (k % 2048)
  rw [hd1] at b1
  rw [hd0] at b0
  rw [hd1, hd0]
  refine ⟨_, rfl, ?_⟩
  obtain ⟨f, hf⟩ : ∃ f, rnd (x - k) = f := ⟨_, rfl⟩
  obtain ⟨g, hg⟩ : ∃ g, rnd (1 - f) = g := ⟨_, rfl⟩
  have hf0 : 0 ≤ f := by rw [← hf, ← hfix 0 f32_zero]; apply hmono; linarith
  have hf1 : f ≤ 1 := by rw [← hf, ← hfix 1 f32_one]; apply hmono; linarith
  have hg0 : 0 ≤ g := by rw [← hg, ← hfix 0 f32_zero]; apply hmono; linarith
  rw [hf, hg]
  rcases hr with rfl | h
  · simp only [id] at hf hg ⊢
    subst hg
    constructor <;> nlinarith
  · have hfF : F32 f := hf ▸ h.f32 _
    have hgF : F32 g := hg ▸ h.f32 _
    have herr := round_unit rnd h (1 - f) (by linarith) (by linarith)
    rw [hg, abs_le] at herr
    have u1 : rnd (d1 * f) ≤ f := h.le hfF (by nlinarith)
    have l1 : -f ≤ rnd (d1 * f) := h.ge (f32_neg hfF) (by nlinarith)
    have u0 : rnd (d0 * g) ≤ g := h.le hgF (by nlinarith)
    have l0 : -g ≤ rnd (d0 * g) := h.ge (f32_neg hgF) (by nlinarith)
    exact ⟨round_neg_one rnd h _ (by linarith [herr.2]), round_one rnd h _ (by linarith [herr.2])⟩

theorem table_len (rnd : ℚ → ℚ) : (sinTableR rnd).length = 2048 := by unfold sinTableR; rw [List.length_map, MathFns.sin_len]

theorem table_range (rnd : ℚ → ℚ) (hr : rnd = id ∨ Nearest rnd) (i : Nat) : -1 ≤ at' (sinTableR rnd) i ∧ at' (sinTableR rnd) i ≤ 1 := by
  by_cases hi : i < 2048
  · have hl := MathFns.sin_len
    have e : at' (sinTableR rnd) i = rnd (at' sinTable i) := by
      unfold sinTableR at'
      rw [List.getD_eq_getElem?_getD, List.getD_eq_getElem?_getD, List.getElem?_map, List.getElem?_eq_getElem (by omega)]
      rfl
    have hb := MathFns.sin_bound i
    rw [e]
    rcases hr with rfl | h
    · exact hb
    · exact ⟨h.ge (f32_neg f32_one) hb.1, h.le f32_one hb.2⟩
  · unfold at'
    rw [List.getD_eq_getElem?_getD, List.getElem?_eq_none (by rw [table_len]; omega)]
    norm_num

/-- The phase handed to the table. -/
theorem phase_range (rnd : ℚ → ℚ) (hr : rnd = id ∨ Nearest rnd) (s : Oscs.Accum) : 0 ≤ (processFloatR rnd s).2 ∧ (processFloatR rnd s).2 ≤ 2 := by
  have hlt : s.process.2 < 4294967296 := by
    unfold Oscs.Accum.process Oscs.Accum.val Oscs.Accum.update Oscs.W
    exact Nat.mod_lt _ (by norm_num)
  obtain ⟨n, hn⟩ : ∃ n, s.process.2 = n := ⟨_, rfl⟩
  rw [hn] at hlt
  have hq : (n : ℚ) ≤ 4294967296 := by exact_mod_cast hlt.le
  have hn0 : (0 : ℚ) ≤ n := Nat.cast_nonneg _
  unfold processFloatR
  simp only [hn]
  rcases hr with rfl | h
  · simp only [id]
    constructor
    · positivity
    · rw [mul_one_div, div_le_iff₀ (by norm_num)]; linarith
  · have h32 : F32 4294967296 := by have := f32_pow2 32; norm_num at this; exact this
    have h31 : F32 2147483648 := by have := f32_pow2 31; norm_num at this; exact this
    have i31 : F32 (1 / 2147483648) := by have := f32_div 1 (by norm_num) 31 (by norm_num); norm_num at this ⊢; exact this
    have h2 : F32 2 := by have := f32_int 2 (by norm_num); exact_mod_cast this
    have a1 : rnd n ≤ 4294967296 := h.le h32 hq
    have a0 : 0 ≤ rnd n := h.ge f32_zero hn0
    have b1 : 2147483648 ≤ rnd 4294967295 := h.ge h31 (by norm_num)
    have c1 : rnd (1 / rnd 4294967295) ≤ 1 / 2147483648 := h.le i31 (one_div_le_one_div_of_le (by norm_num) b1)
    have c0 : 0 ≤ rnd (1 / rnd 4294967295) := h.ge f32_zero (by positivity)
    refine ⟨h.ge f32_zero (mul_nonneg a0 c0), h.le h2 ?_⟩
    calc rnd n * rnd (1 / rnd 4294967295) ≤ 4294967296 * (1 / 2147483648) := mul_le_mul a1 c1 c0 (by norm_num)
      _ = 2 := by norm_num

/-- **C133**: in every state, in exact and in binary32 arithmetic, process_bipolar gives a value in [-1,1], process_unipolar in [0,1], and process (and val) an integer from 0 to 4294967040, without undefined behaviour; each advances the phase by one increment. -/
theorem C133_range (rnd : ℚ → ℚ) (hr : rnd = id ∨ Nearest rnd) (s : Oscs.Accum) :
    (∃ v, processBipolar rnd s = .ok (s.update, v) ∧ -1 ≤ v ∧ v ≤ 1) ∧
    (∃ v, processUnipolar rnd s = .ok (s.update, v) ∧ 0 ≤ v ∧ v ≤ 1) ∧
    (∃ n, process rnd s = .ok (s.update, n) ∧ n ≤ 4294967040) := by
  obtain ⟨v, hv, hv1, hv2⟩ := interp_range rnd hr (sinTableR rnd) (table_len rnd) (table_range rnd hr) _ (phase_range rnd hr s).1 (phase_range rnd hr s).2
  have hb : processBipolar rnd s = .ok (s.update, v) := by unfold processBipolar; rw [hv]; rfl
  have hmono : ∀ {a b : ℚ}, a ≤ b → rnd a ≤ rnd b := by
    rcases hr with rfl | h
    · exact fun h => h
    · exact fun h' => h.mono h'
  have hfix : ∀ a : ℚ, F32 a → rnd a = a := by
    rcases hr with rfl | h
    · exact fun _ _ => rfl
    · exact fun a ha => h.fix ha
  have hhalf : F32 (1 / 2) := ⟨1, -1, by norm_num, by norm_num, by norm_num⟩
  have hbig : F32 4294967040 := ⟨16777215, 8, by norm_num, by norm_num, by norm_num⟩
  have c1 : rnd (v * (1 / 2)) ≤ 1 / 2 := (hmono (show _ ≤ (1 / 2 : ℚ) by linarith)).trans (hfix _ hhalf).le
  have c0 : -(1 / 2) ≤ rnd (v * (1 / 2)) := (hfix _ (f32_neg hhalf)).ge.trans (hmono (by linarith))
  have e1 : rnd (rnd (v * (1 / 2)) + 1 / 2) ≤ 1 := (hmono (show _ ≤ (1 : ℚ) by linarith)).trans (hfix _ f32_one).le
  have e0 : 0 ≤ rnd (rnd (v * (1 / 2)) + 1 / 2) := (hfix _ f32_zero).ge.trans (hmono (by linarith))
  have hu : processUnipolar rnd s = .ok (s.update, rnd (rnd (v * (1 / 2)) + 1 / 2)) := by unfold processUnipolar; rw [hb]; rfl
  obtain ⟨u, hud⟩ : ∃ u, rnd (rnd (v * (1 / 2)) + 1 / 2) = u := ⟨_, rfl⟩
  rw [hud] at e1 e0 hu
  have p1 : rnd (u * 4294967040) ≤ 4294967040 := (hmono (show _ ≤ (4294967040 : ℚ) by linarith)).trans (hfix _ hbig).le
  have p0 : 0 ≤ rnd (u * 4294967040) := (hfix _ f32_zero).ge.trans (hmono (by linarith))
  refine ⟨⟨v, hb, hv1, hv2⟩, ⟨u, hu, e0, e1⟩, ⌊rnd (u * 4294967040)⌋.toNat, ?_, ?_⟩
  · unfold process
    rw [hu, R.bind_ok]
    unfold Color.trunc
    rw [if_pos ⟨by linarith, by push_cast; linarith⟩]
    rfl
  · rw [Int.toNat_le]
    have := (Int.floor_le (rnd (u * 4294967040))).trans p1
    exact_mod_cast this

/-- **C133** in exact arithmetic: the samples are those of the sine table: after each call the value is sin01 of the fraction of the period reached, the unipolar value half of it plus a half, and the integer that scaled and truncated. -/
theorem C133_samples (s : Oscs.Accum) : ∃ v, MathFns.sin01 ((s.update.phase : ℚ) / 4294967295) = .ok v ∧ processBipolar id s = .ok (s.update, v) ∧ processUnipolar id s = .ok (s.update, v / 2 + 1 / 2) ∧
    process id s = .ok (s.update, ⌊(v / 2 + 1 / 2) * 4294967040⌋.toNat) ∧ val id s = process id s := by
  obtain ⟨⟨v, hv, -⟩, ⟨u, hu, -⟩, ⟨n, hn, -⟩⟩ := C133_range id (.inl rfl) s
  have hbip : interpWrapR id (sinTableR id) (processFloatR id s).2 = .ok v := by
    unfold processBipolar at hv
    cases h : interpWrapR id (sinTableR id) (processFloatR id s).2 with
    | ok w => rw [h, R.bind_ok] at hv; cases hv; rfl
    | ub => rw [h, R.bind_ub] at hv; cases hv
  have hs : MathFns.sin01 ((s.update.phase : ℚ) / 4294967295) = .ok v := by
    rw [← hbip]
    unfold MathFns.sin01 interpWrap interpByIndexWrap interpWrapR blend processFloatR sinTableR Oscs.Accum.process Oscs.Accum.val
    simp only [id, mul_one_div, List.map_id]
  refine ⟨v, hs, hv, ?_, ?_, rfl⟩
  · unfold processUnipolar
    rw [hv, R.bind_ok]
    simp only [id]
    congr 2; ring
  · unfold process at hn ⊢
    have hu' : processUnipolar id s = .ok (s.update, v / 2 + 1 / 2) := by
      unfold processUnipolar
      rw [hv, R.bind_ok]
      simp only [id]
      congr 2; ring
    rw [hu', R.bind_ok] at hn ⊢
    simp only [id] at hn ⊢
    unfold Color.trunc at hn ⊢
    split at hn
    · next h => rw [if_pos h]; rfl
    · cases hn

/-- **C133** violated: unlike that of the other oscillators, val() is not an observer: it advances the phase, so update() followed by val() moves two increments. -/
theorem C133_val_violated (rnd : ℚ → ℚ) (hr : rnd = id ∨ Nearest rnd) (s : Oscs.Accum) (hp : s.phase < 4294967296) (hi : 0 < s.inc) (hi2 : s.inc < 4294967296) :
    ∃ t n, val rnd s = .ok (t, n) ∧ t ≠ s ∧ t = s.update := by
  obtain ⟨-, -, n, hn, -⟩ := C133_range rnd hr s
  refine ⟨s.update, n, hn, ?_, rfl⟩
  intro h
  have : s.update.phase = s.phase := by rw [h]
  unfold Oscs.Accum.update Oscs.W at this
  simp only at this
  omega

/-- **C133**: frequency and phase are those of the phase accumulator. -/
theorem C133_controls (rate freq phase : Nat) (s : Oscs.Accum) :
    (ofFreq rate freq).phase = 0 ∧ (ofFreq rate freq).inc = freq * (4294967295 / rate) % 4294967296 ∧ init.inc = 0 ∧ init.phase = 0 ∧
    (setFreq rate s freq).inc = freq * (4294967295 / rate) % 4294967296 ∧ (setFreq rate s freq).phase = s.phase ∧ (setPhase s phase).phase = phase ∧ (setPhase s phase).inc = s.inc ∧
    (update s).phase = (s.phase + s.inc) % 4294967296 ∧ (update s).inc = s.inc :=
  ⟨rfl, rfl, rfl, rfl, rfl, rfl, rfl, rfl, rfl, rfl⟩

/-- A running oscillator: quarter steps; four of them give a period of the accumulator. -/
example : (Oscs.Accum.update (Oscs.Accum.update ⟨0, 1073741824⟩)).phase = 2147483648 ∧ ∃ rnd, Nearest rnd ∧ ∃ n, process rnd ⟨0, 1073741824⟩ = .ok (⟨1073741824, 1073741824⟩, n) := by
  refine ⟨rfl, ?_⟩
  obtain ⟨rnd, h⟩ := exists_nearest
  obtain ⟨-, -, n, hn, -⟩ := C133_range rnd (.inr h) ⟨0, 1073741824⟩
  exact ⟨rnd, h, n, hn⟩

end SineOsc
