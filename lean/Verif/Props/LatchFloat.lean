import Verif.Props.ParamsFloat
/-! # Property C163: LatchedParam<float> in binary32 -/

namespace ParamsFloat
open Flt

/-- the rounded threshold -/
theorem latch_min (rnd : ℚ → ℚ) (h : Nearest rnd) (num den : Nat) (hn : 0 < num) (hn2 : num ≤ 2 ^ 24) (hd : 0 < den) (hd2 : den ≤ 2 ^ 24) :
    |latchMin rnd num den - num / den| ≤ num / den / 2 ^ 24 ∧ 0 < latchMin rnd num den := by
  unfold latchMin
  rw [h.fix (f32_nat num hn2), h.fix (f32_nat den hd2)]
  have hnq : (1 : ℚ) ≤ num := by exact_mod_cast hn
  have hdq : (0 : ℚ) < den := by exact_mod_cast hd
  have hdq2 : (den : ℚ) ≤ 2 ^ 24 := by exact_mod_cast hd2
  have hq : (1 : ℚ) / 2 ^ 24 ≤ num / den := by
    rw [div_le_div_iff₀ (by positivity) hdq]
    nlinarith
  have hq0 : (0 : ℚ) < num / den := by positivity
  have := h.rel_normal ((num : ℚ) / den) (by
    rw [abs_of_pos hq0]
    refine le_trans ?_ hq
    norm_num)
  rw [abs_of_pos hq0] at this
  refine ⟨this, ?_⟩
  have := (abs_le.mp this).1
  have : (num : ℚ) / den / 2 ^ 24 ≤ num / den / 2 := by gcongr; norm_num
  linarith

/-- the rounded difference -/
theorem latch_diff (rnd : ℚ → ℚ) (h : Nearest rnd) (v x : ℚ) (hv : F32 v) (hx : F32 x) :
    ∃ d, (if x ≥ v then rnd (x - v) else rnd (v - x)) = d ∧ d = rnd |x - v| ∧ |d - (|x - v|)| ≤ |x - v| / 2 ^ 24 := by
  refine ⟨_, rfl, ?_, ?_⟩
  · split
    · next hc => rw [abs_of_nonneg (sub_nonneg.mpr hc)]
    · next hc => rw [abs_of_nonpos (sub_nonpos.mpr (le_of_not_ge hc)), neg_sub]
  · split
    · next hc =>
      have := h.sub_rel hx hv
      rw [abs_of_nonneg (sub_nonneg.mpr hc)] at this ⊢
      exact this
    · next hc =>
      have := h.sub_rel hv hx
      rw [abs_of_nonneg (sub_nonneg.mpr (le_of_not_ge hc))] at this
      rw [abs_of_nonpos (sub_nonpos.mpr (le_of_not_ge hc)), neg_sub]
      exact this

/-- **C163** (partial): LatchedParam<float, num, den>::store_changed(x) takes every x that differs from the value by num/den plus one unit of rounding (a factor of 1 + 2^-24) or more; it takes no x that
differs by less than num/den minus two units of rounding; what it takes becomes the value and sets the change flag, and otherwise nothing changes. Missing: the exact threshold num/den
(see `C163_threshold_violated`). -/
theorem C163_store_partial (rnd : ℚ → ℚ) (h : Nearest rnd) (num den : Nat) (hn : 0 < num) (hn2 : num ≤ 2 ^ 24) (hd : 0 < den) (hd2 : den ≤ 2 ^ 24) (p : Latched ℚ) (hv : F32 p.val) (x : ℚ) (hx : F32 x) :
    (num / den * (1 + 1 / 2 ^ 24) ≤ |x - p.val| → latchStore rnd num den p x = (⟨x, true⟩, true)) ∧
    (|x - p.val| < num / den * (1 - 2 / 2 ^ 24) → latchStore rnd num den p x = (p, false)) ∧
    (latchStore rnd num den p x = (⟨x, true⟩, true) ∨ latchStore rnd num den p x = (p, false)) := by
  obtain ⟨m1, m2⟩ := latch_min rnd h num den hn hn2 hd hd2
  have mf : F32 (latchMin rnd num den) := h.f32 _
  obtain ⟨d, e1, e2, e3⟩ := latch_diff rnd h p.val x hv hx
  have hq0 : (0 : ℚ) < num / den := by
    have hnq : (0 : ℚ) < num := by exact_mod_cast hn
    have hdq : (0 : ℚ) < den := by exact_mod_cast hd
    positivity
  have hst : latchStore rnd num den p x = if d ≥ latchMin rnd num den then (⟨x, true⟩, true) else (p, false) := by
    unfold latchStore
    simp only [e1]
  rw [hst]
  generalize latchMin rnd num den = mc at *
  generalize (num : ℚ) / den = q at *
  refine ⟨fun hc => ?_, fun hc => ?_, ?_⟩
  · rw [if_pos]
    have h1 : mc ≤ |x - p.val| := by
      have := (abs_le.mp m1).2
      linarith
    rw [e2]
    exact h.ge mf h1
  · rw [if_neg]
    have h1 := (abs_le.mp e3).2
    have h2 := (abs_le.mp m1).1
    have h3 : |x - p.val| / 2 ^ 24 ≤ q * (1 - 2 / 2 ^ 24) / 2 ^ 24 := by gcongr
    rw [ge_iff_le, not_le]
    linarith
  · split
    · exact .inl rfl
    · exact .inr rfl

example (rnd : ℚ → ℚ) (h : Nearest rnd) : latchStore rnd 1 10 ⟨1 / 2, false⟩ (3 / 4) = (⟨3 / 4, true⟩, true) ∧ latchStore rnd 1 10 ⟨1 / 2, false⟩ (9 / 16) = (⟨1 / 2, false⟩, false) := by
  have f1 : F32 (1 / 2) := by simpa using f32_div 1 (by norm_num) 1 (by norm_num)
  have f2 : F32 (3 / 4) := by have := f32_div 3 (by norm_num) 2 (by norm_num); norm_num at this ⊢; exact this
  have f3 : F32 (9 / 16) := by have := f32_div 9 (by norm_num) 4 (by norm_num); norm_num at this ⊢; exact this
  exact ⟨(C163_store_partial rnd h 1 10 (by decide) (by decide) (by decide) (by decide) ⟨1 / 2, false⟩ f1 _ f2).1 (by norm_num [abs_le, le_abs]),
    (C163_store_partial rnd h 1 10 (by decide) (by decide) (by decide) (by decide) ⟨1 / 2, false⟩ f1 _ f3).2.1 (by norm_num [abs_lt])⟩

/-- **C163**: over every history of stores of floats the value is a float and within the threshold (plus one unit of rounding) of the float stored last. -/
theorem C163_tracks (rnd : ℚ → ℚ) (h : Nearest rnd) (num den : Nat) (hn : 0 < num) (hn2 : num ≤ 2 ^ 24) (hd : 0 < den) (hd2 : den ≤ 2 ^ 24) (p : Latched ℚ) (hv : F32 p.val) (xs : List ℚ) (hx : ∀ x ∈ xs, F32 x)
    (x : ℚ) (hxf : F32 x) :
    |x - ((xs ++ [x]).foldl (fun s y => (latchStore rnd num den s y).1) p).val| < num / den * (1 + 1 / 2 ^ 24) := by
  have hf : ∀ (xs : List ℚ) (p : Latched ℚ), F32 p.val → (∀ x ∈ xs, F32 x) → F32 (xs.foldl (fun s y => (latchStore rnd num den s y).1) p).val := by
    intro xs
    induction xs with
    | nil => intro p hp _; exact hp
    | cons y ys ih =>
      intro p hp hall
      rw [List.foldl_cons]
      refine ih _ ?_ fun z hz => hall z (List.mem_cons_of_mem _ hz)
      rcases (C163_store_partial rnd h num den hn hn2 hd hd2 p hp y (hall y List.mem_cons_self)).2.2 with e | e
      · rw [e]; exact hall y List.mem_cons_self
      · rw [e]; exact hp
  have hq0 : (0 : ℚ) < num / den := by
    have hnq : (0 : ℚ) < num := by exact_mod_cast hn
    have hdq : (0 : ℚ) < den := by exact_mod_cast hd
    positivity
  have hp' := hf xs p hv hx
  rw [List.foldl_append]
  simp only [List.foldl_cons, List.foldl_nil]
  generalize xs.foldl (fun s y => (latchStore rnd num den s y).1) p = q at *
  obtain ⟨k1, _, k3⟩ := C163_store_partial rnd h num den hn hn2 hd hd2 q hp' x hxf
  by_cases hc : num / den * (1 + 1 / 2 ^ 24) ≤ |x - q.val|
  · rw [k1 hc, sub_self, abs_zero]; positivity
  · rcases k3 with e | e
    · rw [e, sub_self, abs_zero]; positivity
    · rw [e]; exact lt_of_not_ge hc

example (rnd : ℚ → ℚ) (h : Nearest rnd) := C163_tracks rnd h 1 10 (by decide) (by decide) (by decide) (by decide) Latched.init f32_zero [1, 0] (by intro x hx; simp at hx; rcases hx with rfl | rfl; exacts [f32_one, f32_zero]) 1 f32_one

/-- **C163**: a float that differs from the value by less than the threshold (minus two units of rounding) at every store is never taken: no change is reported however long the noise lasts. -/
theorem C163_noise (rnd : ℚ → ℚ) (h : Nearest rnd) (num den : Nat) (hn : 0 < num) (hn2 : num ≤ 2 ^ 24) (hd : 0 < den) (hd2 : den ≤ 2 ^ 24) (p : Latched ℚ) (hv : F32 p.val) (xs : List ℚ)
    (hx : ∀ x ∈ xs, F32 x ∧ |x - p.val| < num / den * (1 - 2 / 2 ^ 24)) : xs.foldl (fun s y => (latchStore rnd num den s y).1) p = p := by
  induction xs with
  | nil => rfl
  | cons y ys ih =>
    rw [List.foldl_cons]
    have := hx y List.mem_cons_self
    rw [(C163_store_partial rnd h num den hn hn2 hd hd2 p hv y this.1).2.1 this.2]
    exact ih fun z hz => hx z (List.mem_cons_of_mem _ hz)

example (rnd : ℚ → ℚ) (h : Nearest rnd) := C163_noise rnd h 1 1 (by decide) (by decide) (by decide) (by decide) ⟨0, false⟩ f32_zero [1 / 2, -(1 / 2)] (by
  have f1 : F32 (1 / 2) := by simpa using f32_div 1 (by norm_num) 1 (by norm_num)
  intro x hx; simp at hx; rcases hx with rfl | rfl
  · exact ⟨by simpa using f1, by norm_num [abs_lt]⟩
  · exact ⟨by simpa using f32_neg f1, by norm_num [abs_lt]⟩)

/-- **C163, violated**: the threshold is not exact: with a threshold of 1, a change of 1 - 2^-26 is taken, because the difference rounds up to 1. -/
theorem C163_threshold_violated (rnd : ℚ → ℚ) (h : Nearest rnd) : ∃ v x : ℚ, F32 v ∧ F32 x ∧ |x - v| < 1 ∧ latchStore rnd 1 1 ⟨v, false⟩ x = (⟨x, true⟩, true) := by
  refine ⟨-(3 / 2 ^ 26), 1 - 1 / 2 ^ 24, ?_, ?_, by norm_num [abs_lt], ?_⟩
  · have := f32_div (-3) (by norm_num) 26 (by norm_num)
    norm_num at this ⊢; exact this
  · have := f32_div (2 ^ 24 - 1) (by norm_num) 24 (by norm_num)
    norm_num at this ⊢; exact this
  · have e : rnd (1 - 1 / 2 ^ 26) = 1 := by
      have := h.eq_of_close (1 - 1 / 2 ^ 26) (2 ^ 24) (-24) (by norm_num) (by norm_num) (by norm_num [abs_of_pos]) (by norm_num [abs_lt])
      rw [this]; norm_num
    have e2 : latchMin rnd 1 1 = 1 := by
      unfold latchMin
      rw [Nat.cast_one, h.fix f32_one, div_one, h.fix f32_one]
    unfold latchStore
    rw [e2]
    simp only
    have e3 : (1 : ℚ) - 1 / 2 ^ 24 - -(3 / 2 ^ 26) = 1 - 1 / 2 ^ 26 := by norm_num
    have e4 : (1 : ℚ) - 1 / 2 ^ 24 ≥ -(3 / 2 ^ 26) := by norm_num
    rw [e3, e, if_pos e4, if_pos (le_refl _)]

end ParamsFloat
