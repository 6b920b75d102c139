import Verif.Model.XCalib
import Verif.Model.CalibFloat
import Verif.Props.XMath
/-! # Properties C198, C199: the calibrators for every float, including infinities and NaN -/
namespace XCalib
open XFlt Flt

/-! ## C198: Calibrator -/

theorem div_fin (rnd : ℚ → ℚ) (a b : ℚ) (h : b ≠ 0) : div rnd (.fin a) (.fin b) = ofQ rnd (a / b) := by
  simp only [div, if_neg h]

theorem ge_pow {rnd : ℚ → ℚ} (hr : Nearest rnd) (k : ℕ) (hk : k ≤ 149) {q : ℚ} (h : 1 / 2 ^ k ≤ |q|) : 1 / 2 ^ k ≤ |rnd q| := XMath.float_sub_pos hr k hk h

/-- **C198**: calibrating with targets and measurements of magnitude at most 2^24 that are at least 2^-24 apart stays finite and gives the calibration of C148; so do adjust and reverse_calibrate with it for values of magnitude at most 2^24. -/
theorem C198_finite (rnd : ℚ → ℚ) (hr : Nearest rnd) (tL tH mL mH : ℚ) (h1 : |tL| ≤ 2 ^ 24) (h2 : |tH| ≤ 2 ^ 24) (h3 : |mL| ≤ 2 ^ 24) (h4 : |mH| ≤ 2 ^ 24) (ht : 1 / 2 ^ 24 ≤ |tH - tL|) (hm : 1 / 2 ^ 24 ≤ |mH - mL|) :
    ∃ c : Calibrator, CalibFloat.calibrate rnd tL tH mL mH = .ok c ∧ calibrate rnd (.fin tL) (.fin tH) (.fin mL) (.fin mH) = ⟨.fin c.slope, .fin c.offset⟩ ∧
      ∀ x : ℚ, |x| ≤ 2 ^ 24 → adjust rnd ⟨.fin c.slope, .fin c.offset⟩ (.fin x) = .fin (CalibFloat.adjust rnd c x) ∧
        ∃ r, CalibFloat.reverse rnd c x = .ok r ∧ reverse rnd ⟨.fin c.slope, .fin c.offset⟩ (.fin x) = .fin r := by
  have dist : ∀ a b : ℚ, |a| ≤ 2 ^ 24 → |b| ≤ 2 ^ 24 → |a - b| ≤ 2 ^ 25 := by
    intro a b ha hb
    have := abs_sub a b
    have e : (2 : ℚ) ^ 25 = 2 ^ 24 + 2 ^ 24 := by norm_num
    rw [e]; linarith
  obtain ⟨e1, c1⟩ := fin_of_le hr 25 (by norm_num) (dist tH tL h2 h1)
  obtain ⟨e2, c2⟩ := fin_of_le hr 25 (by norm_num) (dist mH mL h4 h3)
  have g1 := ge_pow hr 24 (by norm_num) ht
  have g2 := ge_pow hr 24 (by norm_num) hm
  have p1 : 0 < |rnd (tH - tL)| := lt_of_lt_of_le (by positivity) g1
  have p2 : 0 < |rnd (mH - mL)| := lt_of_lt_of_le (by positivity) g2
  have n2 : rnd (mH - mL) ≠ 0 := abs_pos.mp p2
  have s1 : |rnd (tH - tL) / rnd (mH - mL)| ≤ 2 ^ 49 := by
    rw [abs_div, div_le_iff₀ p2]
    calc |rnd (tH - tL)| ≤ 2 ^ 25 := c1
      _ = 2 ^ 49 * (1 / 2 ^ 24) := by norm_num
      _ ≤ _ := mul_le_mul_of_nonneg_left g2 (by positivity)
  have s2 : 1 / 2 ^ 49 ≤ |rnd (tH - tL) / rnd (mH - mL)| := by
    rw [abs_div, le_div_iff₀ p2]
    calc 1 / 2 ^ 49 * |rnd (mH - mL)| ≤ 1 / 2 ^ 49 * 2 ^ 25 := mul_le_mul_of_nonneg_left c2 (by positivity)
      _ = 1 / 2 ^ 24 := by norm_num
      _ ≤ _ := g1
  obtain ⟨e3, c3⟩ := fin_of_le hr 49 (by norm_num) s1
  have g3 := ge_pow hr 49 (by norm_num) s2
  obtain ⟨s, hs⟩ : ∃ s, s = rnd (rnd (tH - tL) / rnd (mH - mL)) := ⟨_, rfl⟩
  rw [← hs] at e3 c3 g3
  have p3 : 0 < |s| := lt_of_lt_of_le (by positivity) g3
  have n3 : s ≠ 0 := abs_pos.mp p3
  have quot : ∀ a : ℚ, |a| ≤ 2 ^ 24 → |a / s| ≤ 2 ^ 73 := by
    intro a ha
    rw [abs_div, div_le_iff₀ p3]
    calc |a| ≤ 2 ^ 24 := ha
      _ = 2 ^ 73 * (1 / 2 ^ 49) := by norm_num
      _ ≤ _ := mul_le_mul_of_nonneg_left g3 (by positivity)
  obtain ⟨e4, c4⟩ := fin_of_le hr 73 (by norm_num) (quot tL h1)
  obtain ⟨e5, c5⟩ := fin_of_le hr 74 (by norm_num) (q := mL - rnd (tL / s)) (by
    have := abs_sub mL (rnd (tL / s))
    have : (2 : ℚ) ^ 24 + 2 ^ 73 ≤ 2 ^ 74 := by norm_num
    linarith)
  refine ⟨⟨s, rnd (mL - rnd (tL / s))⟩, ?_, ?_, ?_⟩
  · unfold CalibFloat.calibrate
    rw [if_neg n2]
    simp only [← hs]
    rw [if_neg n3]
  · unfold calibrate
    rw [sub_fin, sub_fin, e1, e2, div_fin rnd _ _ n2, e3]
    simp only
    rw [div_fin rnd _ _ n3, e4, sub_fin, e5]
  · intro x hx
    simp only
    obtain ⟨e6, c6⟩ := fin_of_le hr 75 (by norm_num) (q := x - rnd (mL - rnd (tL / s))) (by
      have := abs_sub x (rnd (mL - rnd (tL / s)))
      have : (2 : ℚ) ^ 24 + 2 ^ 74 ≤ 2 ^ 75 := by norm_num
      linarith)
    obtain ⟨e7, c7⟩ := fin_of_le hr 124 (by norm_num) (q := rnd (x - rnd (mL - rnd (tL / s))) * s) (by
      rw [abs_mul]
      calc _ ≤ (2 : ℚ) ^ 75 * 2 ^ 49 := mul_le_mul c6 c3 (abs_nonneg _) (by positivity)
        _ = 2 ^ 124 := by norm_num)
    obtain ⟨e8, c8⟩ := fin_of_le hr 73 (by norm_num) (quot x hx)
    obtain ⟨e9, c9⟩ := fin_of_le hr 75 (by norm_num) (q := rnd (x / s) + rnd (mL - rnd (tL / s))) (by
      have := abs_add_le (rnd (x / s)) (rnd (mL - rnd (tL / s)))
      have : (2 : ℚ) ^ 73 + 2 ^ 74 ≤ 2 ^ 75 := by norm_num
      linarith)
    refine ⟨?_, _, if_neg n3, ?_⟩
    · unfold adjust CalibFloat.adjust
      simp only
      rw [sub_fin, e6, XMath.mul_fin, e7]
    · unfold reverse
      simp only
      rw [div_fin rnd _ _ n3, e8, XMath.add_fin, e9]

example (rnd : ℚ → ℚ) (hr : Nearest rnd) := C198_finite rnd hr 0 8 100 8388607 (by norm_num) (by norm_num) (by norm_num) (by norm_num) (by norm_num) (by norm_num)

theorem adjust_slope (rnd : ℚ → ℚ) (c : Cal) (h : ¬ Fin c.slope) (x : XF) : ¬ Fin (adjust rnd c x) := mul_special rnd _ _ (Or.inr h)
theorem adjust_offset (rnd : ℚ → ℚ) (c : Cal) (h : ¬ Fin c.offset) (x : XF) : ¬ Fin (adjust rnd c x) := mul_special rnd _ _ (Or.inl (sub_special rnd _ _ (Or.inr h)))

/-- `calibrate` gives a useless calibration unless the slope is finite and not zero. -/
theorem useless (rnd : ℚ → ℚ) (tL tH mL mH : XF) (h : ¬ Fin (calibrate rnd tL tH mL mH).slope ∨ (calibrate rnd tL tH mL mH).slope = .fin 0) (x : XF) :
    ¬ Fin (adjust rnd (calibrate rnd tL tH mL mH) x) := by
  rcases h with h | h
  · exact adjust_slope rnd _ h x
  · refine adjust_offset rnd _ ?_ x
    unfold calibrate at h ⊢
    simp only at h ⊢
    rw [h]
    exact sub_special rnd _ _ (Or.inr (div_zero rnd _))

/-- **C198, violated**: calibrating with two equal measurements, two equal targets or any infinity or NaN gives a Calibrator that maps no value to a finite one. -/
theorem C198_violated (rnd : ℚ → ℚ) (hr : Nearest rnd) (tL tH mL mH : XF) (h : mL = mH ∨ tL = tH ∨ ¬ Fin tL ∨ ¬ Fin tH ∨ ¬ Fin mL ∨ ¬ Fin mH) (x : XF) :
    ¬ Fin (adjust rnd (calibrate rnd tL tH mL mH) x) := by
  have self : ∀ a : XF, sub rnd a a = .fin 0 ∨ ¬ Fin (sub rnd a a) := by
    intro a
    cases a with
    | nan => exact Or.inr (fun h => h)
    | inf b => right; cases b <;> exact fun h => h
    | fin q => left; rw [sub_fin, sub_self]; exact ofQ_exact hr f32_zero (by norm_num [big])
  have notfin : ∀ a b : XF, ¬ Fin b → div rnd a b = .fin 0 ∨ ¬ Fin (div rnd a b) := by
    intro a b hb
    cases b with
    | nan => right; cases a <;> exact fun h => h
    | inf c => cases a with
      | nan => exact Or.inr (fun h => h)
      | inf d => exact Or.inr (fun h => h)
      | fin q => exact Or.inl rfl
    | fin q => exact absurd trivial hb
  refine useless rnd tL tH mL mH ?_ x
  unfold calibrate
  simp only
  have mcase : sub rnd mH mL = .fin 0 ∨ ¬ Fin (sub rnd mH mL) → ¬ Fin (div rnd (sub rnd tH tL) (sub rnd mH mL)) ∨ div rnd (sub rnd tH tL) (sub rnd mH mL) = .fin 0 := by
    rintro (h | h)
    · rw [h]; exact Or.inl (div_zero rnd _)
    · exact (notfin _ _ h).symm
  have tcase : ¬ Fin (sub rnd tH tL) → ¬ Fin (div rnd (sub rnd tH tL) (sub rnd mH mL)) := fun h => div_special rnd _ _ h
  rcases h with h | h | h | h | h | h
  · rw [h] at mcase ⊢; exact mcase (self mH)
  · rw [h] at tcase ⊢
    rcases self tH with h0 | h0
    · rw [h0]
      generalize sub rnd mH mL = d
      cases d with
      | nan => exact Or.inl (fun h => h)
      | inf c => exact Or.inr rfl
      | fin q =>
        by_cases hq : q = 0
        · rw [hq]; exact Or.inl (div_zero rnd _)
        · right; rw [div_fin rnd _ _ hq, _root_.zero_div]; exact ofQ_exact hr f32_zero (by norm_num [big])
    · exact Or.inl (tcase h0)
  · exact Or.inl (tcase (sub_special rnd _ _ (Or.inr h)))
  · exact Or.inl (tcase (sub_special rnd _ _ (Or.inl h)))
  · exact mcase (Or.inr (sub_special rnd _ _ (Or.inr h)))
  · exact mcase (Or.inr (sub_special rnd _ _ (Or.inl h)))

example (rnd : ℚ → ℚ) (hr : Nearest rnd) := C198_violated rnd hr (.fin 0) (.fin 5) (.fin 1) (.fin 1) (Or.inl rfl) (.fin 1)

/-- **C198**: what adjust and reverse_calibrate make of an infinity or NaN is never finite, with any calibration. -/
theorem C198_special (rnd : ℚ → ℚ) (c : Cal) (x : XF) (hx : ¬ Fin x) : ¬ Fin (adjust rnd c x) ∧ ¬ Fin (reverse rnd c x) :=
  ⟨mul_special rnd _ _ (Or.inl (sub_special rnd _ _ (Or.inl hx))), add_special rnd _ _ (Or.inl (div_special rnd _ _ hx))⟩

example (rnd : ℚ → ℚ) := C198_special rnd ⟨.fin 1, .fin 0⟩ (.inf true) (fun h => h)

/-! ## C199: VoctCalibrator -/

theorem push_two (w : XVoct) (h : w.num ≥ 2) (n : Nat) (m : XF) : w.push n m = { w with pt0 := w.pt1, pt1 := (n, m), num := 2 } := by
  unfold XVoct.push; simp [h]
theorem push_one (w : XVoct) (h : w.num = 1) (n : Nat) (m : XF) : w.push n m = { w with pt1 := (n, m), num := 2 } := by
  unfold XVoct.push; simp [h]
theorem push_zero (w : XVoct) (h : w.num = 0) (n : Nat) (m : XF) : w.push n m = { w with pt0 := (n, m), num := 1 } := by
  unfold XVoct.push; simp [h]
theorem fpush_two (w : Voct) (h : w.num ≥ 2) (n : Nat) (m : ℚ) : w.push n m = { w with pt0 := w.pt1, pt1 := (n, m), num := 2 } := by
  unfold Voct.push; simp [h]
theorem fpush_one (w : Voct) (h : w.num = 1) (n : Nat) (m : ℚ) : w.push n m = { w with pt1 := (n, m), num := 2 } := by
  unfold Voct.push; simp [h]
theorem fpush_zero (w : Voct) (h : w.num = 0) (n : Nat) (m : ℚ) : w.push n m = { w with pt0 := (n, m), num := 1 } := by
  unfold Voct.push; simp [h]

/-- What a user does with a VoctCalibrator. -/
inductive VOp where
  | reset
  | record (note : Nat) (m : XF)

def VOp.run (rnd : ℚ → ℚ) (v : XVoct) : VOp → XVoct
  | .reset => v.reset
  | .record n m => v.record rnd n m

/-- The same with finite measurements. -/
inductive FOp where
  | reset
  | record (note : Nat) (m : ℚ)

def FOp.run (rnd : ℚ → ℚ) (v : Voct) : FOp → Voct
  | .reset => v.reset
  | .record n m => VoctFloat.record rnd v n m

/-- A note is C0 to C10 or None, a measurement of magnitude at most 2^100. -/
def FOp.Ok : FOp → Prop
  | .reset => True
  | .record n m => n ≤ 11 ∧ |m| ≤ 2 ^ 100

def FOp.up : FOp → VOp
  | .reset => .reset
  | .record n m => .record n (.fin m)

/-- The finite state as one of floats. -/
def embed (v : Voct) : XVoct := ⟨.fin v.offset, .fin v.slope, (v.pt0.1, .fin v.pt0.2), (v.pt1.1, .fin v.pt1.2), v.num, v.measuredC0⟩

/-- What holds of every state reached. -/
structure Inv (v : Voct) : Prop where
  n0 : v.pt0.1 ≤ 11
  n1 : v.pt1.1 ≤ 11
  p0 : |v.pt0.2| ≤ 2 ^ 100
  p1 : |v.pt1.2| ≤ 2 ^ 100
  s : |v.slope| ≤ 2 ^ 101

theorem solve_embed {rnd : ℚ → ℚ} (hr : Nearest rnd) (v : Voct) (h : Inv v) : (embed v).solve rnd = embed (VoctFloat.solve rnd v) ∧ Inv (VoctFloat.solve rnd v) := by
  by_cases hn : v.num ≥ 2
  · obtain ⟨e1, c1⟩ := fin_of_le hr 101 (by norm_num) (q := v.pt0.2 - v.pt1.2) (by
      have := abs_sub v.pt0.2 v.pt1.2
      have := h.p0
      have := h.p1
      have e : (2 : ℚ) ^ 101 = 2 ^ 100 + 2 ^ 100 := by norm_num
      rw [e]; linarith)
    have lift : ∀ w : Voct, Inv w → w.pt0 = v.pt0 → w.pt1 = v.pt1 →
        (if w.measuredC0 then embed w else { embed w with offset := div rnd (add rnd (sub rnd (.fin w.pt0.2) (mul rnd (.fin w.slope) (.fin w.pt0.1))) (sub rnd (.fin w.pt1.2) (mul rnd (.fin w.slope) (.fin w.pt1.1)))) (.fin 2) }) =
          embed (if w.measuredC0 then w else { w with offset := rnd (rnd (rnd (w.pt0.2 - rnd (w.slope * w.pt0.1)) + rnd (w.pt1.2 - rnd (w.slope * w.pt1.1))) / 2) }) ∧
        Inv (if w.measuredC0 then w else { w with offset := rnd (rnd (rnd (w.pt0.2 - rnd (w.slope * w.pt0.1)) + rnd (w.pt1.2 - rnd (w.slope * w.pt1.1))) / 2) }) := by
      intro w hw e0 e1
      split
      · exact ⟨rfl, hw⟩
      · have prod : ∀ n : Nat, n ≤ 11 → |w.slope * n| ≤ 2 ^ 105 := by
          intro n hn
          rw [abs_mul, abs_of_nonneg (show (0 : ℚ) ≤ n from Nat.cast_nonneg _)]
          have : (n : ℚ) ≤ 2 ^ 4 := by have : (n : ℚ) ≤ 11 := by exact_mod_cast hn
                                       linarith
          calc _ ≤ (2 : ℚ) ^ 101 * 2 ^ 4 := mul_le_mul hw.s this (Nat.cast_nonneg _) (by positivity)
            _ = 2 ^ 105 := by norm_num
        have off : ∀ (n : Nat) (m : ℚ), n ≤ 11 → |m| ≤ 2 ^ 100 → sub rnd (.fin m) (mul rnd (.fin w.slope) (.fin n)) = .fin (rnd (m - rnd (w.slope * n))) ∧ |rnd (m - rnd (w.slope * n))| ≤ 2 ^ 106 := by
          intro n m hn hm
          obtain ⟨a, b⟩ := fin_of_le hr 105 (by norm_num) (prod n hn)
          rw [XMath.mul_fin, a, sub_fin]
          refine fin_of_le hr 106 (by norm_num) ?_
          have := abs_sub m (rnd (w.slope * n))
          have : (2 : ℚ) ^ 100 + 2 ^ 105 ≤ 2 ^ 106 := by norm_num
          linarith
        obtain ⟨a0, b0⟩ := off _ _ hw.n0 hw.p0
        obtain ⟨a1, b1⟩ := off _ _ hw.n1 hw.p1
        obtain ⟨a2, b2⟩ := fin_of_le hr 107 (by norm_num) (q := rnd (w.pt0.2 - rnd (w.slope * w.pt0.1)) + rnd (w.pt1.2 - rnd (w.slope * w.pt1.1))) (by
          have := abs_add_le (rnd (w.pt0.2 - rnd (w.slope * w.pt0.1))) (rnd (w.pt1.2 - rnd (w.slope * w.pt1.1)))
          have e : (2 : ℚ) ^ 107 = 2 ^ 106 + 2 ^ 106 := by norm_num
          rw [e]; linarith)
        obtain ⟨a3, _⟩ := fin_of_le hr 107 (by norm_num) (q := rnd (rnd (w.pt0.2 - rnd (w.slope * w.pt0.1)) + rnd (w.pt1.2 - rnd (w.slope * w.pt1.1))) / 2) (by
          rw [abs_div, abs_two]; have := abs_nonneg (rnd (rnd (w.pt0.2 - rnd (w.slope * w.pt0.1)) + rnd (w.pt1.2 - rnd (w.slope * w.pt1.1)))); linarith)
        rw [a0, a1, XMath.add_fin, a2, div_fin rnd _ _ (by norm_num), a3]
        exact ⟨rfl, hw.n0, hw.n1, hw.p0, hw.p1, hw.s⟩
    unfold XVoct.solve VoctFloat.solve
    rw [if_pos hn, if_pos (show (embed v).num ≥ 2 from hn)]
    simp only [show (embed v).pt0 = (v.pt0.1, XF.fin v.pt0.2) from rfl, show (embed v).pt1 = (v.pt1.1, XF.fin v.pt1.2) from rfl]
    rw [sub_fin, e1]
    by_cases hc : ((v.pt0.1 : Int) - v.pt1.1 ≠ 0 ∧ rnd (v.pt0.2 - v.pt1.2) ≠ 0)
    · have hs : ((((v.pt0.1 : Int) - v.pt1.1 : Int)) : ℚ) ≠ 0 := by exact_mod_cast hc.1
      have h1 : (1 : ℚ) ≤ |(((v.pt0.1 : Int) - v.pt1.1 : Int) : ℚ)| := by
        have : (1 : Int) ≤ |(v.pt0.1 : Int) - v.pt1.1| := Int.one_le_abs hc.1
        exact_mod_cast this
      obtain ⟨e2, c2⟩ := fin_of_le hr 101 (by norm_num) (q := rnd (v.pt0.2 - v.pt1.2) / (((v.pt0.1 : Int) - v.pt1.1 : Int) : ℚ)) (by
        rw [abs_div]
        exact (div_le_self (abs_nonneg _) h1).trans c1)
      have hX : (v.pt0.1 : Int) - v.pt1.1 ≠ 0 ∧ XF.fin (rnd (v.pt0.2 - v.pt1.2)) ≠ XF.fin 0 := ⟨hc.1, fun e => hc.2 (XF.fin.inj e)⟩
      rw [if_pos hc, if_pos hX, div_fin rnd _ _ hs, e2]
      exact lift { v with slope := rnd (rnd (v.pt0.2 - v.pt1.2) / (((v.pt0.1 : Int) - v.pt1.1 : Int) : ℚ)) } ⟨h.n0, h.n1, h.p0, h.p1, c2⟩ rfl rfl
    · have hX : ¬ ((v.pt0.1 : Int) - v.pt1.1 ≠ 0 ∧ XF.fin (rnd (v.pt0.2 - v.pt1.2)) ≠ XF.fin 0) := fun c => hc ⟨c.1, fun e => c.2 (by rw [e])⟩
      rw [if_neg hc, if_neg hX]
      exact lift v h rfl rfl
  · unfold XVoct.solve VoctFloat.solve
    rw [if_neg hn, if_neg (show ¬ (embed v).num ≥ 2 from hn)]
    exact ⟨rfl, h⟩

theorem run_embed {rnd : ℚ → ℚ} (hr : Nearest rnd) (v : Voct) (h : Inv v) (o : FOp) (ho : o.Ok) : o.up.run rnd (embed v) = embed (o.run rnd v) ∧ Inv (o.run rnd v) := by
  cases o with
  | reset => exact ⟨rfl, h.n0, h.n1, h.p0, h.p1, by show |(0 : ℚ)| ≤ _; norm_num⟩
  | record n m =>
    obtain ⟨hn, hm⟩ := ho
    show (embed v).record rnd n (.fin m) = embed (VoctFloat.record rnd v n m) ∧ Inv (VoctFloat.record rnd v n m)
    unfold XVoct.record VoctFloat.record
    split
    · exact ⟨rfl, h⟩
    · have a : (embed v).noteC0 n (.fin m) = embed (v.noteC0 n m) := by
        unfold XVoct.noteC0 Voct.noteC0; split <;> rfl
      have ia : Inv (v.noteC0 n m) := by
        unfold Voct.noteC0; split
        · exact ⟨h.n0, h.n1, h.p0, h.p1, h.s⟩
        · exact h
      have b : (embed (v.noteC0 n m)).push n (.fin m) = embed ((v.noteC0 n m).push n m) := by
        generalize v.noteC0 n m = w
        unfold XVoct.push Voct.push
        by_cases h2 : w.num ≥ 2
        · simp [embed, h2]
        · by_cases h0 : w.num = 0 <;> simp [embed, h2, h0]
      have ib : Inv ((v.noteC0 n m).push n m) := by
        generalize v.noteC0 n m = w at ia
        rcases Nat.lt_or_ge w.num 2 with h2 | h2
        · rcases Nat.eq_zero_or_pos w.num with h0 | h0
          · rw [fpush_zero w h0]; exact ⟨hn, ia.n1, hm, ia.p1, ia.s⟩
          · rw [fpush_one w (by omega)]; exact ⟨ia.n0, hn, ia.p0, hm, ia.s⟩
        · rw [fpush_two w h2]; exact ⟨ia.n1, hn, ia.p1, hm, ia.s⟩
      rw [a, b]
      exact solve_embed hr _ ib

/-- **C199**: with measurements of magnitude at most 2^100 nothing overflows in any history: the V/oct calibrator does what C148 and C62 describe. -/
theorem C199_finite (rnd : ℚ → ℚ) (hr : Nearest rnd) (ops : List FOp) (h : ∀ o ∈ ops, o.Ok) :
    (ops.map FOp.up).foldl (VOp.run rnd) XVoct.init = embed (ops.foldl (FOp.run rnd) Voct.init) := by
  have key : ∀ (ops : List FOp) (v : Voct), Inv v → (∀ o ∈ ops, o.Ok) → (ops.map FOp.up).foldl (VOp.run rnd) (embed v) = embed (ops.foldl (FOp.run rnd) v) := by
    intro ops
    induction ops with
    | nil => intro v _ _; rfl
    | cons o ops ih =>
      intro v hv ho
      obtain ⟨e, hi⟩ := run_embed hr v hv o (ho o (by simp))
      rw [List.map_cons, List.foldl_cons, List.foldl_cons, e]
      exact ih _ hi (fun o' ho' => ho o' (by simp [ho']))
  exact key ops Voct.init ⟨by decide, by decide, by norm_num [Voct.init], by norm_num [Voct.init], by norm_num [Voct.init]⟩ h

example (rnd : ℚ → ℚ) (hr : Nearest rnd) := C199_finite rnd hr [.record 1 100, .reset, .record 3 300, .record 5 700] (by
  intro o ho
  simp only [List.mem_cons, List.not_mem_nil, or_false] at ho
  rcases ho with rfl | rfl | rfl | rfl
  · exact ⟨by norm_num, by norm_num [abs_of_pos]⟩
  · trivial
  · exact ⟨by norm_num, by norm_num [abs_of_pos]⟩
  · exact ⟨by norm_num, by norm_num [abs_of_pos]⟩)

/-- Reached states hold at most two points. -/
theorem num_le (rnd : ℚ → ℚ) (ops : List VOp) : (ops.foldl (VOp.run rnd) XVoct.init).num ≤ 2 := by
  have step : ∀ (v : XVoct) (o : VOp), v.num ≤ 2 → (o.run rnd v).num ≤ 2 := by
    intro v o h
    cases o with
    | reset => show 0 ≤ 2; omega
    | record n m =>
      have hs : ∀ w : XVoct, (w.solve rnd).num = w.num := by
        intro w; unfold XVoct.solve
        split
        · dsimp only; split <;> split <;> rfl
        · rfl
      show (v.record rnd n m).num ≤ 2
      unfold XVoct.record
      split
      · exact h
      · rw [hs]
        have hc : (v.noteC0 n m).num = v.num := by unfold XVoct.noteC0; split <;> rfl
        unfold XVoct.push
        by_cases h2 : v.num ≥ 2
        · simp [hc, h2]
        · by_cases h0 : v.num = 0
          · simp [hc, h0]
          · simp only [hc, h2, if_false, h0]; omega
  have key : ∀ (ops : List VOp) (v : XVoct), v.num ≤ 2 → (ops.foldl (VOp.run rnd) v).num ≤ 2 := by
    intro ops
    induction ops with
    | nil => intro v h; exact h
    | cons o ops ih => intro v h; exact ih _ (step v o h)
  exact key ops _ (by decide)

/-- What two measurements of different notes other than C0 leave, from any state: the slope through these two, and unless C0 was measured the mean of the two intercepts. -/
theorem two (rnd : ℚ → ℚ) (v : XVoct) (hv : v.num ≤ 2) (n k : Nat) (a b : XF) (hn : n ≠ 0 ∧ n ≠ 11) (hk : k ≠ 0 ∧ k ≠ 11) (hnk : n ≠ k) (hd : sub rnd a b ≠ .fin 0) :
    ((v.record rnd n a).record rnd k b).slope = div rnd (sub rnd a b) (.fin (((n : Int) - k : Int) : ℚ)) ∧ ((v.record rnd n a).record rnd k b).measuredC0 = v.measuredC0 ∧
    (v.measuredC0 = true → ((v.record rnd n a).record rnd k b).offset = v.offset) ∧
    (v.measuredC0 = false → ((v.record rnd n a).record rnd k b).offset = div rnd (add rnd (sub rnd a (mul rnd (div rnd (sub rnd a b) (.fin (((n : Int) - k : Int) : ℚ))) (.fin n)))
      (sub rnd b (mul rnd (div rnd (sub rnd a b) (.fin (((n : Int) - k : Int) : ℚ))) (.fin k)))) (.fin 2)) := by
  have span : (n : Int) - k ≠ 0 := by omega
  have first : ∃ w : XVoct, v.record rnd n a = w ∧ w.measuredC0 = v.measuredC0 ∧ (v.measuredC0 = true → w.offset = v.offset) ∧ ((w.num = 1 ∧ w.pt0 = (n, a)) ∨ (w.num = 2 ∧ w.pt1 = (n, a))) := by
    refine ⟨_, rfl, ?_⟩
    have sv : ∀ w : XVoct, (w.solve rnd).measuredC0 = w.measuredC0 ∧ (w.measuredC0 = true → (w.solve rnd).offset = w.offset) ∧ (w.solve rnd).num = w.num ∧ (w.solve rnd).pt0 = w.pt0 ∧ (w.solve rnd).pt1 = w.pt1 := by
      intro w
      unfold XVoct.solve
      cases hm : w.measuredC0 <;> (split <;> (try dsimp only) <;> (try split) <;> simp_all)
    have e : v.record rnd n a = ((v.push n a).solve rnd) := by unfold XVoct.record XVoct.noteC0; rw [if_neg hn.2, if_neg hn.1]
    obtain ⟨s1, s2, s3, s4, s5⟩ := sv (v.push n a)
    rw [e, s1, s3, s4, s5]
    rcases Nat.lt_or_ge v.num 2 with h2 | h2
    · rcases Nat.eq_zero_or_pos v.num with h0 | h0
      · rw [push_zero v h0] at s2 ⊢; exact ⟨rfl, s2, Or.inl ⟨rfl, rfl⟩⟩
      · rw [push_one v (by omega)] at s2 ⊢; exact ⟨rfl, s2, Or.inr ⟨rfl, rfl⟩⟩
    · rw [push_two v h2] at s2 ⊢; exact ⟨rfl, s2, Or.inr ⟨rfl, rfl⟩⟩
  obtain ⟨w, hw, w1, w2, w3⟩ := first
  rw [hw]
  have e : w.record rnd k b = ((w.push k b).solve rnd) := by unfold XVoct.record XVoct.noteC0; rw [if_neg hk.2, if_neg hk.1]
  have p : (w.push k b).num = 2 ∧ (w.push k b).pt0 = (n, a) ∧ (w.push k b).pt1 = (k, b) ∧ (w.push k b).measuredC0 = w.measuredC0 ∧ (w.push k b).offset = w.offset := by
    unfold XVoct.push
    rcases w3 with ⟨h1, h2⟩ | ⟨h1, h2⟩
    · simp [h1, h2]
    · simp [h1, h2]
  obtain ⟨p1, p2, p3, p4, p5⟩ := p
  rw [e]
  unfold XVoct.solve
  rw [if_pos (by rw [p1])]
  simp only [p2, p3]
  have hX : (n : Int) - k ≠ 0 ∧ sub rnd a b ≠ .fin 0 := ⟨span, hd⟩
  rw [if_pos hX]
  cases hm : v.measuredC0
  · rw [if_neg (by rw [p4, w1, hm]; exact Bool.false_ne_true)]
    simp only [p2, p3]
    exact ⟨trivial, by rw [p4, w1, hm], fun h => absurd h (by decide), fun _ => trivial⟩
  · rw [if_pos (by rw [p4, w1, hm])]
    exact ⟨rfl, by rw [p4, w1, hm], fun _ => by rw [p5, w2 hm], fun h => absurd h (by decide)⟩

/-- **C199**: the slope recovers: after any history, NaN and infinities included, two ordinary measurements of different notes give the slope of C62; and if C0 was not measured since the last reset, a finite offset. -/
theorem C199_recovers (rnd : ℚ → ℚ) (hr : Nearest rnd) (ops : List VOp) (v : XVoct) (hv : v = ops.foldl (VOp.run rnd) XVoct.init) (n k : Nat) (a b : ℚ) (hn : 1 ≤ n ∧ n ≤ 10) (hk : 1 ≤ k ∧ k ≤ 10) (hnk : n ≠ k)
    (ha : |a| ≤ 2 ^ 100) (hb : |b| ≤ 2 ^ 100) (hab : rnd (a - b) ≠ 0) (w : XVoct) (hw : w = (v.record rnd n (.fin a)).record rnd k (.fin b)) :
    w.slope = .fin (rnd (rnd (a - b) / ((n : ℚ) - k))) ∧ (v.measuredC0 = false → Fin w.offset) ∧ (v.measuredC0 = true → w.offset = v.offset) := by
  subst hw
  obtain ⟨e1, c1⟩ := fin_of_le hr 101 (by norm_num) (q := a - b) (by
    have := abs_sub a b
    have e : (2 : ℚ) ^ 101 = 2 ^ 100 + 2 ^ 100 := by norm_num
    rw [e]; linarith)
  have hsp : ((n : Int) - k) ≠ 0 := by omega
  have hs : (((n : Int) - k : Int) : ℚ) ≠ 0 := by exact_mod_cast hsp
  have h1 : (1 : ℚ) ≤ |(((n : Int) - k : Int) : ℚ)| := by
    have : (1 : Int) ≤ |(n : Int) - k| := Int.one_le_abs hsp
    exact_mod_cast this
  obtain ⟨e2, c2⟩ := fin_of_le hr 101 (by norm_num) (q := rnd (a - b) / (((n : Int) - k : Int) : ℚ)) (by
    rw [abs_div]; exact (div_le_self (abs_nonneg _) h1).trans c1)
  have es : div rnd (sub rnd (.fin a) (.fin b)) (.fin (((n : Int) - k : Int) : ℚ)) = .fin (rnd (rnd (a - b) / ((n : ℚ) - k))) := by
    rw [sub_fin, e1, div_fin rnd _ _ hs, e2]; push_cast; rfl
  have hd : sub rnd (.fin a) (.fin b) ≠ .fin 0 := by rw [sub_fin, e1]; exact fun e => hab (XF.fin.inj e)
  obtain ⟨t1, t2, t3, t4⟩ := two rnd v (by rw [hv]; exact num_le rnd ops) n k (.fin a) (.fin b) ⟨by omega, by omega⟩ ⟨by omega, by omega⟩ hnk hd
  refine ⟨t1.trans es, ?_, t3⟩
  intro hm
  rw [t4 hm, es]
  obtain ⟨s, hs'⟩ : ∃ s, s = rnd (rnd (a - b) / ((n : ℚ) - k)) := ⟨_, rfl⟩
  have cs : |s| ≤ 2 ^ 101 := by rw [hs']; push_cast at c2; exact c2
  rw [← hs']
  have off : ∀ (j : Nat) (m : ℚ), j ≤ 10 → |m| ≤ 2 ^ 100 → sub rnd (.fin m) (mul rnd (.fin s) (.fin j)) = .fin (rnd (m - rnd (s * j))) ∧ |rnd (m - rnd (s * j))| ≤ 2 ^ 106 := by
    intro j m hj hm
    obtain ⟨x, y⟩ := fin_of_le hr 105 (by norm_num) (q := s * j) (by
      rw [abs_mul, abs_of_nonneg (show (0 : ℚ) ≤ j from Nat.cast_nonneg _)]
      have : (j : ℚ) ≤ 2 ^ 4 := by have : (j : ℚ) ≤ 10 := by exact_mod_cast hj
                                   linarith
      calc _ ≤ (2 : ℚ) ^ 101 * 2 ^ 4 := mul_le_mul cs this (Nat.cast_nonneg _) (by positivity)
        _ = 2 ^ 105 := by norm_num)
    rw [XMath.mul_fin, x, sub_fin]
    refine fin_of_le hr 106 (by norm_num) ?_
    have := abs_sub m (rnd (s * j))
    have : (2 : ℚ) ^ 100 + 2 ^ 105 ≤ 2 ^ 106 := by norm_num
    linarith
  obtain ⟨a0, b0⟩ := off n a hn.2 ha
  obtain ⟨a1, b1⟩ := off k b hk.2 hb
  obtain ⟨a2, b2⟩ := fin_of_le hr 107 (by norm_num) (q := rnd (a - rnd (s * n)) + rnd (b - rnd (s * k))) (by
    have := abs_add_le (rnd (a - rnd (s * n))) (rnd (b - rnd (s * k)))
    have e : (2 : ℚ) ^ 107 = 2 ^ 106 + 2 ^ 106 := by norm_num
    rw [e]; linarith)
  rw [a0, a1, XMath.add_fin, a2, div_fin rnd _ _ (by norm_num), (fin_of_le hr 107 (by norm_num) (by
    rw [abs_div, abs_two]; have := abs_nonneg (rnd (rnd (a - rnd (s * n)) + rnd (b - rnd (s * k)))); linarith)).1]
  trivial

example (rnd : ℚ → ℚ) (hr : Nearest rnd) := C199_recovers rnd hr [.record 1 .nan, .record 2 (.inf true), .record 3 .nan] _ rfl 2 4 100 200 (by norm_num) (by norm_num) (by norm_num) (by norm_num) (by norm_num)
  (by rw [hr.fix (by have := f32_int (-100) (by norm_num); norm_num at this ⊢; exact this)]; norm_num) _ rfl

/-- **C199, violated**: the offset does not: a C0 measured as NaN (or infinity) stays the offset whatever other notes are measured, until C0 is measured again or reset() is called. -/
theorem C199_offset_violated (rnd : ℚ → ℚ) (v : XVoct) (x : XF) (ms : List (Nat × XF)) (h : ∀ p ∈ ms, p.1 ≠ 0) :
    (ms.foldl (fun v p => v.record rnd p.1 p.2) (v.record rnd 0 x)).offset = x := by
  have sv : ∀ w : XVoct, w.measuredC0 = true → (w.solve rnd).measuredC0 = true ∧ (w.solve rnd).offset = w.offset := by
    intro w hm
    unfold XVoct.solve
    split <;> (try dsimp only) <;> (try split) <;> simp_all
  have pv : ∀ (w : XVoct) (n : Nat) (m : XF), (w.push n m).measuredC0 = w.measuredC0 ∧ (w.push n m).offset = w.offset := by
    intro w n m
    unfold XVoct.push
    dsimp only
    split <;> split <;> exact ⟨rfl, rfl⟩
  have key : ∀ (ms : List (Nat × XF)) (v : XVoct), (∀ p ∈ ms, p.1 ≠ 0) → v.measuredC0 = true → (ms.foldl (fun v p => v.record rnd p.1 p.2) v).offset = v.offset := by
    intro ms
    induction ms with
    | nil => intro v _ _; rfl
    | cons p ms ih =>
      intro v hp hv
      have st : (v.record rnd p.1 p.2).measuredC0 = true ∧ (v.record rnd p.1 p.2).offset = v.offset := by
        unfold XVoct.record
        split
        · exact ⟨hv, rfl⟩
        · have e : v.noteC0 p.1 p.2 = v := by unfold XVoct.noteC0; rw [if_neg (hp p (by simp))]
          rw [e]
          obtain ⟨q1, q2⟩ := pv v p.1 p.2
          obtain ⟨r1, r2⟩ := sv (v.push p.1 p.2) (q1.trans hv)
          exact ⟨r1, r2.trans q2⟩
      rw [List.foldl_cons, ih _ (fun q hq => hp q (by simp [hq])) st.1, st.2]
  have st : (v.record rnd 0 x).measuredC0 = true ∧ (v.record rnd 0 x).offset = x := by
    unfold XVoct.record XVoct.noteC0
    rw [if_neg (by decide), if_pos rfl]
    obtain ⟨q1, q2⟩ := pv { v with measuredC0 := true, offset := x } 0 x
    obtain ⟨r1, r2⟩ := sv ({ v with measuredC0 := true, offset := x }.push 0 x) q1
    exact ⟨r1, r2.trans q2⟩
  rw [key ms _ h st.1, st.2]

example (rnd : ℚ → ℚ) := C199_offset_violated rnd XVoct.init .nan [(1, .fin 100), (2, .fin 200), (3, .fin 300)] (by simp)

/-- **C199, violated**: a measurement of NaN after one of a different note makes the slope NaN (it passes the check for a difference), and then measuring one same note for ever does not mend it. -/
theorem C199_slope_violated (rnd : ℚ → ℚ) (ops : List VOp) (v : XVoct) (hv : v = ops.foldl (VOp.run rnd) XVoct.init) (n k : Nat) (a : XF) (hn : n ≠ 0 ∧ n ≠ 11) (hk : k ≠ 0 ∧ k ≠ 11) (hnk : n ≠ k) (ms : List XF) :
    ((v.record rnd n a).record rnd k .nan).slope = .nan ∧ (ms.foldl (fun v m => v.record rnd k m) ((v.record rnd n a).record rnd k .nan)).slope = .nan := by
  have t := (two rnd v (by rw [hv]; exact num_le rnd ops) n k a .nan hn hk hnk (by rw [sub_nan]; exact fun e => XF.noConfusion e)).1
  have base : ((v.record rnd n a).record rnd k .nan).slope = .nan := by rw [t, sub_nan]; rfl
  refine ⟨base, ?_⟩
  -- the last point stays of note k
  have pushk : ∀ (w : XVoct) (m : XF), (w.num = 2 ∧ w.pt1.1 = k) → (w.push k m).num = 2 ∧ (w.push k m).pt0.1 = k ∧ (w.push k m).pt1.1 = k ∧ (w.push k m).slope = w.slope := by
    rintro w m ⟨h1, h2⟩
    unfold XVoct.push
    simp [h1, h2]
  have sv : ∀ w : XVoct, w.num = 2 → w.pt0.1 = k → w.pt1.1 = k → (w.solve rnd).num = 2 ∧ (w.solve rnd).pt1.1 = k ∧ (w.solve rnd).slope = w.slope := by
    intro w h1 h2 h3
    unfold XVoct.solve
    rw [if_pos (by omega)]
    dsimp only
    have hX : ¬ ((w.pt0.1 : Int) - w.pt1.1 ≠ 0 ∧ sub rnd w.pt0.2 w.pt1.2 ≠ .fin 0) := fun c => c.1 (by rw [h2, h3]; omega)
    rw [if_neg hX]
    split <;> exact ⟨h1, h3, rfl⟩
  have key : ∀ (ms : List XF) (w : XVoct), w.num = 2 → w.pt1.1 = k → (ms.foldl (fun v m => v.record rnd k m) w).slope = w.slope := by
    intro ms
    induction ms with
    | nil => intro w _ _; rfl
    | cons m ms ih =>
      intro w h1 h2
      have e : w.record rnd k m = (w.push k m).solve rnd := by unfold XVoct.record XVoct.noteC0; rw [if_neg hk.2, if_neg hk.1]
      obtain ⟨q1, q2, q3, q4⟩ := pushk w m ⟨h1, h2⟩
      obtain ⟨r1, r2, r3⟩ := sv _ q1 q2 q3
      rw [List.foldl_cons, e, ih _ r1 r2, r3, q4]
  have shape : ∀ w : XVoct, 1 ≤ w.num → w.num ≤ 2 → (w.record rnd k .nan).num = 2 ∧ (w.record rnd k .nan).pt1.1 = k := by
    intro w h1 h2
    have e : w.record rnd k .nan = (w.push k .nan).solve rnd := by unfold XVoct.record XVoct.noteC0; rw [if_neg hk.2, if_neg hk.1]
    have ss : ∀ u : XVoct, (u.solve rnd).num = u.num ∧ (u.solve rnd).pt1 = u.pt1 := by
      intro u; unfold XVoct.solve
      split
      · dsimp only; split <;> split <;> exact ⟨rfl, rfl⟩
      · exact ⟨rfl, rfl⟩
    rw [e, (ss _).1, (ss _).2]
    unfold XVoct.push
    by_cases h : w.num ≥ 2
    · simp [h]
    · have : w.num = 1 := by omega
      simp [this]
  have n1 : 1 ≤ (v.record rnd n a).num := by
    have e : v.record rnd n a = (v.push n a).solve rnd := by unfold XVoct.record XVoct.noteC0; rw [if_neg hn.2, if_neg hn.1]
    have ss : ∀ u : XVoct, (u.solve rnd).num = u.num := by
      intro u; unfold XVoct.solve
      split
      · dsimp only; split <;> split <;> rfl
      · rfl
    rw [e, ss]
    unfold XVoct.push
    by_cases h2 : v.num ≥ 2
    · simp [h2]
    · by_cases h0 : v.num = 0
      · simp [h0]
      · simp only [h2, if_false, h0]; omega
  have n2 : (v.record rnd n a).num ≤ 2 := by
    have := num_le rnd (ops ++ [.record n a])
    rw [List.foldl_append] at this
    rw [hv]; exact this
  obtain ⟨q1, q2⟩ := shape _ n1 n2
  rw [key ms _ q1 q2, base]

example (rnd : ℚ → ℚ) := C199_slope_violated rnd [.record 5 (.fin 1)] _ rfl 1 2 (.fin 100) (by decide) (by decide) (by decide) [.fin 200, .fin 201]

end XCalib
