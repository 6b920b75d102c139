import Verif.Model.XWrap
import Verif.Model.WrapFloat
import Verif.Props.XMath
/-! # Property C200: wrap for every float, including infinities and NaN -/
namespace XWrap
open XFlt Flt

theorem max_fin {rnd : ℚ → ℚ} (hr : Nearest rnd) (max : Nat) (hm : max < 2 ^ 32) : ofQ rnd max = .fin (rnd max) ∧ 0 ≤ rnd max ∧ rnd max ≤ 2 ^ 32 := by
  have h : (max : ℚ) ≤ 2 ^ 32 := by exact_mod_cast hm.le
  refine ⟨(fin_of_le hr 32 (by norm_num) (by rw [abs_of_nonneg (Nat.cast_nonneg _)]; exact h)).1, hr.ge f32_zero (Nat.cast_nonneg _), hr.le (f32_pow2 32) h⟩

/-- **C200**: `wrap<Max>` does for every finite float what C185 describes, loop for loop: nothing overflows. -/
theorem C200_max (rnd : ℚ → ℚ) (hr : Nearest rnd) (max : Nat) (hm : max < 2 ^ 32) (f : Nat) (x : ℚ) (hx : F32 x) (hx2 : |x| < big) :
    wrapMax rnd max f (.fin x) = (WrapFloat.wrapMax rnd max f x).map .fin := by
  obtain ⟨em, m0, m1⟩ := max_fin hr max hm
  induction f generalizing x with
  | zero => rfl
  | succ f ih =>
    rw [wrapMax, WrapFloat.wrapMax, em]
    by_cases h : rnd max ≤ x
    · rw [if_pos (show le (.fin (rnd max)) (.fin x) = true from decide_eq_true h), if_pos h, sub_fin]
      have hl := le_maxF hx hx2
      have habs : |x - rnd max| ≤ maxF := by
        rw [abs_of_nonneg (by linarith)]
        rw [abs_of_nonneg (by linarith)] at hl
        linarith
      rw [ofQ_le hr habs]
      refine ih _ (hr.f32 _) ?_
      rw [abs_of_nonneg (hr.ge f32_zero (by linarith))]
      exact lt_of_le_of_lt (hr.le f32_maxF (abs_le.mp habs).2) maxF_lt
    · rw [if_neg (show ¬ le (.fin (rnd max)) (.fin x) = true from fun c => h (of_decide_eq_true c)), if_neg h]; rfl

example (rnd : ℚ → ℚ) (hr : Nearest rnd) := C200_max rnd hr 10 (by norm_num) 5 maxF f32_maxF (by rw [abs_of_pos (by norm_num [maxF])]; exact maxF_lt)

/-- **C200, violated**: `wrap<Max>` never returns for plus infinity; NaN and minus infinity it returns unchanged. -/
theorem C200_max_violated (rnd : ℚ → ℚ) (hr : Nearest rnd) (max : Nat) (hm : max < 2 ^ 32) (f : Nat) :
    wrapMax rnd max f (.inf false) = none ∧ wrapMax rnd max (f + 1) .nan = some .nan ∧ wrapMax rnd max (f + 1) (.inf true) = some (.inf true) := by
  obtain ⟨em, m0, m1⟩ := max_fin hr max hm
  refine ⟨?_, ?_, ?_⟩
  · induction f with
    | zero => rfl
    | succ f ih => rw [wrapMax, em]; exact ih
  · rw [wrapMax, le_nan]; rfl
  · rw [wrapMax, em]; rfl

example (rnd : ℚ → ℚ) (hr : Nearest rnd) := C200_max_violated rnd hr 10 (by norm_num) 1000

theorem range_fin {rnd : ℚ → ℚ} (hr : Nearest rnd) (min max : ℚ) (h0 : min ≤ max) (h1 : |min| ≤ 2 ^ 124) (h2 : |max| ≤ 2 ^ 124) :
    add rnd (sub rnd (.fin max) (.fin min)) (.fin 1) = .fin (rnd (rnd (max - min) + 1)) ∧ 0 ≤ rnd (rnd (max - min) + 1) ∧ rnd (rnd (max - min) + 1) ≤ 2 ^ 126 := by
  obtain ⟨e1, c1⟩ := fin_of_le hr 125 (by norm_num) (q := max - min) (by
    have := abs_sub max min
    have e : (2 : ℚ) ^ 125 = 2 ^ 124 + 2 ^ 124 := by norm_num
    rw [e]; linarith)
  have g1 : 0 ≤ rnd (max - min) := hr.ge f32_zero (by linarith)
  obtain ⟨e2, c2⟩ := fin_of_le hr 126 (by norm_num) (q := rnd (max - min) + 1) (by
    rw [abs_of_nonneg (by linarith)]
    have := (abs_le.mp c1).2
    have : (2 : ℚ) ^ 125 + 1 ≤ 2 ^ 126 := by norm_num
    linarith)
  rw [sub_fin, e1, XMath.add_fin, e2]
  exact ⟨rfl, hr.ge f32_zero (by linarith), (abs_le.mp c2).2⟩

/-- **C200**: `wrap` does what C185 describes for every finite float between -2^127 and 2^127 and limits of magnitude at most 2^124. -/
theorem C200_wrap (rnd : ℚ → ℚ) (hr : Nearest rnd) (f : Nat) (x min max : ℚ) (h0 : min ≤ max) (h1 : |min| ≤ 2 ^ 124) (h2 : |max| ≤ 2 ^ 124) (hx : |x| ≤ 2 ^ 127) :
    wrap rnd f (.fin x) (.fin min) (.fin max) = (WrapFloat.wrap rnd f x min max).map .fin := by
  obtain ⟨er, r0, r1⟩ := range_fin hr min max h0 h1 h2
  unfold wrap WrapFloat.wrap
  simp only [er]
  generalize rnd (rnd (max - min) + 1) = r at r0 r1
  have a1 := abs_le.mp h1
  have a2 := abs_le.mp h2
  have big1 : (2 : ℚ) ^ 124 + 2 ^ 126 ≤ 2 ^ 127 := by norm_num
  have hup : ∀ (g : Nat) (y : ℚ), |y| ≤ 2 ^ 127 → up rnd (.fin r) (.fin min) g (.fin y) = (WrapFloat.up rnd r min g y).map .fin := by
    intro g
    induction g with
    | zero => intro y _; rfl
    | succ g ih =>
      intro y hy
      rw [up, WrapFloat.up]
      by_cases h : y < min
      · have hy' := abs_le.mp hy
        obtain ⟨e, c⟩ := fin_of_le hr 127 (by norm_num) (q := y + r) (abs_le.mpr ⟨by linarith, by linarith⟩)
        rw [if_pos (show lt (.fin y) (.fin min) = true from decide_eq_true h), if_pos h, XMath.add_fin, e]
        exact ih _ c
      · rw [if_neg (show ¬ lt (.fin y) (.fin min) = true from fun c => h (of_decide_eq_true c)), if_neg h]; rfl
  have hdown : ∀ (g : Nat) (y : ℚ), |y| ≤ 2 ^ 127 → down rnd (.fin r) (.fin max) g (.fin y) = (WrapFloat.down rnd r max g y).map .fin ∧ ∀ z, WrapFloat.down rnd r max g y = some z → |z| ≤ 2 ^ 127 := by
    intro g
    induction g with
    | zero => intro y _; exact ⟨rfl, fun z hz => by cases hz⟩
    | succ g ih =>
      intro y hy
      rw [down, WrapFloat.down]
      by_cases h : max < y
      · have hy' := abs_le.mp hy
        obtain ⟨e, c⟩ := fin_of_le hr 127 (by norm_num) (q := y - r) (abs_le.mpr ⟨by linarith, by linarith⟩)
        rw [if_pos (show lt (.fin max) (.fin y) = true from decide_eq_true h), if_pos h, sub_fin, e]
        exact ih _ c
      · rw [if_neg (show ¬ lt (.fin max) (.fin y) = true from fun c => h (of_decide_eq_true c)), if_neg h]
        exact ⟨rfl, fun z hz => by rw [← Option.some.inj hz]; exact hy⟩
  obtain ⟨e, c⟩ := hdown f x hx
  rw [e]
  cases hd : WrapFloat.down rnd r max f x with
  | none => rfl
  | some z => exact hup f z (c z hd)

example (rnd : ℚ → ℚ) (hr : Nearest rnd) := C200_wrap rnd hr 7 1000 (-5) 5 (by norm_num) (by norm_num) (by norm_num) (by norm_num)

/-- **C200, violated**: between finite limits of magnitude at most 2^124 wrap never returns for an infinity, and returns NaN for NaN. -/
theorem C200_wrap_violated (rnd : ℚ → ℚ) (hr : Nearest rnd) (f : Nat) (min max : ℚ) (h0 : min ≤ max) (h1 : |min| ≤ 2 ^ 124) (h2 : |max| ≤ 2 ^ 124) :
    (∀ b, wrap rnd f (.inf b) (.fin min) (.fin max) = none) ∧ wrap rnd (f + 1) .nan (.fin min) (.fin max) = some .nan := by
  obtain ⟨er, r0, r1⟩ := range_fin hr min max h0 h1 h2
  unfold wrap
  simp only [er]
  generalize rnd (rnd (max - min) + 1) = r at r0 r1
  constructor
  · intro b
    have hd : ∀ g, down rnd (.fin r) (.fin max) g (.inf false) = none := by
      intro g
      induction g with
      | zero => rfl
      | succ g ih => rw [down]; exact ih
    have hu : ∀ g, up rnd (.fin r) (.fin min) g (.inf true) = none := by
      intro g
      induction g with
      | zero => rfl
      | succ g ih => rw [up]; exact ih
    cases b
    · rw [hd]; rfl
    · cases f with
      | zero => rfl
      | succ f =>
        have : down rnd (.fin r) (.fin max) (f + 1) (.inf true) = some (.inf true) := by rw [down]; rfl
        rw [this]; exact hu _
  · have : down rnd (.fin r) (.fin max) (f + 1) .nan = some .nan := by rw [down, lt_nan]; rfl
    rw [this]
    show up rnd (.fin r) (.fin min) (f + 1) .nan = some .nan
    rw [up, nan_lt]; rfl

example (rnd : ℚ → ℚ) (hr : Nearest rnd) := C200_wrap_violated rnd hr 1000 0 1 (by norm_num) (by norm_num) (by norm_num)

/-- **C200, violated**: between finite limits too far apart the size of the range overflows, and a finite value below the lower limit becomes plus infinity, above the upper limit. -/
theorem C200_overflow_violated (rnd : ℚ → ℚ) (hr : Nearest rnd) (f : Nat) : wrap rnd (f + 2) (.fin (-maxF)) (.fin (-2 ^ 127)) (.fin maxF) = some (.inf false) ∧ lt (.fin maxF) (.inf false) = true := by
  refine ⟨?_, rfl⟩
  have e : sub rnd (.fin maxF) (.fin (-2 ^ 127)) = .inf false := by
    rw [sub_fin]
    have : big ≤ rnd (maxF - -2 ^ 127) := hr.ge f32_big (by norm_num [maxF, big])
    rw [ofQ, if_pos this]
  unfold wrap
  rw [e]
  have e2 : down rnd (add rnd (.inf false) (.fin 1)) (.fin maxF) (f + 2) (.fin (-maxF)) = some (.fin (-maxF)) := by
    rw [down, if_neg (show ¬ lt (.fin maxF) (.fin (-maxF)) = true from fun c => absurd (of_decide_eq_true c) (by norm_num [maxF]))]
  simp only [e2, Option.bind_some]
  rw [up, if_pos (show lt (.fin (-maxF)) (.fin (-2 ^ 127)) = true from decide_eq_true (by norm_num [maxF]))]
  rfl

end XWrap
