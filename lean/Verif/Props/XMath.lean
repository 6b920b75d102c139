import Verif.Model.XMath
import Verif.Model.MathFloat
import Verif.Model.Toggler
/-! # Property C194: comparisons, distances, blends and gates for every float, including infinities and NaN -/
namespace XMath
open XFlt Flt

theorem add_fin (rnd : ℚ → ℚ) (a b : ℚ) : add rnd (.fin a) (.fin b) = ofQ rnd (a + b) := rfl
theorem mul_fin (rnd : ℚ → ℚ) (a b : ℚ) : mul rnd (.fin a) (.fin b) = ofQ rnd (a * b) := rfl

/-! ## Choosing -/

/-- **C194**: constrain brings every float except NaN, infinities included, into the range. -/
theorem C194_constrain (val lo hi : XF) (hv : val ≠ .nan) (h : Le lo hi) (r : XF) (hr : r = constrain val lo hi) :
    Le lo r ∧ Le r hi ∧ (Le lo val → Le val hi → r = val) ∧ (lt val lo = true → r = lo) ∧ (lt hi val = true → r = hi) := by
  have hl : lo ≠ .nan := by rintro rfl; rw [Le, nan_le] at h; cases h
  have hh : hi ≠ .nan := by rintro rfl; rw [Le, le_nan] at h; cases h
  unfold constrain at hr
  by_cases h1 : lt val lo = true
  · rw [if_pos h1] at hr; subst hr
    exact ⟨le_refl' hl, h, fun h2 _ => absurd h1 (not_lt_of_le h2), fun _ => rfl, fun h2 => absurd (le_trans' h (le_of_lt' h2)) (not_le_of_lt h1)⟩
  · rw [if_neg h1] at hr
    by_cases h2 : lt hi val = true
    · rw [if_pos h2] at hr; subst hr
      exact ⟨h, le_refl' hh, fun _ h3 => absurd h2 (not_lt_of_le h3), fun h3 => absurd h3 h1, fun _ => rfl⟩
    · rw [if_neg h2] at hr; subst hr
      exact ⟨le_of_not_lt hv hl h1, le_of_not_lt hh hv h2, fun _ _ => rfl, fun h3 => absurd h3 h1, fun h3 => absurd h3 h2⟩

example := C194_constrain (.inf false) (.fin 0) (.fin 1) (by simp) (by simp [Le, le]) _ rfl

/-- **C194, violated**: NaN passes through constrain, whatever the range. -/
theorem C194_constrain_violated (lo hi : XF) : constrain .nan lo hi = .nan := by
  unfold constrain; rw [nan_lt, lt_nan]; rfl

/-- **C194**: max and min of two floats that are not NaN: an argument that bounds both. -/
theorem C194_max_min (a b : XF) (ha : a ≠ .nan) (hb : b ≠ .nan) :
    (Le a (max a b) ∧ Le b (max a b) ∧ (max a b = a ∨ max a b = b)) ∧ (Le (min a b) a ∧ Le (min a b) b ∧ (min a b = a ∨ min a b = b)) := by
  constructor
  · unfold max
    split
    · next h => exact ⟨le_refl' ha, le_of_lt' h, Or.inl rfl⟩
    · next h => exact ⟨le_of_not_lt hb ha h, le_refl' hb, Or.inr rfl⟩
  · unfold min
    split
    · next h => exact ⟨le_refl' ha, le_of_lt' h, Or.inl rfl⟩
    · next h => exact ⟨le_of_not_lt ha hb h, le_refl' hb, Or.inr rfl⟩

example := C194_max_min (.inf true) (.fin 3) (by simp) (by simp)

/-- **C194, violated**: with a NaN, max and min return their second argument: the order of the arguments matters, and NaN may or may not get through. -/
theorem C194_max_min_violated (x : XF) : max .nan x = x ∧ max x .nan = .nan ∧ min .nan x = x ∧ min x .nan = .nan := by
  unfold max min
  simp [nan_lt, lt_nan]

/-- **C194**: between answers exactly for values within the limits, with the distance from the lower one. For NaN it never does. -/
theorem C194_between (rnd : ℚ → ℚ) (x low high : XF) :
    (∀ d, between rnd x low high = some d ↔ Le low x ∧ Le x high ∧ d = sub rnd x low) ∧ (x = .nan → between rnd x low high = none) := by
  unfold between Le
  constructor
  · intro d
    by_cases h1 : le low x = true <;> by_cases h2 : le x high = true <;> simp [h1, h2, eq_comm]
  · rintro rfl; simp [le_nan]

/-- **C194**: and for finite limits of magnitude at most 2^126 the distance is a non-negative finite number. -/
theorem C194_between_finite (rnd : ℚ → ℚ) (hr : Nearest rnd) (x : XF) (lo hi : ℚ) (h1 : |lo| ≤ 2 ^ 126) (h2 : |hi| ≤ 2 ^ 126) (d : XF) (h : between rnd x (.fin lo) (.fin hi) = some d) :
    ∃ q v : ℚ, x = .fin v ∧ d = .fin q ∧ 0 ≤ q ∧ q = rnd (v - lo) := by
  rw [(C194_between rnd x (.fin lo) (.fin hi)).1 d] at h
  obtain ⟨a, b, rfl⟩ := h
  cases x with
  | nan => exact absurd a (by rw [Le, le_nan]; simp)
  | inf c => cases c
             · exact absurd b (by simp [Le, le])
             · exact absurd a (by simp [Le, le])
  | fin v =>
    simp only [Le, le, decide_eq_true_eq] at a b
    rw [abs_le] at h1 h2
    rw [sub_fin, (fin_of_le hr 127 (by norm_num) (q := v - lo) (abs_le.mpr ⟨by linarith, by linarith⟩)).1]
    exact ⟨_, v, rfl, rfl, hr.ge f32_zero (by linarith), rfl⟩

example (rnd : ℚ → ℚ) (hr : Nearest rnd) := C194_between_finite rnd hr (.fin 2) 1 3 (by norm_num) (by norm_num) (sub rnd (.fin 2) (.fin 1)) (by norm_num [between, le])

/-- **C194, violated**: with a lower limit of minus infinity the distance of minus infinity is NaN, and over the whole finite range it overflows. -/
theorem C194_between_violated (rnd : ℚ → ℚ) (hr : Nearest rnd) : between rnd (.inf true) (.inf true) (.fin 0) = some .nan ∧ between rnd (.fin maxF) (.fin (-maxF)) (.fin maxF) = some (.inf false) := by
  constructor
  · simp [between, le, sub, add, neg]
  · have hm : (0 : ℚ) < maxF := by norm_num [maxF]
    have : sub rnd (.fin maxF) (.fin (-maxF)) = .inf false := by
      rw [sub_fin]; unfold ofQ
      rw [if_pos (hr.ge f32_big (by norm_num [big, maxF]))]
    unfold between
    rw [this]
    rw [show le (.fin (-maxF)) (.fin maxF) = true from decide_eq_true (by linarith), show le (.fin maxF) (.fin maxF) = true from decide_eq_true (le_refl _)]; rfl

/-! ## Distances -/

/-- **C194**: f_abs is the magnitude of every float. -/
theorem C194_abs (x : XF) : fAbs x = XFlt.abs x := by
  cases x with
  | nan => rfl
  | inf b => cases b <;> rfl
  | fin q =>
    unfold fAbs
    simp only [le, decide_eq_true_eq, XFlt.abs, neg]
    split
    · next h => rw [abs_of_nonneg h]
    · next h => rw [abs_of_neg (not_le.mp h)]

/-- **C194**: abs_diff and diff agree for every two floats and do not depend on their order; between finite floats they give the rounded magnitude of the
difference; with one infinity the result is infinite. -/
theorem C194_diff (rnd : ℚ → ℚ) (x y : XF) :
    absDiff rnd x y = diff rnd x y ∧ absDiff rnd x y = absDiff rnd y x ∧
    (∀ a b : ℚ, x = .fin a → y = .fin b → absDiff rnd x y = ofQ rnd |a - b|) ∧
    (∀ b, x = .inf b → ∀ c : XF, y = c → c ≠ .nan → c ≠ .inf b → absDiff rnd x y = .inf false) ∧
    (x = .nan ∨ y = .nan → absDiff rnd x y = .nan) := by
  unfold absDiff diff
  refine ⟨?_, ?_, ?_, ?_, ?_⟩
  · cases x with
    | nan => simp [le_nan, lt_nan, sub_nan]
    | inf a => cases y with
      | nan => simp [nan_le, nan_lt, nan_sub]
      | inf b => cases a <;> cases b <;> simp [le, lt, sub, add, neg]
      | fin q => cases a <;> simp [le, lt]
    | fin p => cases y with
      | nan => simp [nan_le, nan_lt, nan_sub]
      | inf b => cases b <;> simp [le, lt]
      | fin q =>
        simp only [le, lt, decide_eq_true_eq, sub_fin]
        rcases lt_trichotomy p q with h | h | h
        · rw [if_neg (not_le.mpr h), if_neg (by linarith)]
        · subst h; simp
        · rw [if_pos h.le, if_pos h]
  · cases x with
    | nan => simp [le_nan, nan_le, nan_sub, sub_nan]
    | inf a => cases y with
      | nan => simp [nan_le, le_nan, nan_sub, sub_nan]
      | inf b => cases a <;> cases b <;> simp [le, sub, add, neg]
      | fin q => cases a <;> simp [le]
    | fin p => cases y with
      | nan => simp [nan_le, le_nan, nan_sub, sub_nan]
      | inf b => cases b <;> simp [le]
      | fin q =>
        simp only [le, decide_eq_true_eq, sub_fin]
        rcases lt_trichotomy p q with h | h | h
        · rw [if_neg (not_le.mpr h), if_pos h.le]
        · subst h; rfl
        · rw [if_pos h.le, if_neg (not_le.mpr h)]
  · rintro a b rfl rfl
    simp only [le, decide_eq_true_eq, sub_fin]
    split
    · next h => rw [abs_of_nonneg (by linarith)]
    · next h => rw [abs_of_neg (by linarith [not_le.mp h]), neg_sub]
  · rintro b rfl c rfl h1 h2
    cases y with
    | nan => exact absurd rfl h1
    | inf d => revert h2; cases b <;> cases d <;> simp [le, sub, add, neg]
    | fin q => cases b <;> simp [le, sub, add, neg]
  · rintro (rfl | rfl)
    · simp [le_nan, sub_nan]
    · simp [nan_le, nan_sub]

example (rnd : ℚ → ℚ) := (C194_diff rnd (.fin 1) (.fin 3)).2.2.1 1 3 rfl rfl

/-- **C194, violated**: the distance of an infinity to itself is NaN, not 0. -/
theorem C194_diff_violated (rnd : ℚ → ℚ) (b : Bool) : absDiff rnd (.inf b) (.inf b) = .nan ∧ diff rnd (.inf b) (.inf b) = .nan := by
  cases b <;> exact ⟨rfl, rfl⟩

/-! ## Blending and mapping -/

/-- **C194**: blending two values of magnitude at most 2^126 never overflows: both versions do what C153 describes. -/
theorem C194_interpolate (rnd : ℚ → ℚ) (hr : Nearest rnd) (a b p : ℚ) (ha : |a| ≤ 2 ^ 126) (hb : |b| ≤ 2 ^ 126) (h0 : 0 ≤ p) (h1 : p ≤ 1) :
    interpolate rnd (.fin a) (.fin b) (.fin p) = .fin (MathFloat.interpolate rnd a b p) ∧ interpolate3 rnd (.fin a) (.fin b) (.fin p) = .fin (MathFloat.interpolate3 rnd a b p) := by
  have hmul : ∀ u v : ℚ, |u| ≤ 2 ^ 126 → |v| ≤ 1 → |u * v| ≤ 2 ^ 126 := by
    intro u v hu hv
    rw [abs_mul]
    calc |u| * |v| ≤ 2 ^ 126 * 1 := mul_le_mul hu hv (abs_nonneg _) (by norm_num)
      _ = 2 ^ 126 := mul_one _
  have e1 : interpolate rnd (.fin a) (.fin b) (.fin p) = .fin (MathFloat.interpolate rnd a b p) := by
    unfold interpolate MathFloat.interpolate
    obtain ⟨x1, c1⟩ := fin_of_le hr 0 (by norm_num) (q := 1 - p) (by rw [abs_of_nonneg (by linarith)]; norm_num; exact h0)
    rw [sub_fin, x1, mul_fin, mul_fin]
    obtain ⟨x2, c2⟩ := fin_of_le hr 126 (by norm_num) (hmul a (rnd (1 - p)) ha (by simpa using c1))
    obtain ⟨x3, c3⟩ := fin_of_le hr 126 (by norm_num) (hmul b p hb (by rw [abs_of_nonneg h0]; exact h1))
    rw [x2, x3, add_fin]
    refine (fin_of_le hr 127 (by norm_num) ?_).1
    refine (abs_add_le _ _).trans ?_
    have : (2 : ℚ) ^ 126 + 2 ^ 126 ≤ 2 ^ 127 := by norm_num
    linarith
  refine ⟨e1, ?_⟩
  have h27 : (2 : ℚ) ^ 126 + 2 ^ 126 ≤ 2 ^ 127 := by norm_num
  unfold interpolate3 MathFloat.interpolate3
  obtain ⟨x1, c1⟩ := fin_of_le hr 127 (by norm_num) (q := b - a) (by have := abs_sub b a; linarith)
  rw [sub_fin, x1, mul_fin]
  obtain ⟨x2, c2⟩ := fin_of_le hr 127 (by norm_num) (q := p * rnd (b - a)) (by
    rw [abs_mul, abs_of_nonneg h0]
    calc p * |rnd (b - a)| ≤ 1 * 2 ^ 127 := mul_le_mul h1 c1 (abs_nonneg _) (by norm_num)
      _ = 2 ^ 127 := one_mul _)
  rw [x2, add_fin]
  refine ofQ_le hr ((abs_add_le _ _).trans ?_)
  have : (2 : ℚ) ^ 126 + 2 ^ 127 ≤ maxF := by norm_num [maxF]
  linarith

example (rnd : ℚ → ℚ) (hr : Nearest rnd) := C194_interpolate rnd hr 1 2 (1 / 2) (by norm_num) (by norm_num) (by norm_num) (by norm_num)

/-- **C194, violated**: interpolate3 overflows between two finite values far apart, and then even at phase 0 it gives NaN instead of its first argument, and
an infinity half-way, where interpolate gives 0. -/
theorem C194_interpolate3_violated (rnd : ℚ → ℚ) (hr : Nearest rnd) :
    interpolate3 rnd (.fin (-maxF)) (.fin maxF) (.fin 0) = .nan ∧ interpolate3 rnd (.fin (-maxF)) (.fin maxF) (.fin (1 / 2)) = .inf false ∧
    interpolate rnd (.fin (-maxF)) (.fin maxF) (.fin (1 / 2)) = .fin 0 := by
  have hov : sub rnd (.fin maxF) (.fin (-maxF)) = .inf false := by
    rw [sub_fin]; unfold ofQ
    rw [if_pos (hr.ge f32_big (by norm_num [big, maxF]))]
  have fh : F32 ((1 : ℚ) / 2) := by have := f32_div 1 (by norm_num) 1 (by norm_num); rw [Int.cast_one] at this; simpa using this
  have fm : F32 (maxF * (1 / 2)) := ⟨2 ^ 24 - 1, 103, by norm_num, by norm_num, by norm_num [maxF]⟩
  have fm' : F32 (-maxF * (1 / 2)) := ⟨-(2 ^ 24 - 1), 103, by norm_num, by norm_num, by norm_num [maxF]⟩
  refine ⟨?_, ?_, ?_⟩
  · unfold interpolate3
    rw [hov]; simp [mul, add]
  · unfold interpolate3
    rw [hov]
    simp only [mul]
    rw [if_neg (by norm_num), decide_eq_false (by norm_num)]; rfl
  · unfold interpolate
    rw [sub_fin, ofQ_exact hr (q := 1 - 1 / 2) (by rw [show (1 : ℚ) - 1 / 2 = 1 / 2 by norm_num]; exact fh) (by norm_num [big, abs_lt]), mul_fin, mul_fin]
    rw [show (1 : ℚ) - 1 / 2 = 1 / 2 by norm_num, ofQ_exact hr fm' (by rw [abs_lt]; norm_num [big, maxF]), ofQ_exact hr fm (by rw [abs_lt]; norm_num [big, maxF]), add_fin]
    rw [show -maxF * (1 / 2) + maxF * (1 / 2) = 0 by ring]
    exact ofQ_exact hr f32_zero (by norm_num [big])

/-- **C194, violated**: at phase 0 or 1 the other argument still counts if it is an infinity or NaN: the result is NaN. -/
theorem C194_ends_violated (rnd : ℚ → ℚ) (hr : Nearest rnd) (a : XF) (b : XF) (hb : ¬ Fin b) : interpolate rnd a b (.fin 0) = .nan ∧ interpolate rnd b a (.fin 1) = .nan := by
  have e : sub rnd (.fin 1) (.fin 1) = .fin 0 := by rw [sub_fin, sub_self]; exact ofQ_exact hr f32_zero (by norm_num [big])
  have z : mul rnd b (.fin 0) = .nan := by
    cases b with
    | nan => rfl
    | inf c => simp [mul]
    | fin q => exact absurd trivial hb
  unfold interpolate
  rw [z, e, z, nan_add, add_nan]; exact ⟨rfl, rfl⟩

example (rnd : ℚ → ℚ) (hr : Nearest rnd) := C194_ends_violated rnd hr (.fin 5) (.inf false) (fun h => h)

theorem float_sub_pos {rnd : ℚ → ℚ} (hr : Nearest rnd) (k : ℕ) (hk : k ≤ 149) {q : ℚ} (h : 1 / 2 ^ k ≤ |q|) : 1 / 2 ^ k ≤ |rnd q| := by
  have f : F32 ((1 : ℚ) / 2 ^ k) := by have := f32_div 1 (by norm_num) k (by omega); rwa [Int.cast_one] at this
  rcases le_abs.mp h with h | h
  · exact le_trans (hr.ge f h) (le_abs_self _)
  · have := hr.le (f32_neg f) (show q ≤ -(1 / 2 ^ k) by linarith)
    exact le_trans (by linarith) (neg_le_abs _)

/-- **C194**: map_value with arguments of magnitude at most 2^40 and an input range at least 2^-40 wide stays finite and does what C153 describes. -/
theorem C194_map (rnd : ℚ → ℚ) (hr : Nearest rnd) (x i0 i1 o0 o1 : ℚ) (hx : |x| ≤ 2 ^ 40) (h0 : |i0| ≤ 2 ^ 40) (h2 : |o0| ≤ 2 ^ 40) (h3 : |o1| ≤ 2 ^ 40) (h1 : |i1| ≤ 2 ^ 40) (hd : 1 / 2 ^ 40 ≤ |i1 - i0|) :
    mapValue rnd (.fin x) (.fin i0) (.fin i1) (.fin o0) (.fin o1) = .fin (MathFloat.mapValue rnd x i0 i1 o0 o1) := by
  have hsub : ∀ u v : ℚ, |u| ≤ 2 ^ 40 → |v| ≤ 2 ^ 40 → |u - v| ≤ 2 ^ 41 := by
    intro u v hu hv
    rw [abs_le] at *
    constructor <;> linarith
  unfold mapValue MathFloat.mapValue
  obtain ⟨e1, c1⟩ := fin_of_le hr 41 (by norm_num) (hsub x i0 hx h0)
  obtain ⟨e2, c2⟩ := fin_of_le hr 41 (by norm_num) (hsub o1 o0 h3 h2)
  obtain ⟨e3, c3⟩ := fin_of_le hr 41 (by norm_num) (hsub i1 i0 h1 h0)
  have c3' := float_sub_pos hr 40 (by norm_num) hd
  rw [sub_fin, sub_fin, sub_fin, e1, e2, e3, mul_fin]
  obtain ⟨e4, c4⟩ := fin_of_le hr 82 (by norm_num) (q := rnd (x - i0) * rnd (o1 - o0)) (by
    rw [abs_mul]
    calc |rnd (x - i0)| * |rnd (o1 - o0)| ≤ 2 ^ 41 * 2 ^ 41 := mul_le_mul c1 c2 (abs_nonneg _) (by norm_num)
      _ = 2 ^ 82 := by norm_num)
  have hne : rnd (i1 - i0) ≠ 0 := by intro h; rw [h] at c3'; norm_num at c3'
  rw [e4]
  simp only [div, if_neg hne]
  obtain ⟨e5, c5⟩ := fin_of_le hr 122 (by norm_num) (q := rnd (rnd (x - i0) * rnd (o1 - o0)) / rnd (i1 - i0)) (by
    have hp : 0 < |rnd (i1 - i0)| := abs_pos.mpr hne
    rw [abs_div, div_le_iff₀ hp]
    calc |rnd (rnd (x - i0) * rnd (o1 - o0))| ≤ 2 ^ 82 := c4
      _ = 2 ^ 122 * (1 / 2 ^ 40) := by norm_num
      _ ≤ 2 ^ 122 * |rnd (i1 - i0)| := by gcongr)
  rw [e5, add_fin]
  refine (fin_of_le hr 123 (by norm_num) ((abs_add_le _ _).trans ?_)).1
  have : (2 : ℚ) ^ 122 + 2 ^ 40 ≤ 2 ^ 123 := by norm_num
  linarith

example (rnd : ℚ → ℚ) (hr : Nearest rnd) := C194_map rnd hr 1 0 10 0 100 (by norm_num) (by norm_num) (by norm_num) (by norm_num) (by norm_num) (by norm_num)

/-- **C194, violated**: an empty input range gives NaN or an infinity, never a value of the output range. -/
theorem C194_map_violated (rnd : ℚ → ℚ) (hr : Nearest rnd) (x i o0 o1 : XF) (ho : Fin o0) : ¬ Fin (mapValue rnd x i i o0 o1) := by
  have hz : sub rnd i i = .nan ∨ sub rnd i i = .fin 0 := by
    cases i with
    | nan => exact Or.inl rfl
    | inf b => cases b <;> exact Or.inl rfl
    | fin q => rw [sub_fin, sub_self]; exact Or.inr (ofQ_exact hr f32_zero (by norm_num [big]))
  have key : ∀ m : XF, ¬ Fin (div rnd m (sub rnd i i)) := by
    intro m
    rcases hz with e | e <;> rw [e] <;> cases m with
    | nan => exact fun h => h
    | inf b => exact fun h => h
    | fin q => simp only [div, if_true]; first | exact fun h => h | (split <;> exact fun h => h)
  unfold mapValue
  have := key (mul rnd (sub rnd x i) (sub rnd o1 o0))
  generalize div rnd (mul rnd (sub rnd x i) (sub rnd o1 o0)) (sub rnd i i) = r at this ⊢
  cases r with
  | nan => rw [nan_add]; exact fun h => h
  | inf b => cases o0 with
    | fin q => exact fun h => h
    | nan => exact absurd ho (fun h => h)
    | inf c => exact absurd ho (fun h => h)
  | fin q => exact absurd trivial this

example (rnd : ℚ → ℚ) (hr : Nearest rnd) := C194_map_violated rnd hr (.fin 1) (.fin 2) (.fin 3) (.fin 4) trivial

/-- **C194**: faster_sine for arguments of magnitude at most 2^60 stays finite and does what C154 describes. -/
theorem C194_sine (rnd : ℚ → ℚ) (hr : Nearest rnd) (x : ℚ) (hx : |x| ≤ 2 ^ 60) : fasterSine rnd (.fin x) = .fin (MathFloat.fasterSine rnd x) := by
  unfold fasterSine MathFloat.fasterSine
  simp only [C194_abs]
  obtain ⟨e1, c1⟩ := fin_of_le hr 61 (by norm_num) (q := x * 2) (by rw [abs_mul, show |(2 : ℚ)| = 2 by norm_num]; norm_num at *; linarith)
  rw [mul_fin, e1, sub_fin]
  obtain ⟨e2, c2⟩ := fin_of_le hr 62 (by norm_num) (q := rnd (x * 2) - 1) (by
    have := abs_sub (rnd (x * 2)) 1
    norm_num at *; linarith)
  rw [e2]
  have ha : RatMath.fAbs (rnd (rnd (x * 2) - 1)) = |rnd (rnd (x * 2) - 1)| := by
    unfold RatMath.fAbs; split
    · next h => rw [abs_of_nonneg h]
    · next h => rw [abs_of_neg (by linarith)]
  rw [ha]
  simp only [XFlt.abs]
  rw [mul_fin]
  obtain ⟨e3, c3⟩ := fin_of_le hr 124 (by norm_num) (q := rnd (rnd (x * 2) - 1) * |rnd (rnd (x * 2) - 1)|) (by
    rw [abs_mul, abs_abs]
    calc |rnd (rnd (x * 2) - 1)| * |rnd (rnd (x * 2) - 1)| ≤ 2 ^ 62 * 2 ^ 62 := mul_le_mul c2 c2 (abs_nonneg _) (by norm_num)
      _ = 2 ^ 124 := by norm_num)
  rw [e3, sub_fin]
  obtain ⟨e4, c4⟩ := fin_of_le hr 125 (by norm_num) (q := rnd (rnd (x * 2) - 1) - rnd (rnd (rnd (x * 2) - 1) * |rnd (rnd (x * 2) - 1)|)) (by
    have := abs_sub (rnd (rnd (x * 2) - 1)) (rnd (rnd (rnd (x * 2) - 1) * |rnd (rnd (x * 2) - 1)|))
    have : (2 : ℚ) ^ 62 + 2 ^ 124 ≤ 2 ^ 125 := by norm_num
    linarith)
  rw [e4, mul_fin]
  refine (fin_of_le hr 127 (by norm_num) ?_).1
  rw [abs_mul, show |(4 : ℚ)| = 4 by norm_num]
  have : (4 : ℚ) * 2 ^ 125 ≤ 2 ^ 127 := by norm_num
  linarith

example (rnd : ℚ → ℚ) (hr : Nearest rnd) := C194_sine rnd hr (1 / 4) (by norm_num [abs_le])

/-- **C194, violated**: for an infinity or NaN faster_sine is NaN. -/
theorem C194_sine_violated (rnd : ℚ → ℚ) (x : XF) (hx : ¬ Fin x) : fasterSine rnd x = .nan := by
  cases x with
  | fin q => exact absurd trivial hx
  | nan => rfl
  | inf b => cases b <;> simp [fasterSine, mul, sub, add, neg, fAbs, le, show ¬ (2 : ℚ) < 0 by norm_num]

example (rnd : ℚ → ℚ) := C194_sine_violated rnd (.inf true) (fun h => h)

/-! ## Gates -/

theorem half_le {u : ℚ} {M : ℚ} (h : |u| ≤ M) : |u * (1 / 2)| ≤ M := by
  rw [abs_mul, show |(1 / 2 : ℚ)| = 1 / 2 by norm_num [abs_of_pos]]
  have := abs_nonneg u
  linarith

/-- **C194**: the gates give 0 or 1 for every float; for finite thresholds of magnitude at most 2^125 and a last output of 0 or 1 they do what C155 describes for inputs of
magnitude up to 2^126, plus infinity turns them on, minus infinity off, and NaN turns them off. -/
theorem C194_gates (rnd : ℚ → ℚ) (hr : Nearest rnd) (off on last : ℚ) (h0 : |off| ≤ 2 ^ 125) (h1 : |on| ≤ 2 ^ 125) (hl : last = 0 ∨ last = 1) (x : ℚ) (hx : |x| ≤ 2 ^ 126) :
    (hysteresisGate rnd (.fin off) (.fin on) (.fin last) (.fin x) = .fin (MathFloat.hysteresisGate rnd off on last x) ∧
      hysteresisGate rnd (.fin off) (.fin on) (.fin last) (.inf false) = .fin 1 ∧ hysteresisGate rnd (.fin off) (.fin on) (.fin last) (.inf true) = .fin 0 ∧
      hysteresisGate rnd (.fin off) (.fin on) (.fin last) .nan = .fin 0) ∧
    (hysteresisFeedback rnd (.fin off) (.fin on) (.fin last) (.fin x) = .fin (MathFloat.hysteresisFeedback rnd off on last x) ∧
      hysteresisFeedback rnd (.fin off) (.fin on) (.fin last) (.inf false) = .fin 1 ∧ hysteresisFeedback rnd (.fin off) (.fin on) (.fin last) (.inf true) = .fin 0 ∧
      hysteresisFeedback rnd (.fin off) (.fin on) (.fin last) .nan = .fin 0) := by
  have hll : ∀ u : ℚ, |u| ≤ 2 ^ 126 → |u * last| ≤ 2 ^ 126 := by
    intro u hu
    rcases hl with rfl | rfl
    · simp
    · rwa [mul_one]
  have h26 : (2 : ℚ) ^ 125 + 2 ^ 125 ≤ 2 ^ 126 := by norm_num
  have h27 : (2 : ℚ) ^ 126 + 2 ^ 126 ≤ 2 ^ 127 := by norm_num
  constructor
  · obtain ⟨e1, c1⟩ := fin_of_le hr 126 (by norm_num) (q := on - off) (by have := abs_sub on off; linarith)
    obtain ⟨e2, c2⟩ := fin_of_le hr 126 (by norm_num) (half_le c1)
    obtain ⟨e3, c3⟩ := fin_of_le hr 126 (by norm_num) (hll _ c2)
    obtain ⟨e4, c4⟩ := fin_of_le hr 126 (by norm_num) (q := on + off) (by have := abs_add_le on off; linarith)
    obtain ⟨e5, c5⟩ := fin_of_le hr 126 (by norm_num) (half_le c4)
    obtain ⟨e6, c6⟩ := fin_of_le hr 127 (by norm_num) (q := x + rnd (rnd (rnd (on - off) * (1 / 2)) * last)) (by have := abs_add_le x (rnd (rnd (rnd (on - off) * (1 / 2)) * last)); linarith)
    unfold hysteresisGate MathFloat.hysteresisGate
    simp only [sub_fin, e1, mul_fin, e2, e3, add_fin, e4, e5, e6]
    refine ⟨?_, ?_, ?_, ?_⟩
    · simp only [lt, decide_eq_true_eq, gt_iff_lt]
      split <;> rfl
    · simp [add, lt]
    · simp [add, lt]
    · simp [add, lt]
  · obtain ⟨e1, c1⟩ := fin_of_le hr 126 (by norm_num) (q := last * off) (by rw [mul_comm]; exact hll _ (by linarith))
    obtain ⟨e2, c2⟩ := fin_of_le hr 127 (by norm_num) (q := x + rnd (last * off)) (by have := abs_add_le x (rnd (last * off)); linarith)
    unfold hysteresisFeedback MathFloat.hysteresisFeedback
    simp only [mul_fin, e1, add_fin, e2]
    refine ⟨?_, ?_, ?_, ?_⟩
    · simp only [lt, decide_eq_true_eq, gt_iff_lt]
      split <;> rfl
    · simp [add, lt]
    · simp [add, lt]
    · simp [add, lt]

example (rnd : ℚ → ℚ) (hr : Nearest rnd) := C194_gates rnd hr (4 / 10) (6 / 10) 1 (by norm_num [abs_le]) (by norm_num [abs_le]) (Or.inr rfl) (1 / 2) (by norm_num [abs_le])

/-- **C194**: the Schmitt triggers ignore NaN: any history does to them what it does with its NaN samples left out; infinities beyond finite thresholds switch them. -/
theorem C194_schmitt (low high : XF) (t : Toggler) (last : Bool) (xs : List XF) :
    xs.foldl (Schmitt.process lt low high) t = (xs.filter (· ≠ .nan)).foldl (Schmitt.process lt low high) t ∧
    xs.foldl (fun s v => (Schmitt.update lt low high s v).2) last = (xs.filter (· ≠ .nan)).foldl (fun s v => (Schmitt.update lt low high s v).2) last ∧
    (∀ s, (Schmitt.update lt low high s .nan).1 = false) := by
  have h1 : ∀ t, Schmitt.process lt low high t .nan = t := by intro t; unfold Schmitt.process; simp [lt_nan, nan_lt]
  have h2 : ∀ s, Schmitt.update lt low high s .nan = (false, s) := by intro s; unfold Schmitt.update; simp [lt_nan, nan_lt]
  refine ⟨?_, ?_, fun s => by rw [h2]⟩
  · induction xs generalizing t with
    | nil => rfl
    | cons v l ih =>
      by_cases h : v = .nan
      · subst h; simp only [List.foldl_cons, h1]; rw [ih]; simp
      · rw [List.filter_cons_of_pos (by simpa using h), List.foldl_cons, List.foldl_cons, ih]
  · induction xs generalizing last with
    | nil => rfl
    | cons v l ih =>
      by_cases h : v = .nan
      · subst h; simp only [List.foldl_cons, h2]; rw [ih]; simp
      · rw [List.filter_cons_of_pos (by simpa using h), List.foldl_cons, List.foldl_cons, ih]

/-- **C194**: plus infinity makes a Schmitt trigger with finite thresholds high, minus infinity low. -/
theorem C194_schmitt_inf (low high : ℚ) (t : Toggler) (last : Bool) :
    (Schmitt.process lt (.fin low) (.fin high) t (.inf false)).isHigh = true ∧ (Schmitt.process lt (.fin low) (.fin high) t (.inf true)).isHigh = false ∧
    Schmitt.update lt (.fin low) (.fin high) last (.inf false) = (!last, true) ∧ Schmitt.update lt (.fin low) (.fin high) last (.inf true) = (false, false) := by
  refine ⟨?_, ?_, ?_, ?_⟩
  · unfold Schmitt.process
    cases h : t.high <;> simp [lt, Toggler.isHigh, Toggler.registerRisingEdge, h]
  · unfold Schmitt.process
    cases h : t.high <;> simp [lt, Toggler.isHigh, Toggler.registerFallingEdge, h]
  · cases last <;> simp [Schmitt.update, lt]
  · cases last <;> simp [Schmitt.update, lt]

end XMath
