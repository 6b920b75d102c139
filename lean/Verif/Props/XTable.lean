import Verif.Lemmas.XTable
import Verif.Props.FilterFloat
/-! # Property C192: table look-ups and the functions built on them, for every float including infinities and NaN -/
namespace XTable
open XFlt Flt MathTables MathFns Tables Interp Interp.Spec

attribute [local irreducible] sinTable exp5Table logTable tanTable

/-- **C192**, LookupTable: with finite points of magnitude up to 2^126 and a range whose width is finite, looking up a finite value gives exactly
what C145 describes, however large it is; plus infinity gives the last point, minus infinity the first. -/
theorem C192_lookup (rnd : ℚ → ℚ) (hr : Nearest rnd) (points : List ℚ) (hp : ∀ p ∈ points, |p| ≤ 2 ^ 126) (h2 : 2 ≤ points.length)
    (hn : points.length ≤ 2 ^ 24) (lo hi : ℚ) (hlo : F32 lo) (hhi : F32 hi) (hlh : lo < hi) (hw : hi - lo ≤ maxF) :
    (∀ v, lookup rnd (tab points) (.fin lo) (.fin hi) (.fin v) = .fin <$> InterpFloat.lookup rnd points lo hi v) ∧
    lookup rnd (tab points) (.fin lo) (.fin hi) (.inf false) = .fin <$> arrGet points (points.length - 1) ∧
    lookup rnd (tab points) (.fin lo) (.fin hi) (.inf true) = .fin <$> arrGet points 0 := by
  have hN0 : points.length - 1 < 2 ^ 24 := by
    have : (0 : Nat) < 2 ^ 24 := by norm_num
    omega
  have hNe : ofQ rnd ((points.length - 1 : Nat) : ℚ) = .fin ((points.length - 1 : Nat) : ℚ) := by
    rw [size_fin hr _ (lt_trans hN0 (by norm_num)), InterpFloat.nat_fix hr _ hN0]
  have hNf := InterpFloat.nat_fix hr _ hN0
  obtain ⟨N, hN⟩ : ∃ N : ℚ, N = ((points.length - 1 : Nat) : ℚ) := ⟨_, rfl⟩
  have hN1 : 1 ≤ N := by rw [hN]; exact_mod_cast (by omega : 1 ≤ points.length - 1)
  have hNF : F32 N := by
    have := f32_int ((points.length - 1 : Nat) : ℤ) (by rw [abs_of_nonneg (by positivity)]; exact_mod_cast hN0)
    rw [hN]; exact_mod_cast this
  have hNb : N < big := by
    have : N < 2 ^ 24 := by rw [hN]; exact_mod_cast hN0
    exact lt_trans this (by norm_num [big])
  have hDsub : sub rnd (.fin hi) (.fin lo) = .fin (rnd (hi - lo)) := by
    rw [sub_fin]; exact ofQ_le hr (by rw [abs_of_pos (by linarith)]; exact hw)
  obtain ⟨D, hD⟩ : ∃ D, D = rnd (hi - lo) := ⟨_, rfl⟩
  have hD0 : 0 < D := by
    have e : (1 : ℚ) / 2 ^ 149 ≤ hi - lo := FilterFloat.sub_ge hhi hlo hlh
    have f : F32 ((1 : ℚ) / 2 ^ 149) := by have := f32_div 1 (by norm_num) 149 (by norm_num); rwa [Int.cast_one] at this
    have := hr.ge f e
    rw [hD]; exact lt_of_lt_of_le (by positivity) this
  have hDm : D ≤ maxF := by rw [hD]; exact hr.le f32_maxF hw
  have hDb : D < big := lt_of_le_of_lt hDm maxF_lt
  rw [← hD] at hDsub
  rw [← hN] at hNe hNf
  have hb1 : (1 : ℚ) ≤ big := by norm_num [big]
  refine ⟨?_, ?_, ?_⟩
  · intro v
    unfold lookup InterpFloat.lookup InterpFloat.lookupIdx
    simp only [tab, List.length_map]
    rw [hDsub, ← hN, hNe, hNf, ← hD]
    simp only [if_neg hD0.ne', arrGet_map]
    -- the three stages of the index
    obtain ⟨s, hs⟩ : ∃ s, s = rnd (v - lo) := ⟨_, rfl⟩
    obtain ⟨q, hq⟩ : ∃ q, q = rnd (s / D) := ⟨_, rfl⟩
    obtain ⟨i, hi'⟩ : ∃ i, i = rnd (q * N) := ⟨_, rfl⟩
    have c1 : sub rnd (.fin v) (.fin lo) = .fin s ∨ (sub rnd (.fin v) (.fin lo) = .inf false ∧ big ≤ s) ∨ (sub rnd (.fin v) (.fin lo) = .inf true ∧ s ≤ -big) := by
      rw [sub_fin, hs]; unfold ofQ
      split
      · next h => exact Or.inr (Or.inl ⟨rfl, h⟩)
      · split
        · next h => exact Or.inr (Or.inr ⟨rfl, h⟩)
        · exact Or.inl rfl
    have c2 : div rnd (sub rnd (.fin v) (.fin lo)) (.fin D) = .fin q ∨ (div rnd (sub rnd (.fin v) (.fin lo)) (.fin D) = .inf false ∧ 1 ≤ q) ∨
        (div rnd (sub rnd (.fin v) (.fin lo)) (.fin D) = .inf true ∧ q ≤ 0) := by
      rcases c1 with h | ⟨h, hb⟩ | ⟨h, hb⟩
      · rw [h]
        simp only [div, if_neg hD0.ne']
        rw [hq]; unfold ofQ
        split
        · next h => exact Or.inr (Or.inl ⟨rfl, le_trans hb1 h⟩)
        · split
          · next h => exact Or.inr (Or.inr ⟨rfl, le_trans h (by linarith)⟩)
          · exact Or.inl rfl
      · rw [h]
        refine Or.inr (Or.inl ⟨?_, ?_⟩)
        · simp only [div, not_lt.mpr hD0.le, decide_false]; rfl
        · rw [hq]; exact hr.ge f32_one (by rw [le_div_iff₀ hD0]; linarith)
      · rw [h]
        refine Or.inr (Or.inr ⟨?_, ?_⟩)
        · simp only [div, not_lt.mpr hD0.le, decide_false]; rfl
        · rw [hq]; exact hr.le f32_zero (by rw [div_le_iff₀ hD0]; linarith)
    have c3 : mul rnd (div rnd (sub rnd (.fin v) (.fin lo)) (.fin D)) (.fin N) = .fin i ∨
        (mul rnd (div rnd (sub rnd (.fin v) (.fin lo)) (.fin D)) (.fin N) = .inf false ∧ N ≤ i) ∨
        (mul rnd (div rnd (sub rnd (.fin v) (.fin lo)) (.fin D)) (.fin N) = .inf true ∧ i ≤ 0) := by
      rcases c2 with h | ⟨h, hb⟩ | ⟨h, hb⟩
      · rw [h]
        simp only [mul]
        rw [hi']; unfold ofQ
        split
        · next h => exact Or.inr (Or.inl ⟨rfl, le_trans hNb.le h⟩)
        · split
          · next h => exact Or.inr (Or.inr ⟨rfl, le_trans h (by linarith)⟩)
          · exact Or.inl rfl
      · rw [h]
        refine Or.inr (Or.inl ⟨?_, ?_⟩)
        · simp only [mul, if_neg (show ¬ N = 0 by linarith), decide_eq_false (show ¬ N < 0 by linarith)]; rfl
        · rw [hi']; exact hr.ge hNF (by nlinarith)
      · rw [h]
        refine Or.inr (Or.inr ⟨?_, ?_⟩)
        · simp only [mul, if_neg (show ¬ N = 0 by linarith), decide_eq_false (show ¬ N < 0 by linarith)]; rfl
        · rw [hi']; exact hr.le f32_zero (by nlinarith)
    generalize hX : mul rnd (div rnd (sub rnd (.fin v) (.fin lo)) (.fin D)) (.fin N) = X at c3
    rw [← hs, ← hq, ← hi']
    rcases c3 with rfl | ⟨rfl, hb⟩ | ⟨rfl, hb⟩
    · simp only [le, decide_eq_true_eq]
      by_cases h0 : i ≤ 0
      · rw [if_pos h0, if_pos h0]
      · rw [if_neg h0, if_neg h0]
        by_cases h1 : N ≤ i
        · rw [if_pos h1, if_pos h1]
        · rw [if_neg h1, if_neg h1, toUnsigned_fin]
          obtain ⟨k, hk0, hk1⟩ := cell i (by linarith)
          have hkN : (k : ℚ) < N := by linarith
          have hk24 : k < 2 ^ 24 := by
            have : k < points.length - 1 := by rw [hN] at hkN; exact_mod_cast hkN
            omega
          rw [trunc_cell _ k i hk0 hk1 (by norm_num at hk24 ⊢; omega)]
          simp only [R.bind_ok]
          have hkf := InterpFloat.nat_fix hr k hk24
          rw [size_fin hr k (lt_trans hk24 (by norm_num)), hkf, sub_fin]
          cases g0 : arrGet points k with
          | ub => rfl
          | ok a =>
            cases g1 : arrGet points (k + 1) with
            | ub => rfl
            | ok b =>
              have b0 := getAll (P := fun p => |p| ≤ 2 ^ 126) hp g0
              have b1 := getAll (P := fun p => |p| ≤ 2 ^ 126) hp g1
              obtain ⟨e1, c1⟩ := fin_of_le hr 0 (by norm_num) (q := i - k) (by rw [abs_of_nonneg (by linarith)]; norm_num; linarith)
              have e27 : (2 : ℚ) ^ 127 = 2 ^ 126 + 2 ^ 126 := by norm_num
              obtain ⟨e2, c2⟩ := fin_of_le hr 127 (by norm_num) (q := b - a) (by have := abs_sub b a; linarith)
              obtain ⟨e3, c3⟩ := fin_of_le hr 127 (by norm_num) (q := rnd (i - k) * rnd (b - a)) (by
                rw [abs_mul]
                calc |rnd (i - k)| * |rnd (b - a)| ≤ 2 ^ 0 * 2 ^ 127 := mul_le_mul c1 c2 (abs_nonneg _) (by norm_num)
                  _ = 2 ^ 127 := by norm_num)
              simp only [R.map_ok, R.bind_ok, sub_fin]
              rw [e1, e2]
              simp only [mul]
              rw [e3]
              simp only [add]
              rw [ofQ_le hr (q := a + rnd (rnd (i - k) * rnd (b - a))) (by
                refine le_trans (abs_add_le _ _) ?_
                have : (2 : ℚ) ^ 126 + 2 ^ 127 ≤ maxF := by norm_num [maxF]
                linarith)]
    · simp only [le, Bool.not_false, if_true, Bool.false_eq_true, if_false]
      rw [if_neg (by linarith), if_pos hb]
    · simp only [le, if_true]
      rw [if_pos hb]
  · unfold lookup
    simp only [tab, List.length_map, arrGet_map]
    rw [hDsub, ← hN, hNe]
    simp only [sub, neg, add, div, decide_eq_false (not_lt.mpr hD0.le), mul, if_neg (show ¬ N = 0 by linarith), decide_eq_false (show ¬ N < 0 by linarith), le]
    rfl
  · unfold lookup
    simp only [tab, List.length_map, arrGet_map]
    rw [hDsub, ← hN, hNe]
    simp only [sub, neg, add, div, decide_eq_false (not_lt.mpr hD0.le), mul, if_neg (show ¬ N = 0 by linarith), decide_eq_false (show ¬ N < 0 by linarith), le]
    rfl

example (rnd : ℚ → ℚ) (hr : Nearest rnd) := C192_lookup rnd hr [0, 1, 3] (by intro p hp; simp at hp; rcases hp with rfl | rfl | rfl <;> norm_num) (by decide) (by decide)
  0 1 f32_zero f32_one (by norm_num) (by norm_num [maxF])

/-- **C192, violated**: looking up NaN is undefined behaviour in every table. -/
theorem C192_lookup_nan_violated (rnd : ℚ → ℚ) (points : List XF) (min max : XF) : lookup rnd points min max .nan = .ub := by
  unfold lookup
  have e : ∀ a b : XF, mul rnd (div rnd (sub rnd .nan min) a) b = .nan := by
    intro a b; rw [nan_sub]; cases a <;> rfl
  simp only [e, nan_le, le_nan]
  rfl

/-- **C192, violated**: a range whose width overflows: between -2^127 and 2^127 the value in the middle gives the first point, and the value at the
upper end is undefined behaviour. -/
theorem C192_lookup_width_violated (rnd : ℚ → ℚ) (hr : Nearest rnd) (points : List XF) (h2 : 2 ≤ points.length) (hn : points.length < 2 ^ 32) :
    lookup rnd points (.fin (-2 ^ 127)) (.fin (2 ^ 127)) (.fin 0) = arrGet points 0 ∧
    lookup rnd points (.fin (-2 ^ 127)) (.fin (2 ^ 127)) (.fin (2 ^ 127)) = .ub := by
  have f128 : ofQ rnd ((2 : ℚ) ^ 127 - -2 ^ 127) = .inf false := by
    have e : (2 : ℚ) ^ 127 - -2 ^ 127 = 2 ^ 128 := by norm_num
    rw [e, ofQ, hr.fix (f32_pow2 128), if_pos (by norm_num [big])]
  have f127 : ofQ rnd ((0 : ℚ) - -2 ^ 127) = .fin (2 ^ 127) := by
    rw [zero_sub, neg_neg]; exact ofQ_exact hr (f32_pow2 127) (by norm_num [big])
  have hz : ofQ rnd 0 = .fin 0 := ofQ_exact hr f32_zero (by norm_num [big])
  constructor
  · unfold lookup
    simp only [sub_fin, f128, f127, div]
    rw [size_fin hr (points.length - 1) (by omega)]
    simp only [mul, zero_mul, hz, le, le_refl, decide_true, if_true]
  · unfold lookup
    simp only [sub_fin, f128, div]
    rw [size_fin hr (points.length - 1) (by omega)]
    simp only [mul, le, Bool.false_eq_true, if_false, toUnsigned, R.bind_ub]

example (rnd : ℚ → ℚ) (hr : Nearest rnd) := C192_lookup_width_violated rnd hr [.fin 0, .fin 1] (by decide) (by decide)

/-- **C192**, an empty range (max = min): values above it give the last point, values below it the first; the value itself is undefined behaviour. -/
theorem C192_lookup_empty (rnd : ℚ → ℚ) (hr : Nearest rnd) (points : List XF) (h2 : 2 ≤ points.length) (hn : points.length < 2 ^ 32) (m v : ℚ)
    (hm : IsFloat (.fin m)) (hv : IsFloat (.fin v)) :
    lookup rnd points (.fin m) (.fin m) (.fin v) = if v = m then .ub else if m < v then arrGet points (points.length - 1) else arrGet points 0 := by
  have hz : ofQ rnd 0 = .fin 0 := ofQ_exact hr f32_zero (by norm_num [big])
  have hN1 : 1 ≤ rnd ((points.length - 1 : Nat) : ℚ) := hr.ge f32_one (by exact_mod_cast (by omega : 1 ≤ points.length - 1))
  have f : F32 ((1 : ℚ) / 2 ^ 149) := by have := f32_div 1 (by norm_num) 149 (by norm_num); rwa [Int.cast_one] at this
  have hp : (0 : ℚ) < 1 / 2 ^ 149 := by positivity
  unfold lookup
  simp only [sub_fin, sub_self, hz]
  rw [size_fin hr (points.length - 1) (by omega)]
  obtain ⟨N, hN⟩ : ∃ N, N = rnd ((points.length - 1 : Nat) : ℚ) := ⟨_, rfl⟩
  rw [← hN] at hN1 ⊢
  have hi : ∀ b, mul rnd (.inf b) (.fin N) = .inf b := by
    intro b
    simp only [mul, if_neg (show ¬ N = 0 by linarith), decide_eq_false (show ¬ N < 0 by linarith)]
    cases b <;> rfl
  by_cases hvm : v = m
  · subst hvm
    rw [if_pos rfl, sub_self, hz]
    simp only [div, if_true, mul, le, Bool.false_eq_true, if_false, toUnsigned, R.bind_ub]
  · rw [if_neg hvm]
    by_cases hlt : m < v
    · rw [if_pos hlt]
      have h1 := hr.ge f (FilterFloat.sub_ge hv.1 hm.1 hlt)
      have e : div rnd (ofQ rnd (v - m)) (.fin 0) = .inf false := by
        unfold ofQ
        split
        · rfl
        · split
          · next h => exact absurd h (by have := big_pos; linarith)
          · simp only [div, if_true, if_neg (show ¬ rnd (v - m) = 0 by linarith), decide_eq_false (show ¬ rnd (v - m) < 0 by linarith)]
      rw [e, hi]
      simp only [le, Bool.false_eq_true, if_false, Bool.not_false, if_true]
    · rw [if_neg hlt]
      have hlt' : v < m := lt_of_le_of_ne (not_lt.mp hlt) hvm
      have h1 := hr.le (f32_neg f) (show v - m ≤ -(1 / 2 ^ 149) by have := FilterFloat.sub_ge hm.1 hv.1 hlt'; linarith)
      have e : div rnd (ofQ rnd (v - m)) (.fin 0) = .inf true := by
        unfold ofQ
        split
        · next h => exact absurd h (by have := big_pos; linarith)
        · split
          · rfl
          · simp only [div, if_true, if_neg (show ¬ rnd (v - m) = 0 by linarith), decide_eq_true (show rnd (v - m) < 0 by linarith)]
      rw [e, hi]
      simp only [le, if_true]

example (rnd : ℚ → ℚ) (hr : Nearest rnd) := C192_lookup_empty rnd hr [.fin 5, .nan, .fin 7] (by decide) (by decide) 0 1 ⟨f32_zero, by norm_num [big]⟩ ⟨f32_one, by norm_num [big]⟩

/-- **C192**, InterpArray of finite elements up to 2^90: a finite phase gives exactly what C147 describes, however large it is. -/
theorem C192_interp (rnd : ℚ → ℚ) (hr : Nearest rnd) (data : List ℚ) (hd : ∀ p ∈ data, |p| ≤ 2 ^ 90) (hn : data.length < 2 ^ 32) (x : ℚ) :
    interp rnd (tab data) (.fin x) = .fin <$> InterpFloat.interp rnd data x ∧
    interpWrap rnd (tab data) (.fin x) = .fin <$> InterpFloat.interpWrap rnd data x ∧
    interpByIndex rnd (tab data) (.fin x) = .fin <$> InterpFloat.interpByIndex rnd data x ∧
    interpByIndexWrap rnd (tab data) (.fin x) = .fin <$> InterpFloat.interpByIndexWrap rnd data x ∧
    closest rnd (tab data) (.fin x) = .fin <$> InterpFloat.closest rnd data x ∧
    closestWrap rnd (tab data) (.fin x) = .fin <$> InterpFloat.closestWrap rnd data x :=
  ⟨interp_fin hr data hd hn x, interpWrap_fin hr data hd hn x, byIndex_fin hr data hd x, byIndexWrap_fin hr data hd x, closest_fin hr data hn x, closestWrap_fin hr data hn x⟩

example (rnd : ℚ → ℚ) (hr : Nearest rnd) := C192_interp rnd hr [0, 1, 3] (by intro p hp; simp at hp; rcases hp with rfl | rfl | rfl <;> norm_num) (by decide) (2 ^ 127)

/-- **C192, violated**: NaN or infinite phases are undefined behaviour in every look-up of every table, also in those that wrap. -/
theorem C192_interp_violated (rnd : ℚ → ℚ) (hr : Nearest rnd) (data : List XF) (hn : data.length < 2 ^ 32) (p : XF) (hp : ¬ Fin p) :
    interp rnd data p = .ub ∧ interpWrap rnd data p = .ub ∧ closest rnd data p = .ub ∧ closestWrap rnd data p = .ub ∧
    interpByIndex rnd data p = .ub ∧ interpByIndexWrap rnd data p = .ub := by
  obtain ⟨a, b, c, d⟩ := special hr data hn p hp
  refine ⟨a, b, c, d, ?_, ?_⟩
  · cases p with
    | fin x => exact absurd trivial hp
    | nan => rfl
    | inf b => rfl
  · cases p with
    | fin x => exact absurd trivial hp
    | nan => rfl
    | inf b => rfl

example (rnd : ℚ → ℚ) (hr : Nearest rnd) := C192_interp_violated rnd hr [.fin 0, .fin 1] (by decide) (.inf true) (fun h => h)

/-! ## sin, cos, tan -/

theorem div_special (rnd : ℚ → ℚ) (x : XF) (hx : ¬ Fin x) (d : ℚ) : ¬ Fin (div rnd x (.fin d)) := by
  cases x with
  | fin x => exact absurd trivial hx
  | nan => exact fun h => h
  | inf b => exact fun h => h

theorem add_special (rnd : ℚ → ℚ) (x : XF) (hx : ¬ Fin x) (d : ℚ) : ¬ Fin (add rnd x (.fin d)) := by
  cases x with
  | fin x => exact absurd trivial hx
  | nan => exact fun h => h
  | inf b => exact fun h => h

theorem sinosc_eq (rnd : ℚ → ℚ) (data : List ℚ) (p : ℚ) : SineOsc.interpWrapR rnd data p = InterpFloat.interpWrap rnd data p := rfl

/-- **C192**: the trigonometric functions of a finite float are those of C139 and C161 (which say from where on they are undefined); of NaN and the
infinities they are undefined behaviour. -/
theorem C192_trig (rnd : ℚ → ℚ) (hr : Nearest rnd) :
    (∀ x : ℚ, F32 x → |x| < big → sin rnd (.fin x) = .fin <$> TrigFloat.sin rnd x ∧ sin01 rnd (.fin x) = .fin <$> TrigFloat.sin01 rnd x ∧
      cos rnd (.fin x) = .fin <$> TrigFloat.cos rnd x ∧ cosClose rnd (.fin x) = .fin <$> ExpFloat.cosClose rnd x ∧
      tan rnd (.fin x) = .fin <$> ExpFloat.tan rnd x ∧ tanClose rnd (.fin x) = .fin <$> ExpFloat.tanClose rnd x) ∧
    ∀ x : XF, ¬ Fin x → sin rnd x = .ub ∧ sin01 rnd x = .ub ∧ cos rnd x = .ub ∧ cosClose rnd x = .ub ∧ tan rnd x = .ub ∧ tanClose rnd x = .ub := by
  have pi1 : (1 : ℚ) ≤ pif := by norm_num [pif]
  have pi4 : pif ≤ 4 := by norm_num [pif]
  obtain ⟨t, ht⟩ : ∃ t, t = rnd (2 * pif) := ⟨_, rfl⟩
  have ht1 : 1 ≤ t := by rw [ht]; exact hr.ge f32_one (by linarith)
  have htq : ofQ rnd (2 * pif) = .fin t := by
    rw [ht]; exact (fin_of_le hr 4 (by norm_num) (by rw [abs_of_nonneg (by linarith)]; norm_num; linarith)).1
  have hlm : ∀ l : List ℚ, (tab l).length = l.length := fun l => List.length_map _
  constructor
  · intro x hx hb
    have hxm := le_maxF hx hb
    have dv : ∀ d : ℚ, 1 ≤ d → div rnd (.fin x) (.fin d) = .fin (rnd (x / d)) ∧ |rnd (x / d)| ≤ maxF := by
      intro d hd
      have hdx : |x / d| ≤ maxF := by
        rw [abs_div, abs_of_pos (show 0 < d by linarith), div_le_iff₀ (by linarith)]
        have : 0 ≤ maxF := by norm_num [maxF]
        nlinarith [abs_nonneg x]
      refine ⟨?_, ?_⟩
      · simp only [div, if_neg (show ¬ d = 0 by linarith)]
        exact ofQ_le hr hdx
      · obtain ⟨a, b⟩ := abs_le.mp hdx
        exact abs_le.mpr ⟨hr.ge (f32_neg f32_maxF) a, hr.le f32_maxF b⟩
    have quarter : ofQ rnd (rnd (x / t) + 1 / 4) = .fin (rnd (rnd (x / t) + 1 / 4)) := by
      -- x / t is well below the largest float
      apply ofQ_le hr
      have h6 : 6 ≤ t := by
        have f6 : F32 6 := by have := f32_int 6 (by norm_num); exact_mod_cast this
        rw [ht]; exact hr.ge f6 (by norm_num [pif])
      have : |x / t| ≤ 2 ^ 127 := by
        rw [abs_div, abs_of_pos (show 0 < t by linarith), div_le_iff₀ (by linarith)]
        have : maxF ≤ 2 ^ 127 * 6 := by norm_num [maxF]
        nlinarith [abs_nonneg x]
      have := (fin_of_le hr 127 (by norm_num) this).2
      refine le_trans (abs_add_le _ _) ?_
      have : (2 : ℚ) ^ 127 + |(1 / 4 : ℚ)| ≤ maxF := by norm_num [maxF]
      linarith
    have d1 := (dv t ht1).1
    have d2 := (dv pif pi1).1
    unfold sin sin01 cos cosClose tan tanClose TrigFloat.sin TrigFloat.sin01 TrigFloat.cos ExpFloat.cosClose ExpFloat.tan ExpFloat.tanClose
    rw [htq, d1, d2, ← ht]
    simp only [add, sinosc_eq]
    rw [quarter]
    exact ⟨interpWrap_fin hr _ (sin_small hr) (sin_len' rnd) _, interpWrap_fin hr _ (sin_small hr) (sin_len' rnd) _,
      interpWrap_fin hr _ (sin_small hr) (sin_len' rnd) _, closestWrap_fin hr _ (sin_len' rnd) _, interpWrap_fin hr _ (tan_small hr) (tan_len' rnd) _,
      closestWrap_fin hr _ (tan_len' rnd) _⟩
  · intro x hx
    unfold sin sin01 cos cosClose tan tanClose
    rw [htq]
    have s1 := special hr (tab (ExpFloat.sinR rnd)) (by rw [hlm]; exact sin_len' rnd)
    have s2 := special hr (tab (ExpFloat.tanR rnd)) (by rw [hlm]; exact tan_len' rnd)
    have n1 := div_special rnd x hx t
    have n2 := div_special rnd x hx pif
    have n3 := add_special rnd _ n1 (1 / 4)
    exact ⟨(s1 _ n1).2.1, (s1 _ hx).2.1, (s1 _ n3).2.1, (s1 _ n3).2.2.2, (s2 _ n2).2.1, (s2 _ n2).2.2.2⟩

example (rnd : ℚ → ℚ) (hr : Nearest rnd) := (C192_trig rnd hr).1 1 f32_one (by norm_num [big])
example (rnd : ℚ → ℚ) (hr : Nearest rnd) := (C192_trig rnd hr).2 .nan (fun h => h)

/-! ## setPitchMultiple, audioFreqToNorm -/

theorem pitch_fin (rnd : ℚ → ℚ) (hr : Nearest rnd) (p : ℚ) (h0 : 0 ≤ p) (h1 : p ≤ 1) :
    ∃ v : ℚ, interp rnd (tab (ExpFloat.exp5R rnd)) (.fin p) = .ok (.fin v) ∧ InterpFloat.interp rnd (ExpFloat.exp5R rnd) p = .ok v ∧ 1 / 2 ≤ v ∧ v ≤ 64 := by
  obtain ⟨v, hv, hb⟩ := ExpFloat.exp5_close rnd hr p h0 h1
  refine ⟨v, by rw [interp_fin hr _ (exp5_small hr) (exp5_len' rnd), hv]; rfl, hv, ?_⟩
  have p0 : (0 : ℝ) ≤ p := by exact_mod_cast h0
  have p1 : (p : ℝ) ≤ 1 := by exact_mod_cast h1
  have g1 : (1 : ℝ) ≤ 2 ^ (5 * (p : ℝ)) := Real.one_le_rpow (by norm_num) (by linarith)
  have g2 : (2 : ℝ) ^ (5 * (p : ℝ)) ≤ 32 := by
    calc (2 : ℝ) ^ (5 * (p : ℝ)) ≤ 2 ^ (5 : ℝ) := Real.rpow_le_rpow_of_exponent_le (by norm_num) (by linarith)
      _ = 32 := by norm_num
  obtain ⟨a, b⟩ := abs_le.mp hb
  constructor
  · have : ((1 / 2 : ℚ) : ℝ) ≤ v := by push_cast; norm_num at a ⊢; linarith
    exact_mod_cast this
  · have : (v : ℝ) ≤ ((64 : ℚ) : ℝ) := by push_cast; norm_num at b ⊢; linarith
    exact_mod_cast this

/-- **C192**: setPitchMultiple is defined and finite for every float except NaN: a finite one gives what C159 describes, the infinities the same as
±1. -/
theorem C192_pitch (rnd : ℚ → ℚ) (hr : Nearest rnd) :
    (∀ x : ℚ, F32 x → |x| < big → ∃ m : ℚ, setPitchMultiple rnd (.fin x) = .ok (.fin m) ∧ ExpFloat.setPitchMultiple rnd x = .ok m) ∧
    setPitchMultiple rnd (.inf false) = setPitchMultiple rnd (.fin 1) ∧ setPitchMultiple rnd (.inf true) = setPitchMultiple rnd (.fin (-1)) := by
  have hm1 : mul rnd (.fin (-1)) (.fin (-1)) = .fin 1 := by
    show ofQ rnd (-1 * -1) = _
    rw [show (-1 : ℚ) * -1 = 1 by norm_num]; exact ofQ_exact hr f32_one (by norm_num [big])
  refine ⟨?_, ?_, ?_⟩
  · intro x hx hb
    unfold setPitchMultiple ExpFloat.setPitchMultiple
    simp only [le, decide_eq_true_eq, ge_iff_le]
    have cf : ∀ y : ℚ, constrain (.fin y) (.fin 0) (.fin 1) = .fin (MathFns.constrain y 0 1) ∧ 0 ≤ MathFns.constrain y 0 1 ∧ MathFns.constrain y 0 1 ≤ 1 := by
      intro y
      unfold constrain MathFns.constrain
      simp only [lt, decide_eq_true_eq]
      split
      · exact ⟨rfl, le_refl _, by norm_num⟩
      · split
        · exact ⟨rfl, by norm_num, le_refl _⟩
        · next h1 h2 => exact ⟨rfl, by linarith, by linarith⟩
    by_cases h0 : 0 ≤ x
    · rw [if_pos h0, if_pos h0]
      obtain ⟨e, c0, c1⟩ := cf x
      obtain ⟨v, h1, h2, _, _⟩ := pitch_fin rnd hr _ c0 c1
      exact ⟨v, by rw [e, h1], h2⟩
    · rw [if_neg h0, if_neg h0]
      have hneg : mul rnd (.fin x) (.fin (-1)) = .fin (-x) := by
        show ofQ rnd (x * -1) = _
        rw [mul_neg, mul_one]; exact ofQ_exact hr (f32_neg hx) (by rw [abs_neg]; exact hb)
      have hneg' : rnd (x * -1) = -x := by rw [mul_neg, mul_one]; exact hr.fix (f32_neg hx)
      obtain ⟨e, c0, c1⟩ := cf (-x)
      obtain ⟨v, h1, h2, h3, h4⟩ := pitch_fin rnd hr _ c0 c1
      refine ⟨rnd (1 / v), ?_, ?_⟩
      · rw [hneg, e, h1]
        simp only [R.bind_ok, div, if_neg (show ¬ v = 0 by linarith)]
        rw [(fin_of_le hr 1 (by norm_num) (q := 1 / v) (by rw [abs_of_pos (by positivity), div_le_iff₀ (by linarith)]; norm_num; linarith)).1]
      · simp only [hneg']
        rw [h2]
        simp only [R.bind_ok, if_neg (show ¬ v = 0 by linarith)]
  · unfold setPitchMultiple constrain
    simp [le, lt, show ¬ (1 : ℚ) < 0 by norm_num]
  · unfold setPitchMultiple constrain
    rw [hm1]
    simp [le, lt, mul, show ¬ (1 : ℚ) < 0 by norm_num, show ¬ (1 : ℚ) ≤ 0 by norm_num]

example (rnd : ℚ → ℚ) (hr : Nearest rnd) := (C192_pitch rnd hr).1 (2 ^ 127) (f32_pow2 127) (by norm_num [big])

/-- **C192**: audioFreqToNorm is defined and finite for every float except NaN: a finite one gives what C160 describes, the infinities the same as
20 and 20000. -/
theorem C192_freq (rnd : ℚ → ℚ) (hr : Nearest rnd) :
    (∀ x : ℚ, ∃ m : ℚ, audioFreqToNorm rnd (.fin x) = .ok (.fin m) ∧ ExpFloat.audioFreqToNorm rnd x = .ok m) ∧
    audioFreqToNorm rnd (.inf false) = audioFreqToNorm rnd (.fin 20000) ∧ audioFreqToNorm rnd (.inf true) = audioFreqToNorm rnd (.fin 20) := by
  have f20 : F32 (20 : ℚ) := by have := f32_int 20 (by norm_num); exact_mod_cast this
  have f19980 : F32 (19980 : ℚ) := by have := f32_int 19980 (by norm_num); exact_mod_cast this
  have hz := ofQ_exact hr f32_zero (by norm_num [big])
  refine ⟨?_, ?_, ?_⟩
  · intro x
    have cf : ∀ y : ℚ, constrain (.fin y) (.fin 20) (.fin 20000) = .fin (MathFns.constrain y 20 20000) ∧ 20 ≤ MathFns.constrain y 20 20000 ∧ MathFns.constrain y 20 20000 ≤ 20000 := by
      intro y
      unfold constrain MathFns.constrain
      simp only [lt, decide_eq_true_eq]
      split
      · exact ⟨rfl, le_refl _, by norm_num⟩
      · split
        · exact ⟨rfl, by norm_num, le_refl _⟩
        · next h1 h2 => exact ⟨rfl, by linarith, by linarith⟩
    obtain ⟨e, c0, c1⟩ := cf x
    unfold audioFreqToNorm ExpFloat.audioFreqToNorm
    rw [e]
    generalize MathFns.constrain x 20 20000 = y at c0 c1
    simp only
    -- the argument of the table
    have hy0 : 0 ≤ rnd (y - 20) := hr.ge f32_zero (by linarith)
    have hy1 : rnd (y - 20) ≤ 19980 := hr.le f19980 (by linarith)
    have hmv : mapValue rnd (.fin y) (.fin 20) (.fin 20000) (.fin 0) (.fin 1) = .fin (MathFloat.mapValue rnd y 20 20000 0 1) ∧
        0 ≤ MathFloat.mapValue rnd y 20 20000 0 1 ∧ MathFloat.mapValue rnd y 20 20000 0 1 ≤ 1 := by
      unfold mapValue MathFloat.mapValue
      have a1 : sub rnd (.fin y) (.fin 20) = .fin (rnd (y - 20)) := by
        rw [sub_fin]; exact (fin_of_le hr 15 (by norm_num) (by rw [abs_of_nonneg (by linarith)]; norm_num; linarith)).1
      have a2 : sub rnd (.fin 1) (.fin 0) = .fin 1 := by rw [sub_fin, sub_zero]; exact ofQ_exact hr f32_one (by norm_num [big])
      have a3 : sub rnd (.fin 20000) (.fin 20) = .fin 19980 := by
        rw [sub_fin, show (20000 : ℚ) - 20 = 19980 by norm_num]; exact ofQ_exact hr f19980 (by norm_num [big])
      have r1 : rnd ((1 : ℚ) - 0) = 1 := by rw [sub_zero]; exact hr.fix f32_one
      have r2 : rnd ((20000 : ℚ) - 20) = 19980 := by rw [show (20000 : ℚ) - 20 = 19980 by norm_num]; exact hr.fix f19980
      have r3 : rnd (rnd (y - 20)) = rnd (y - 20) := hr.fix (hr.f32 _)
      have r4 : rnd (rnd (rnd (y - 20) / 19980)) = rnd (rnd (y - 20) / 19980) := hr.fix (hr.f32 _)
      have q0 : 0 ≤ rnd (rnd (y - 20) / 19980) := hr.ge f32_zero (by positivity)
      have q1 : rnd (rnd (y - 20) / 19980) ≤ 1 := hr.le f32_one (by rw [div_le_one (by norm_num)]; exact hy1)
      have hfin : ∀ q : ℚ, |q| ≤ 2 ^ 20 → ofQ rnd q = .fin (rnd q) := fun q hq => (fin_of_le hr 20 (by norm_num) hq).1
      rw [a1, a2, a3, r1, r2]
      simp only [mul, mul_one, r3]
      rw [hfin (rnd (y - 20)) (by rw [abs_of_nonneg hy0]; norm_num; linarith), r3]
      simp only [div, if_neg (show ¬ (19980 : ℚ) = 0 by norm_num)]
      rw [hfin (rnd (y - 20) / 19980) (by rw [abs_of_nonneg (by positivity), div_le_iff₀ (by norm_num)]; norm_num; linarith)]
      simp only [add, add_zero]
      rw [hfin _ (by rw [abs_of_nonneg q0]; norm_num; linarith), r4]
      exact ⟨rfl, q0, q1⟩
    obtain ⟨e2, m0, m1⟩ := hmv
    rw [e2, interp_fin hr _ (log_small hr) (log_len' rnd)]
    obtain ⟨t, _, _, ht, _, _, _, hk, _, _, _, hM⟩ := ExpFloat.interp_near rnd hr logTable log_len _ m0 m1
    rw [show ExpFloat.logR rnd = logTable.map rnd from rfl, ht]
    -- the entry of the table is bounded: it is a blend of floats up to 2^90
    have htb : |t| ≤ 2 ^ 124 := by
      have hb := byIndex_fin hr (ExpFloat.logR rnd) (log_small hr) (rnd (MathFloat.mapValue rnd y 20 20000 0 1 * rnd (((ExpFloat.logR rnd).length - 1 : Nat) : ℚ)))
      have ht' : InterpFloat.interpByIndex rnd (ExpFloat.logR rnd) (rnd (MathFloat.mapValue rnd y 20 20000 0 1 * rnd (((ExpFloat.logR rnd).length - 1 : Nat) : ℚ))) = .ok t := ht
      unfold InterpFloat.interpByIndex at ht'
      cases hk : Color.trunc 4294967296 (rnd (MathFloat.mapValue rnd y 20 20000 0 1 * rnd (((ExpFloat.logR rnd).length - 1 : Nat) : ℚ))) with
      | ub => rw [hk] at ht'; cases ht'
      | ok k =>
        rw [hk] at ht'
        obtain ⟨c0, c1, c2, c3⟩ := trunc_lt hk
        have hlen : (ExpFloat.logR rnd).length = 2048 := by unfold ExpFloat.logR; rw [List.length_map, log_len]
        have hidx : rnd (MathFloat.mapValue rnd y 20 20000 0 1 * rnd (((ExpFloat.logR rnd).length - 1 : Nat) : ℚ)) ≤ 2047 := by
          have f2047 : F32 (2047 : ℚ) := by have := f32_int 2047 (by norm_num); exact_mod_cast this
          rw [hlen]
          have : rnd (((2048 - 1 : Nat) : ℚ)) = 2047 := by
            have := hr.fix f2047; push_cast at this ⊢; norm_num; exact this
          rw [this]
          exact hr.le f2047 (by linarith)
        have hk' : (k : ℚ) ≤ 2047 := le_trans c2 (max_le hidx (by norm_num))
        have hkn : k < 2 ^ 24 := by
          have : k ≤ 2047 := by exact_mod_cast hk'
          omega
        simp only [R.bind_ok, InterpFloat.blend] at ht'
        have hx0 : 0 ≤ rnd (MathFloat.mapValue rnd y 20 20000 0 1 * rnd (((ExpFloat.logR rnd).length - 1 : Nat) : ℚ)) :=
          hr.ge f32_zero (mul_nonneg m0 (hr.ge f32_zero (Nat.cast_nonneg _)))
        generalize rnd (MathFloat.mapValue rnd y 20 20000 0 1 * rnd (((ExpFloat.logR rnd).length - 1 : Nat) : ℚ)) = z at *
        rw [InterpFloat.nat_fix hr k hkn] at ht'
        rw [max_eq_left hx0] at c2
        have p0 : 0 ≤ rnd (z - k) := hr.ge f32_zero (by linarith)
        have p1 : rnd (z - k) ≤ 1 := hr.le f32_one (by linarith)
        have w0 : 0 ≤ rnd (1 - rnd (z - k)) := hr.ge f32_zero (by linarith)
        have w1 : rnd (1 - rnd (z - k)) ≤ 1 := hr.le f32_one (by linarith)
        cases g1 : arrGet (ExpFloat.logR rnd) (if k = (ExpFloat.logR rnd).length - 1 then 0 else k + 1) with
        | ub => rw [g1] at ht'; cases ht'
        | ok d1 =>
          rw [g1] at ht'
          simp only [R.bind_ok] at ht'
          cases g0 : arrGet (ExpFloat.logR rnd) k with
          | ub => rw [g0] at ht'; cases ht'
          | ok d0 =>
            rw [g0] at ht'
            simp only [R.bind_ok] at ht'
            injection ht' with ht'
            have b1 := getAll (P := fun p => |p| ≤ 2 ^ 90) (log_small hr) g1
            have b0 := getAll (P := fun p => |p| ≤ 2 ^ 90) (log_small hr) g0
            have m1' := (fin_of_le hr 90 (by norm_num) (q := d1 * rnd (z - k)) (by
              rw [abs_mul, abs_of_nonneg p0]; calc |d1| * rnd (z - k) ≤ 2 ^ 90 * 1 := mul_le_mul b1 p1 p0 (by norm_num)
                _ = 2 ^ 90 := mul_one _)).2
            have m0' := (fin_of_le hr 90 (by norm_num) (q := d0 * rnd (1 - rnd (z - k))) (by
              rw [abs_mul, abs_of_nonneg w0]; calc |d0| * rnd (1 - rnd (z - k)) ≤ 2 ^ 90 * 1 := mul_le_mul b0 w1 w0 (by norm_num)
                _ = 2 ^ 90 := mul_one _)).2
            rw [← ht']
            refine (fin_of_le hr 124 (by norm_num) ?_).2
            refine le_trans (abs_add_le _ _) ?_
            have : (2 : ℚ) ^ 90 + 2 ^ 90 ≤ 2 ^ 124 := by norm_num
            linarith
    obtain ⟨c, hc⟩ : ∃ c, c = rnd (299573 / 100000) := ⟨_, rfl⟩
    obtain ⟨g, hg⟩ : ∃ g, g = rnd (690776 / 100000) := ⟨_, rfl⟩
    have hcq : ofQ rnd (299573 / 100000) = .fin c ∧ |c| ≤ 2 ^ 4 := by rw [hc]; exact fin_of_le hr 4 (by norm_num) (by norm_num [abs_of_pos])
    have hgq : ofQ rnd (690776 / 100000) = .fin g ∧ |g| ≤ 2 ^ 4 := by rw [hg]; exact fin_of_le hr 4 (by norm_num) (by norm_num [abs_of_pos])
    have hg1 : 1 ≤ g := by rw [hg]; exact hr.ge f32_one (by norm_num)
    have hsub := fin_of_le hr 125 (by norm_num) (q := t - c) (by
      have := abs_sub t c
      have : (2 : ℚ) ^ 124 + 2 ^ 4 ≤ 2 ^ 125 := by norm_num
      linarith [hcq.2])
    refine ⟨rnd (rnd (t - c) / g), ?_, by rw [hc, hg]; rfl⟩
    simp only [R.map_ok, R.bind_ok]
    rw [hcq.1, hgq.1, sub_fin, hsub.1]
    simp only [div, if_neg (show ¬ g = 0 by linarith)]
    rw [(fin_of_le hr 125 (by norm_num) (q := rnd (t - c) / g) (by
      rw [abs_div, abs_of_pos (show 0 < g by linarith), div_le_iff₀ (by linarith)]
      nlinarith [hsub.2, abs_nonneg (rnd (t - c))])).1]
  · unfold audioFreqToNorm constrain
    simp [lt, show ¬ (20000 : ℚ) < 20 by norm_num]
  · unfold audioFreqToNorm constrain
    have : ¬ (20000 : ℚ) < 20 := by norm_num
    simp [lt, this]

example (rnd : ℚ → ℚ) (hr : Nearest rnd) := (C192_freq rnd hr).1 (-5)

/-- **C192, violated**: NaN passes through the limits, and both functions have undefined behaviour. -/
theorem C192_nan_violated (rnd : ℚ → ℚ) (hr : Nearest rnd) : setPitchMultiple rnd .nan = .ub ∧ audioFreqToNorm rnd .nan = .ub := by
  have hlm : ∀ l : List ℚ, (tab l).length = l.length := fun l => List.length_map _
  have s1 := (special hr (tab (ExpFloat.exp5R rnd)) (by rw [hlm]; exact exp5_len' rnd) .nan (fun h => h)).1
  have s2 := (special hr (tab (ExpFloat.logR rnd)) (by rw [hlm]; exact log_len' rnd) .nan (fun h => h)).1
  constructor
  · unfold setPitchMultiple constrain
    simp only [le, lt, nan_mul, Bool.false_eq_true, if_false]
    rw [s1]; rfl
  · unfold audioFreqToNorm constrain mapValue
    simp only [lt, nan_sub, nan_mul, Bool.false_eq_true, if_false]
    have e : add rnd (div rnd .nan (sub rnd (.fin 20000) (.fin 20))) (.fin 0) = .nan := by
      cases sub rnd (.fin 20000) (.fin 20) <;> rfl
    rw [e, s2]; rfl

/-! ## pow2 -/

/-- **C192, violated**: pow2 of NaN or plus infinity never returns. -/
theorem C192_pow2_special_violated (rnd : ℚ → ℚ) (fuel : Nat) : pow2 rnd fuel .nan = none ∧ pow2 rnd fuel (.inf false) = none := by
  have key : ∀ (n : Nat) (x r : XF), (x = .nan ∨ x = .inf false) → pow2Loop rnd n x r = none := by
    intro n
    induction n with
    | zero => intro x r _; rfl
    | succ n ih =>
      intro x r hx
      rw [pow2Loop]
      rcases hx with rfl | rfl
      · rw [nan_lt, if_neg (by decide)]
        exact ih _ _ (Or.inl rfl)
      · rw [show lt (.inf false) (.fin 1) = false from rfl, if_neg (by decide)]
        exact ih _ _ (Or.inr rfl)
  constructor
  · exact key fuel _ _ (Or.inl rfl)
  · refine key fuel _ _ (Or.inr ?_)
    simp [div, show ¬ (5 : ℚ) < 0 by norm_num]

/-- **C192, violated**: pow2 of minus infinity is undefined behaviour. -/
theorem C192_pow2_minus_violated (rnd : ℚ → ℚ) (hr : Nearest rnd) (fuel : Nat) : pow2 rnd (fuel + 1) (.inf true) = some .ub := by
  have hlm : ∀ l : List ℚ, (tab l).length = l.length := fun l => List.length_map _
  have s1 := (special hr (tab (ExpFloat.exp5R rnd)) (by rw [hlm]; exact exp5_len' rnd) (.inf true) (fun h => h)).1
  have e : div rnd (.inf true) (.fin 5) = .inf true := by simp [div, show ¬ (5 : ℚ) < 0 by norm_num]
  rw [pow2, e, pow2Loop, show lt (.inf true) (.fin 1) = true from rfl, if_pos rfl, s1]
  rfl

/-- **C192, violated**: pow2 never returns for finite floats above 170 million either: the decrement is lost in rounding (although the result is
infinite from 128 on). -/
theorem C192_pow2_large_violated (rnd : ℚ → ℚ) (hr : Nearest rnd) (x : ℚ) (hx : F32 x) (h1 : 170000000 ≤ x) (hb : x < big) (fuel : Nat) :
    pow2 rnd fuel (.fin x) = none := by
  have hy0 : (33999999 : ℚ) ≤ x / 5 := by linarith
  have hxm := le_maxF hx (by rw [abs_of_pos (by linarith)]; exact hb)
  rw [abs_of_pos (by linarith)] at hxm
  have hdiv : div rnd (.fin x) (.fin 5) = .fin (rnd (x / 5)) := by
    simp only [div, if_neg (show ¬ (5 : ℚ) = 0 by norm_num)]
    exact ofQ_le hr (by rw [abs_of_pos (by linarith)]; linarith)
  have f33 : F32 (33554436 : ℚ) := by
    have := f32_grid 8388609 2 (by norm_num) (by norm_num)
    norm_num at this; exact this
  have hy : (33554436 : ℚ) ≤ rnd (x / 5) := hr.ge f33 (by linarith)
  -- the decrement is lost
  have lost : ∀ y : ℚ, F32 y → (33554436 : ℚ) ≤ y → rnd (y - 1) = y := by
    intro y hyF hy
    obtain ⟨n, hn⟩ := f32_multiple hyF 2 (by rw [abs_of_pos (by linarith)]; norm_num; linarith)
    have hnear := hr.nearest (y - 1) y hyF
    rw [show y - (y - 1) = 1 by ring, abs_one] at hnear
    obtain ⟨a, b⟩ := abs_le.mp hnear
    obtain ⟨m, hm⟩ := f32_multiple (hr.f32 (y - 1)) 2 (by
      have h3 : (33554432 : ℚ) ≤ rnd (y - 1) := by
        have f : F32 (33554432 : ℚ) := by have := f32_pow2 25; norm_num at this; exact this
        exact hr.ge f (by linarith)
      rw [abs_of_pos (by linarith)]; norm_num; linarith)
    have e2 : (2 : ℚ) ^ (2 : ℤ) = 4 := by norm_num
    rw [e2] at hn hm
    have c1 : (n : ℚ) - 1 < m := by linarith
    have c2 : (m : ℚ) < n + 1 := by linarith
    have c1' : n - 1 < m := by exact_mod_cast c1
    have c2' : m < n + 1 := by exact_mod_cast c2
    have : m = n := by omega
    rw [hm, this, ← hn]
  have key : ∀ (n : Nat) (y : ℚ) (r : XF), F32 y → (33554436 : ℚ) ≤ y → y ≤ maxF → pow2Loop rnd n (.fin y) r = none := by
    intro n
    induction n with
    | zero => intro y r _ _ _; rfl
    | succ n ih =>
      intro y r hyF h2 h3
      rw [pow2Loop, show lt (.fin y) (.fin 1) = false from by simp only [lt, decide_eq_false_iff_not]; linarith, if_neg (by decide)]
      have : sub rnd (.fin y) (.fin 1) = .fin y := by
        rw [sub_fin, ofQ_le hr (by rw [abs_of_pos (by linarith)]; linarith), lost y hyF h2]
      rw [this]
      exact ih y _ hyF h2 h3
  rw [pow2, hdiv]
  exact key fuel _ _ (hr.f32 _) hy (hr.le f32_maxF (by linarith))

example (rnd : ℚ → ℚ) (hr : Nearest rnd) := C192_pow2_large_violated rnd hr (2 ^ 100) (f32_pow2 100) (by norm_num) (by norm_num [big])

/-- A result with overflow. -/
def sat (v : ℚ) : XF := if big ≤ v then .inf false else if v ≤ -big then .inf true else .fin v

theorem loop_sat (rnd : ℚ → ℚ) (hr : Nearest rnd) (e : ℚ) (heF : F32 e) (h12 : 1 / 2 ≤ e) : ∀ (n : ℕ) (x : ℚ) (j : ℕ) (r : XF), F32 x → (n : ℚ) ≤ x → x < n + 1 → x < 2 ^ 24 →
    InterpFloat.interp rnd (ExpFloat.exp5R rnd) (x - n) = .ok e → (r = .fin (32 ^ j) ∧ j ≤ 25 ∨ r = .inf false ∧ 26 ≤ j) →
    ∀ fuel, n < fuel → pow2Loop rnd fuel (.fin x) r = some (.ok (sat (32 ^ (j + n) * e))) := by
  have f32p : ∀ j : ℕ, F32 ((32 : ℚ) ^ j) := by
    intro j
    have := f32_pow2 (5 * j)
    rwa [pow_mul, show (2 : ℚ) ^ 5 = 32 by norm_num] at this
  have hpow : ∀ j : ℕ, F32 ((32 : ℚ) ^ j * e) := by
    intro j
    have := f32_scale heF (5 * j)
    rwa [pow_mul, show (2 : ℚ) ^ 5 = 32 by norm_num, mul_comm] at this
  have inf32 : ∀ q : ℚ, 0 < q → mul rnd (.inf false) (.fin q) = .inf false := by
    intro q hq
    simp only [mul, if_neg hq.ne', decide_eq_false (not_lt.mpr hq.le)]; rfl
  have bigle : ∀ j : ℕ, 26 ≤ j → big ≤ (32 : ℚ) ^ j * (1 / 2) := by
    intro j hj
    have : (32 : ℚ) ^ 26 ≤ 32 ^ j := pow_le_pow_right₀ (by norm_num) hj
    have : big ≤ (32 : ℚ) ^ 26 * (1 / 2) := by norm_num [big]
    linarith
  intro n
  induction n with
  | zero =>
    intro x j r hx h0 h1 h2 hi hres fuel hf
    obtain ⟨f, rfl⟩ : ∃ f, fuel = f + 1 := ⟨fuel - 1, by omega⟩
    push_cast at hi h1
    rw [sub_zero] at hi
    rw [zero_add] at h1
    rw [pow2Loop, show lt (.fin x) (.fin 1) = true from by simp only [lt, decide_eq_true_eq]; exact h1, if_pos rfl,
      interp_fin hr _ (exp5_small hr) (exp5_len' rnd), hi]
    simp only [R.map_ok, R.bind_ok, add_zero]
    congr 2
    rcases hres with ⟨rfl, hj⟩ | ⟨rfl, hj⟩
    · simp only [mul]
      unfold ofQ sat
      rw [hr.fix (hpow j)]
    · rw [inf32 e (by linarith), sat, if_pos]
      have := bigle j hj
      have h32 : (0 : ℚ) < 32 ^ j := by positivity
      nlinarith
  | succ n ih =>
    intro x j r hx h0 h1 h2 hi hres fuel hf
    obtain ⟨f, rfl⟩ : ∃ f, fuel = f + 1 := ⟨fuel - 1, by omega⟩
    push_cast at h0 h1
    have hn0 : (0 : ℚ) ≤ n := Nat.cast_nonneg _
    rw [pow2Loop, show lt (.fin x) (.fin 1) = false from by simp only [lt, decide_eq_false_iff_not]; linarith, if_neg (by decide)]
    have hx1 : F32 (x - 1) := ExpFloat.f32_pred hx (by linarith) h2
    have hsub : sub rnd (.fin x) (.fin 1) = .fin (x - 1) := by
      rw [sub_fin]
      refine ofQ_exact hr hx1 ?_
      rw [abs_of_nonneg (by linarith)]
      have : (2 : ℚ) ^ 24 < big := by norm_num [big]
      linarith
    rw [hsub]
    have hj' : (mul rnd r (.fin 32) = .fin (32 ^ (j + 1)) ∧ j + 1 ≤ 25 ∨ mul rnd r (.fin 32) = .inf false ∧ 26 ≤ j + 1) := by
      rcases hres with ⟨rfl, hj⟩ | ⟨rfl, hj⟩
      · simp only [mul]
        rw [← pow_succ]
        by_cases h25 : j + 1 ≤ 25
        · refine Or.inl ⟨ofQ_exact hr (f32p _) ?_, h25⟩
          rw [abs_of_pos (by positivity)]
          have : (32 : ℚ) ^ (j + 1) ≤ 32 ^ 25 := pow_le_pow_right₀ (by norm_num) h25
          have : (32 : ℚ) ^ 25 < big := by norm_num [big]
          linarith
        · refine Or.inr ⟨?_, by omega⟩
          unfold ofQ
          rw [hr.fix (f32p _), if_pos]
          have := bigle (j + 1) (by omega)
          have h32 : (0 : ℚ) < 32 ^ (j + 1) := by positivity
          linarith
      · exact Or.inr ⟨inf32 32 (by norm_num), by omega⟩
    have := ih (x - 1) (j + 1) _ hx1 (by linarith) (by linarith) (by linarith) (by rw [← hi]; congr 1; push_cast; ring) hj' f (by omega)
    rw [this, show j + 1 + n = j + (n + 1) by omega]

/-- **C192**: for every float from 0 to 80 million pow2 returns, after at most x/5 + 2 turns: the value that C159 describes, or plus infinity if that is
2^128 or more. -/
theorem C192_pow2 (rnd : ℚ → ℚ) (hr : Nearest rnd) (x : ℚ) (h0 : 0 ≤ x) (h1 : x ≤ 80000000) :
    ∃ v : ℚ, ∀ fuel : ℕ, x / 5 + 3 ≤ fuel → ExpFloat.pow2 rnd fuel x = some (.ok v) ∧ pow2 rnd fuel (.fin x) = some (.ok (sat v)) := by
  have hz0 : 0 ≤ x / 5 := by positivity
  have hzr := hr.rel (x / 5)
  rw [abs_of_nonneg hz0] at hzr
  have hdiv : div rnd (.fin x) (.fin 5) = .fin (rnd (x / 5)) := by
    simp only [div, if_neg (show ¬ (5 : ℚ) = 0 by norm_num)]
    exact (fin_of_le hr 30 (by norm_num) (by rw [abs_of_nonneg hz0]; norm_num; linarith)).1
  obtain ⟨z, hz⟩ : ∃ z, z = rnd (x / 5) := ⟨_, rfl⟩
  have hzF : F32 z := by rw [hz]; exact hr.f32 _
  have hzn : 0 ≤ z := by rw [hz]; exact hr.ge f32_zero hz0
  rw [← hz] at hzr hdiv
  obtain ⟨k, hk0, hk1⟩ := cell z hzn
  have hzu := (abs_le.mp hzr).2
  have hz24 : z < 2 ^ 24 := by norm_num at hzu ⊢; linarith
  obtain ⟨e, _, he, h12, _⟩ := pitch_fin rnd hr (z - k) (by linarith) (by linarith)
  have heF := ExpFloat.interp_f32 rnd hr _ _ _ he
  have l1 := ExpFloat.pow2Loop_eq rnd hr e heF k z 0 hzF hk0 hk1 hz24 he
  have l2 := loop_sat rnd hr e heF h12 k z 0 (.fin 1) hzF hk0 hk1 hz24 he (Or.inl ⟨by norm_num, by norm_num⟩)
  refine ⟨32 ^ k * e, fun fuel hf => ?_⟩
  have hkf : k < fuel := by
    have : (k : ℚ) < fuel := by norm_num at hzu; linarith
    exact_mod_cast this
  constructor
  · have := l1 fuel hkf
    rw [pow_zero, one_mul] at this
    unfold ExpFloat.pow2
    rw [← hz]; exact this
  · have := l2 fuel hkf
    rw [zero_add] at this
    unfold pow2
    rw [hdiv]; exact this

example (rnd : ℚ → ℚ) (hr : Nearest rnd) := C192_pow2 rnd hr 1000 (by norm_num) (by norm_num)

end XTable
