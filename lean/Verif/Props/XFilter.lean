import Verif.Model.XFilter
import Verif.Props.FilterFloat
import Verif.Props.MathFloat
/-! # Property C193: filters and analysers fed with any floats, including infinities and NaN -/
namespace XFilter
open XFlt Flt Filter.Spec

/-! ## The one-pole filters -/

theorem fact_pos {rnd : ℚ → ℚ} (hr : Nearest rnd) (divisor : Nat) (h1 : 1 ≤ divisor) (h2 : divisor < 2 ^ 64) :
    ∃ f : ℚ, 0 < f ∧ f ≤ 1 ∧ f = rnd (1 / rnd divisor) ∧ div rnd (.fin 1) (ofQ rnd divisor) = .fin f := by
  obtain ⟨e, c⟩ := fin_of_le hr 64 (by norm_num) (q := (divisor : ℚ)) (by rw [abs_of_nonneg (Nat.cast_nonneg _)]; exact_mod_cast h2.le)
  have d1 : 1 ≤ rnd divisor := hr.ge f32_one (by exact_mod_cast h1)
  have d2 : rnd divisor ≤ 2 ^ 64 := (abs_le.mp c).2
  have q1 : 1 / rnd divisor ≤ 1 := by rw [div_le_one (by linarith)]; exact d1
  have q2 : (1 : ℚ) / 2 ^ 64 ≤ 1 / rnd divisor := one_div_le_one_div_of_le (by linarith) d2
  have f : F32 ((1 : ℚ) / 2 ^ 64) := by have := f32_div 1 (by norm_num) 64 (by norm_num); rwa [Int.cast_one] at this
  have g1 := hr.ge f q2
  refine ⟨rnd (1 / rnd divisor), lt_of_lt_of_le (by positivity) g1, hr.le f32_one q1, rfl, ?_⟩
  rw [e]
  simp only [div, if_neg (show ¬ rnd (divisor : ℚ) = 0 by linarith)]
  exact (fin_of_le hr 0 (by norm_num) (by rw [abs_of_pos (by positivity)]; simpa using q1)).1

theorem flat_fin {rnd : ℚ → ℚ} (hr : Nearest rnd) (num dv : Nat) (hn : num < 2 ^ 64) (h1 : 1 ≤ dv) (h2 : dv < 2 ^ 64) :
    div rnd (ofQ rnd num) (ofQ rnd dv) = .fin (FilterFloat.flat rnd num dv) ∧ 0 ≤ FilterFloat.flat rnd num dv ∧ FilterFloat.flat rnd num dv ≤ 2 ^ 64 := by
  obtain ⟨e, c⟩ := fin_of_le hr 64 (by norm_num) (q := (dv : ℚ)) (by rw [abs_of_nonneg (Nat.cast_nonneg _)]; exact_mod_cast h2.le)
  obtain ⟨e', c'⟩ := fin_of_le hr 64 (by norm_num) (q := (num : ℚ)) (by rw [abs_of_nonneg (Nat.cast_nonneg _)]; exact_mod_cast hn.le)
  have d1 : 1 ≤ rnd dv := hr.ge f32_one (by exact_mod_cast h1)
  have n0 : 0 ≤ rnd num := hr.ge f32_zero (Nat.cast_nonneg _)
  have n1 : rnd num ≤ 2 ^ 64 := (abs_le.mp c').2
  have hq : |rnd num / rnd dv| ≤ 2 ^ 64 := by
    rw [abs_of_nonneg (div_nonneg n0 (by linarith)), div_le_iff₀ (by linarith)]
    nlinarith
  have := fin_of_le hr 64 (by norm_num) hq
  rw [e, e']
  simp only [div, if_neg (show ¬ rnd (dv : ℚ) = 0 by linarith)]
  exact ⟨this.1, FilterFloat.flat_nonneg rnd hr num dv, (abs_le.mp this.2).2⟩

/-- What the poisoning needs of a transfer function: NaN to NaN, an infinity to itself. -/
def Passes (tr : XF → XF) : Prop := tr .nan = .nan ∧ ∀ b, tr (.inf b) = .inf b

theorem quadratic_passes {rnd : ℚ → ℚ} (hr : Nearest rnd) (divisor : Nat) (h1 : 1 ≤ divisor) (h2 : divisor < 2 ^ 64) : Passes (quadratic rnd divisor) := by
  obtain ⟨f, f0, _, _, e⟩ := fact_pos hr divisor h1 h2
  constructor
  · unfold quadratic; rw [e]; rfl
  · intro b
    unfold quadratic
    rw [e]
    simp only [XFlt.abs, mul, if_neg f0.ne', decide_eq_false (not_lt.mpr f0.le)]
    cases b <;> rfl

theorem hysteresis_passes {rnd : ℚ → ℚ} (hr : Nearest rnd) (num dv : Nat) (hn : num < 2 ^ 64) (h1 : 1 ≤ dv) (h2 : dv < 2 ^ 64) : Passes (hysteresis rnd num dv) := by
  obtain ⟨e, f0, _⟩ := flat_fin hr num dv hn h1 h2
  constructor
  · unfold hysteresis clamp; rw [e]; rfl
  · intro b
    unfold hysteresis clamp
    rw [e]
    cases b <;> simp [lt, neg, sub, add]

theorem onePole_nan (rnd : ℚ → ℚ) (tr : XF → XF) (xs : List XF) : xs.foldl (onePole rnd tr) .nan = .nan := by
  induction xs with
  | nil => rfl
  | cons x xs ih =>
    rw [List.foldl_cons]
    have : onePole rnd tr .nan x = .nan := by unfold onePole; rw [nan_add]
    rw [this]; exact ih

theorem onePole_inf (rnd : ℚ → ℚ) (tr : XF → XF) (ht : Passes tr) (b : Bool) (y : XF) (ys : List XF) : (y :: ys).foldl (onePole rnd tr) (.inf b) = .nan := by
  rw [List.foldl_cons]
  have : onePole rnd tr (.inf b) y = .nan := by
    unfold onePole
    cases y with
    | nan => rw [nan_sub, ht.1]; rfl
    | inf c =>
      by_cases hbc : c = b
      · subst hbc
        have : sub rnd (.inf c) (.inf c) = .nan := by cases c <;> rfl
        rw [this, ht.1]; rfl
      · have : sub rnd (.inf c) (.inf b) = .inf c := by cases b <;> cases c <;> first | rfl | exact absurd rfl hbc
        rw [this, ht.2]
        cases b <;> cases c <;> first | rfl | exact absurd rfl hbc
    | fin q =>
      have : sub rnd (.fin q) (.inf b) = .inf (!b) := rfl
      rw [this, ht.2]
      cases b <;> rfl
  rw [this]
  exact onePole_nan rnd tr ys

/-- **C193, violated**: one NaN or infinite sample, and from the next sample on both one-pole filters give NaN for ever, whatever they are fed. -/
theorem C193_poisoned_violated (rnd : ℚ → ℚ) (hr : Nearest rnd) (s : ℚ) (x y : XF) (hx : ¬ Fin x) (ys : List XF) :
    (∀ divisor : Nat, 1 ≤ divisor → divisor < 2 ^ 64 → (x :: y :: ys).foldl (onePole rnd (quadratic rnd divisor)) (.fin s) = .nan) ∧
    (∀ num dv : Nat, num < 2 ^ 64 → 1 ≤ dv → dv < 2 ^ 64 → (x :: y :: ys).foldl (onePole rnd (hysteresis rnd num dv)) (.fin s) = .nan) := by
  have gen : ∀ tr, Passes tr → (x :: y :: ys).foldl (onePole rnd tr) (.fin s) = .nan := by
    intro tr ht
    rw [List.foldl_cons]
    cases x with
    | fin q => exact absurd trivial hx
    | nan =>
      have : onePole rnd tr (.fin s) .nan = .nan := by unfold onePole; rw [nan_sub, ht.1]; rfl
      rw [this]; exact onePole_nan rnd tr _
    | inf b =>
      have : onePole rnd tr (.fin s) (.inf b) = .inf b := by
        unfold onePole
        rw [show sub rnd (.inf b) (.fin s) = .inf b from rfl, ht.2]; rfl
      rw [this]; exact onePole_inf rnd tr ht b y ys
  exact ⟨fun d h1 h2 => gen _ (quadratic_passes hr d h1 h2), fun n d hn h1 h2 => gen _ (hysteresis_passes hr n d hn h1 h2)⟩

example (rnd : ℚ → ℚ) (hr : Nearest rnd) := (C193_poisoned_violated rnd hr 5 (.inf true) (.fin 1) (fun h => h) [.fin 2, .fin 3]).1 10 (by norm_num) (by norm_num)

/-- **C193, violated**: finite samples can do it too: a sample 2^64 or more away from the state overflows the square of the quadratic filter, and from
the next sample on it gives NaN for ever. -/
theorem C193_overflow_violated (rnd : ℚ → ℚ) (hr : Nearest rnd) (divisor : Nat) (h1 : 1 ≤ divisor) (h2 : divisor < 2 ^ 64) (s x : ℚ) (hd : 2 ^ 64 ≤ |x - s|) (y : XF) (ys : List XF) :
    (.fin x :: y :: ys).foldl (onePole rnd (quadratic rnd divisor)) (.fin s) = .nan := by
  have ht := quadratic_passes hr divisor h1 h2
  obtain ⟨f, f0, _, _, e⟩ := fact_pos hr divisor h1 h2
  have f64 := f32_pow2 64
  have f128 : F32 big := f32_big
  have hst : ∃ b, onePole rnd (quadratic rnd divisor) (.fin s) (.fin x) = .inf b := by
    unfold onePole
    rw [sub_fin]
    have hq : ∃ b, quadratic rnd divisor (ofQ rnd (x - s)) = .inf b := by
      unfold ofQ
      split
      · exact ⟨_, ht.2 _⟩
      · split
        · exact ⟨_, ht.2 _⟩
        · unfold quadratic
          rw [e]
          simp only [XFlt.abs, mul]
          obtain ⟨d, hd'⟩ : ∃ d, d = rnd (x - s) := ⟨_, rfl⟩
          rw [← hd']
          have inff : ∀ b, mul rnd (.inf b) (.fin f) = .inf b := by
            intro b
            simp only [mul, if_neg f0.ne', decide_eq_false (not_lt.mpr f0.le)]
            cases b <;> rfl
          rcases le_abs.mp hd with h | h
          · have hd0 : 2 ^ 64 ≤ d := by rw [hd']; exact hr.ge f64 h
            have : ofQ rnd (|d| * d) = .inf false := by
              unfold ofQ
              rw [if_pos]
              refine hr.ge f128 ?_
              have hp : (0 : ℚ) < 2 ^ 64 := by norm_num
              rw [abs_of_pos (by linarith)]
              calc big = 2 ^ 64 * 2 ^ 64 := by norm_num [big]
                _ ≤ d * d := mul_le_mul hd0 hd0 hp.le (by linarith)
            rw [this]
            exact ⟨false, inff false⟩
          · have hd0 : d ≤ -2 ^ 64 := by rw [hd']; exact hr.le (f32_neg f64) (by linarith)
            have : ofQ rnd (|d| * d) = .inf true := by
              have hp : (0 : ℚ) < 2 ^ 64 := by norm_num
              have hle : |d| * d ≤ -big := by
                rw [abs_of_neg (by linarith)]
                have : big ≤ (-d) * (-d) := by
                  calc big = 2 ^ 64 * 2 ^ 64 := by norm_num [big]
                    _ ≤ (-d) * (-d) := mul_le_mul (by linarith) (by linarith) hp.le (by linarith)
                linarith
              have hl := hr.le (f32_neg f128) hle
              unfold ofQ
              rw [if_neg (by have := big_pos; linarith), if_pos hl]
            rw [this]
            exact ⟨true, inff true⟩
    obtain ⟨b, hb⟩ := hq
    exact ⟨b, by rw [hb]; rfl⟩
  obtain ⟨b, hb⟩ := hst
  rw [List.foldl_cons, hb]
  exact onePole_inf rnd _ ht b y ys

example (rnd : ℚ → ℚ) (hr : Nearest rnd) := C193_overflow_violated rnd hr 10 (by norm_num) (by norm_num) 0 (2 ^ 64) (by norm_num) (.fin 0) [.fin 0]

theorem between_abs {a b x M : ℚ} (h : Between a b x) (ha : |a| ≤ M) (hb : |b| ≤ M) : |x| ≤ M := by
  obtain ⟨h1, h2⟩ := h
  rw [abs_le] at *
  exact ⟨le_trans (le_min ha.1 hb.1) h1, le_trans h2 (max_le ha.2 hb.2)⟩

/-- **C193**: finite samples within the range of C143 never produce a special value: the filters do exactly what C143 describes. -/
theorem C193_finite (rnd : ℚ → ℚ) (hr : Nearest rnd) (lo hi s : ℚ) (hlo : -2 ^ 126 ≤ lo) (hhi : hi ≤ 2 ^ 126) (hsF : F32 s) (hs : lo ≤ s ∧ s ≤ hi) (xs : List ℚ) (hxs : ∀ x ∈ xs, F32 x ∧ lo ≤ x ∧ x ≤ hi) :
    (∀ divisor : ℕ, 1 ≤ divisor → divisor < 2 ^ 24 → hi - lo ≤ divisor * (1 - 1 / 2 ^ 20) →
      (xs.map .fin).foldl (onePole rnd (quadratic rnd divisor)) (.fin s) = .fin (xs.foldl (FilterFloat.onePole rnd (FilterFloat.quadratic rnd divisor)) s)) ∧
    (∀ num dv : ℕ, num < 2 ^ 64 → 1 ≤ dv → dv < 2 ^ 64 → hi - lo ≤ 2 ^ 22 * FilterFloat.flat rnd num dv →
      (xs.map .fin).foldl (onePole rnd (hysteresis rnd num dv)) (.fin s) = .fin (xs.foldl (FilterFloat.onePole rnd (FilterFloat.hysteresis rnd num dv)) s)) := by
  have gen : ∀ (step : XF → XF → XF) (stepF : ℚ → ℚ → ℚ), (∀ s x, F32 s → F32 x → lo ≤ s → s ≤ hi → lo ≤ x → x ≤ hi → Between s x (stepF s x) ∧ F32 (stepF s x) ∧ step (.fin s) (.fin x) = .fin (stepF s x)) →
      ∀ (xs : List ℚ) (s : ℚ), F32 s → lo ≤ s ∧ s ≤ hi → (∀ x ∈ xs, F32 x ∧ lo ≤ x ∧ x ≤ hi) → (xs.map .fin).foldl step (.fin s) = .fin (xs.foldl stepF s) := by
    intro step stepF hstep xs
    induction xs with
    | nil => intro s _ _ _; rfl
    | cons x xs ih =>
      intro s hsF hs hxs
      obtain ⟨hxF, hx0, hx1⟩ := hxs x (by simp)
      obtain ⟨⟨b0, b1⟩, bF, be⟩ := hstep s x hsF hxF hs.1 hs.2 hx0 hx1
      rw [List.map_cons, List.foldl_cons, List.foldl_cons, be]
      exact ih _ bF ⟨(le_min hs.1 hx0).trans b0, b1.trans (max_le hs.2 hx1)⟩ (fun y hy => hxs y (by simp [hy]))
  have h126 : ∀ v : ℚ, lo ≤ v → v ≤ hi → |v| ≤ 2 ^ 126 := fun v a b => abs_le.mpr ⟨by linarith, by linarith⟩
  have hmx : (2 : ℚ) ^ 126 ≤ maxF := by norm_num [maxF]
  constructor
  · intro divisor h1 h2 hr'
    refine gen _ _ ?_ xs s hsF hs hxs
    intro s x hsF hxF a b c d
    have hdx : |x - s| ≤ divisor * (1 - 1 / 2 ^ 20) := by rw [abs_le]; constructor <;> linarith
    obtain ⟨hbt, hF⟩ := FilterFloat.C143_quadratic rnd hr divisor h1 h2 s x hsF hxF hdx
    refine ⟨hbt, hF, ?_⟩
    have hbt' := between_abs hbt (h126 s a b) (h126 x c d)
    have hb24 : |x - s| ≤ 2 ^ 24 := by
      refine hdx.trans ?_
      have : (divisor : ℚ) ≤ 2 ^ 24 := by exact_mod_cast h2.le
      have h0 : (0 : ℚ) ≤ divisor := Nat.cast_nonneg _
      have h1 : (divisor : ℚ) * (1 - 1 / 2 ^ 20) ≤ divisor * 1 := mul_le_mul_of_nonneg_left (by norm_num) h0
      linarith
    obtain ⟨f, f0, f1, fe, e⟩ := fact_pos hr divisor h1 (lt_trans h2 (by norm_num))
    obtain ⟨e1, c1⟩ := fin_of_le hr 24 (by norm_num) hb24
    unfold FilterFloat.onePole FilterFloat.quadratic at hbt' ⊢
    unfold onePole quadratic
    simp only at hbt' ⊢
    rw [sub_fin, e, e1, ← fe]
    rw [← fe] at hbt'
    simp only [XFlt.abs, mul]
    obtain ⟨e2, c2⟩ := fin_of_le hr 48 (by norm_num) (q := |rnd (x - s)| * rnd (x - s)) (by
      rw [abs_mul, abs_abs]
      calc |rnd (x - s)| * |rnd (x - s)| ≤ 2 ^ 24 * 2 ^ 24 := mul_le_mul c1 c1 (abs_nonneg _) (by norm_num)
        _ = 2 ^ 48 := by norm_num)
    rw [e2]
    simp only [mul]
    obtain ⟨e3, c3⟩ := fin_of_le hr 48 (by norm_num) (q := rnd (|rnd (x - s)| * rnd (x - s)) * f) (by
      rw [abs_mul, abs_of_pos f0]
      calc |rnd (|rnd (x - s)| * rnd (x - s))| * f ≤ 2 ^ 48 * 1 := mul_le_mul c2 f1 f0.le (by norm_num)
        _ = 2 ^ 48 := mul_one _)
    rw [e3]
    simp only [add]
    exact ofQ_fin (lt_of_le_of_lt (le_trans hbt' hmx) maxF_lt)
  · intro num dv hn h1 h2 hr'
    refine gen _ _ ?_ xs s hsF hs hxs
    intro s x hsF hxF a b c d
    obtain ⟨hbt, -, -, hF⟩ := FilterFloat.C143_hysteresis rnd hr num dv s x hsF hxF _ rfl ((abs_le.mpr ⟨by linarith, by linarith⟩ : |x - s| ≤ hi - lo).trans hr') _ rfl
    refine ⟨hbt, hF, ?_⟩
    have hbt' := between_abs hbt (h126 s a b) (h126 x c d)
    obtain ⟨e, f0, f1⟩ := flat_fin hr num dv hn h1 h2
    have hdx : |x - s| ≤ 2 ^ 100 := by
      rw [abs_le]
      have : (2 : ℚ) ^ 22 * 2 ^ 64 ≤ 2 ^ 100 := by norm_num
      have : (2 : ℚ) ^ 22 * FilterFloat.flat rnd num dv ≤ 2 ^ 22 * 2 ^ 64 := by gcongr
      constructor <;> linarith
    obtain ⟨e1, c1⟩ := fin_of_le hr 100 (by norm_num) hdx
    unfold FilterFloat.onePole FilterFloat.hysteresis at hbt' ⊢
    unfold onePole hysteresis
    simp only at hbt' ⊢
    rw [sub_fin, e1]
    have hfl : rnd (rnd (num : ℚ) / rnd dv) = FilterFloat.flat rnd num dv := rfl
    rw [hfl] at hbt' ⊢
    rw [e]
    generalize FilterFloat.flat rnd num dv = t at *
    have hcl : clamp (.fin (rnd (x - s))) (neg (.fin t)) (.fin t) = .fin (Filter.clampQ (rnd (x - s)) (-t) t) ∧ |Filter.clampQ (rnd (x - s)) (-t) t| ≤ 2 ^ 64 := by
      unfold clamp Filter.clampQ
      simp only [neg, lt, decide_eq_true_eq]
      split
      · exact ⟨rfl, by rw [abs_neg, abs_of_nonneg f0]; exact f1⟩
      · split
        · exact ⟨rfl, by rw [abs_of_nonneg f0]; exact f1⟩
        · next g1 g2 => exact ⟨rfl, abs_le.mpr ⟨by linarith, by linarith⟩⟩
    rw [hcl.1, sub_fin]
    obtain ⟨e3, c3⟩ := fin_of_le hr 101 (by norm_num) (q := rnd (x - s) - Filter.clampQ (rnd (x - s)) (-t) t) (by
      have := abs_sub (rnd (x - s)) (Filter.clampQ (rnd (x - s)) (-t) t)
      have h3 := hcl.2
      have : (2 : ℚ) ^ 100 + 2 ^ 64 ≤ 2 ^ 101 := by norm_num
      linarith)
    rw [e3]
    simp only [add]
    exact ofQ_fin (lt_of_le_of_lt (le_trans hbt' hmx) maxF_lt)

example (rnd : ℚ → ℚ) (hr : Nearest rnd) := (C193_finite rnd hr 0 1 0 (by norm_num) (by norm_num) f32_zero (by norm_num) [1, 0, 1] (by
  intro x hx; simp at hx; rcases hx with rfl | rfl | rfl
  · exact ⟨f32_one, by norm_num, by norm_num⟩
  · exact ⟨f32_zero, by norm_num, by norm_num⟩
  · exact ⟨f32_one, by norm_num, by norm_num⟩)).1 10 (by norm_num) (by norm_num) (by norm_num)

/-! ## ResizingOversampler -/

/-- The sum of a block as the oversampler computes it. -/
def blockSum (rnd : ℚ → ℚ) (xs : List XF) : XF := xs.foldl (add rnd) (.fin 0)

theorem fill (rnd : ℚ → ℚ) (xs : List XF) : ∀ (o : Over), o.idx + xs.length < o.size → o.size < 2 ^ 32 →
    xs.foldl (Over.addVal rnd) o = { o with buff := xs.foldl (add rnd) o.buff, idx := o.idx + xs.length } := by
  induction xs with
  | nil => intro o _ _; rfl
  | cons x xs ih =>
    intro o h hs
    rw [List.length_cons] at h
    have e : Over.addVal rnd o x = { o with buff := add rnd o.buff x, idx := o.idx + 1 } := by
      unfold Over.addVal
      simp only
      rw [Nat.mod_eq_of_lt (by omega), if_neg (by omega)]
    rw [List.foldl_cons, e, ih { o with buff := add rnd o.buff x, idx := o.idx + 1 } (by show o.idx + 1 + xs.length < o.size; omega) hs, List.foldl_cons]
    simp only [List.length_cons]
    congr 1
    omega

/-- **C193**: the resizing oversampler forgets: whatever it has been fed before, once a block is finished the next `size` samples give exactly their own
sum divided by the size, and until then the previous value is reported. So NaN and infinities last for one block. -/
theorem C193_block (rnd : ℚ → ℚ) (o : Over) (h0 : o.idx = 0) (hb : o.buff = .fin 0) (hs : o.size < 2 ^ 32) (xs : List XF) :
    (xs.length < o.size → (xs.foldl (Over.addVal rnd) o).val = o.val) ∧
    (xs.length = o.size → xs ≠ [] → xs.foldl (Over.addVal rnd) o = ⟨.fin 0, div rnd (blockSum rnd xs) (ofQ rnd o.size), 0, o.size⟩) := by
  constructor
  · intro h
    rw [fill rnd xs o (by omega) hs]
  · intro h hne
    obtain ⟨ys, y, rfl⟩ : ∃ ys y, xs = ys ++ [y] := ⟨xs.dropLast, xs.getLast hne, (List.dropLast_append_getLast hne).symm⟩
    rw [List.length_append, List.length_singleton] at h
    rw [List.foldl_append, List.foldl_cons, List.foldl_nil, fill rnd ys o (by omega) hs]
    unfold Over.addVal
    simp only
    rw [Nat.mod_eq_of_lt (by omega), if_pos (by omega), hb]
    unfold blockSum
    rw [List.foldl_append, List.foldl_cons, List.foldl_nil]

example (rnd : ℚ → ℚ) := (C193_block rnd (Over.init 2) rfl rfl (by decide) [.nan, .fin 1]).2 rfl (by simp)

/-- **C193**: and a block is finished after at most `size` samples. -/
theorem C193_finishes (rnd : ℚ → ℚ) (o : Over) (h0 : o.idx < o.size) (hs : o.size < 2 ^ 32) (xs : List XF) (hx : xs.length = o.size - o.idx) :
    (xs.foldl (Over.addVal rnd) o).idx = 0 ∧ (xs.foldl (Over.addVal rnd) o).buff = .fin 0 ∧ (xs.foldl (Over.addVal rnd) o).size = o.size := by
  have hne : xs ≠ [] := by intro h; rw [h] at hx; simp at hx; omega
  obtain ⟨ys, y, rfl⟩ : ∃ ys y, xs = ys ++ [y] := ⟨xs.dropLast, xs.getLast hne, (List.dropLast_append_getLast hne).symm⟩
  rw [List.length_append, List.length_singleton] at hx
  rw [List.foldl_append, List.foldl_cons, List.foldl_nil, fill rnd ys o (by omega) hs]
  unfold Over.addVal
  simp only
  rw [Nat.mod_eq_of_lt (by omega), if_pos (by omega)]
  exact ⟨rfl, rfl, rfl⟩

example (rnd : ℚ → ℚ) := C193_finishes rnd ⟨.nan, .nan, 1, 3⟩ (by decide) (by decide) [.fin 1, .fin 2] rfl

/-- **C193, violated**: set_size(0), or set_size on an oversampler that has just finished a block, reports NaN (0 / 0); with size 0 every sample is then
reported as an infinity or NaN. -/
theorem C193_size_zero_violated (rnd : ℚ → ℚ) (hr : Nearest rnd) (o : Over) (h0 : o.idx = 0) (hb : o.buff = .fin 0) (x : XF) (hx : IsFloat x) :
    (o.setSize rnd 0).val = .nan ∧ ¬ Fin ((o.setSize rnd 0).addVal rnd x).val := by
  have hz : ofQ rnd ((0 : Nat) : ℚ) = .fin 0 := by rw [Nat.cast_zero]; exact ofQ_exact hr f32_zero (by norm_num [big])
  have hst : o.setSize rnd 0 = ⟨.fin 0, .nan, 0, 0⟩ := by
    unfold Over.setSize
    rw [if_pos (Nat.zero_le _), h0, hb, hz]
    simp [div]
  rw [hst]
  refine ⟨rfl, ?_⟩
  unfold Over.addVal
  simp only
  rw [if_pos (Nat.zero_le _)]
  simp only [hz]
  cases x with
  | nan => exact fun h => h
  | inf b => exact fun h => h
  | fin q =>
    have : add rnd (.fin 0) (.fin q) = .fin q := by
      show ofQ rnd (0 + q) = _
      rw [zero_add]; exact ofQ_exact hr hx.1 hx.2
    rw [this]
    simp only [div, if_true]
    split <;> exact fun h => h

example (rnd : ℚ → ℚ) (hr : Nearest rnd) := C193_size_zero_violated rnd hr (Over.init 4) rfl rfl (.fin 1) ⟨f32_one, by norm_num [big]⟩

/-- **C193**: reset() clears everything. -/
theorem C193_reset (o : Over) : o.reset = Over.init o.size := rfl

/-! ## AnalyzedSig, PeakMeter -/

/-- **C193, violated**: after a NaN or infinite sample the average of AnalyzedSig is NaN from the next sample on, until reset_to(). -/
theorem C193_analyser_violated (rnd : ℚ → ℚ) (s : Analyzed) (i c : ℚ) (hi : s.iir = .fin i) (hc : s.coef = .fin c) (hc0 : 0 < c) (x y : XF) (hx : ¬ Fin x) (ys : List XF) :
    ((x :: y :: ys).foldl (Analyzed.update rnd) s).avg = .nan ∧ ∀ v, (((x :: y :: ys).foldl (Analyzed.update rnd) s).resetTo v) = ⟨v, v, v, v, .fin c⟩ := by
  have up : ∀ (s : Analyzed) (v : XF), (s.update rnd v).iir = add rnd s.iir (mul rnd s.coef (sub rnd v s.iir)) ∧ (s.update rnd v).avg = (s.update rnd v).iir ∧ (s.update rnd v).coef = s.coef := by
    intro s v
    unfold Analyzed.update
    by_cases h1 : lt v s.min
    · by_cases h2 : lt s.max v <;> simp [h1, h2]
    · by_cases h2 : lt s.max v <;> simp [h1, h2]
  have coefs : ∀ (l : List XF) (s : Analyzed), (l.foldl (Analyzed.update rnd) s).coef = s.coef := by
    intro l
    induction l with
    | nil => intro s; rfl
    | cons a l ih => intro s; rw [List.foldl_cons, ih, (up s a).2.2]
  have stuck : ∀ (l : List XF) (s : Analyzed), s.iir = .nan → s.avg = .nan → (l.foldl (Analyzed.update rnd) s).avg = .nan := by
    intro l
    induction l with
    | nil => intro s _ h; exact h
    | cons a l ih =>
      intro s h1 _
      have : (s.update rnd a).iir = .nan := by rw [(up s a).1, h1, nan_add]
      exact ih _ this (by rw [(up s a).2.1, this])
  have cinf : ∀ b, mul rnd (.fin c) (.inf b) = .inf b := by
    intro b
    simp only [mul, if_neg hc0.ne', decide_eq_false (not_lt.mpr hc0.le)]
    cases b <;> rfl
  refine ⟨?_, ?_⟩
  · have two : ((s.update rnd x).update rnd y).iir = .nan := by
      rw [(up _ y).1, (up s x).1, (up s x).2.2, hc, hi]
      cases x with
      | fin q => exact absurd trivial hx
      | nan => rfl
      | inf b =>
        have e1 : add rnd (.fin i) (mul rnd (.fin c) (sub rnd (.inf b) (.fin i))) = .inf b := by
          rw [show sub rnd (.inf b) (.fin i) = .inf b from rfl, cinf]; rfl
        rw [e1]
        cases y with
        | nan => rw [nan_sub, mul_nan, add_nan]
        | fin q => rw [show sub rnd (.fin q) (.inf b) = .inf (!b) from rfl, cinf]; cases b <;> rfl
        | inf d =>
          by_cases hbd : d = b
          · subst hbd
            have : sub rnd (.inf d) (.inf d) = .nan := by cases d <;> rfl
            rw [this, mul_nan, add_nan]
          · have : sub rnd (.inf d) (.inf b) = .inf d := by cases b <;> cases d <;> first | rfl | exact absurd rfl hbd
            rw [this, cinf]
            cases b <;> cases d <;> first | rfl | exact absurd rfl hbd
    rw [List.foldl_cons, List.foldl_cons]
    exact stuck ys _ two (by rw [(up _ y).2.1, two])
  · intro v
    unfold Analyzed.resetTo
    rw [coefs, hc]

example (rnd : ℚ → ℚ) := C193_analyser_violated rnd ⟨.fin 0, .fin 0, .fin 0, .fin 0, .fin (1 / 2)⟩ 0 (1 / 2) rfl rfl (by norm_num) .nan (.fin 1) (fun h => h) [.fin 2]

/-- **C193**: minimum and maximum of AnalyzedSig and of PeakMeter ignore NaN. -/
theorem C193_extremes_nan (rnd : ℚ → ℚ) (s : Analyzed) (p : Peak) :
    (s.update rnd .nan).min = s.min ∧ (s.update rnd .nan).max = s.max ∧ p.update .nan = p := by
  unfold Analyzed.update Peak.update
  simp only [nan_lt, lt_nan, Bool.false_eq_true, if_false]
  exact ⟨trivial, trivial, trivial⟩

/-- **C193**: PeakMeter<float> fed any floats: after any samples `min` is at most and `max` at least every sample that is not NaN, infinities included, and
both are samples or the initial limits. -/
theorem C193_peaks (xs : List XF) (p : Peak) (hp : p = xs.foldl Peak.update Peak.init) :
    (∀ x ∈ xs, x ≠ .nan → Le p.min x ∧ Le x p.max) ∧ (p.min ∈ xs ∨ p.min = .fin maxF) ∧ (p.max ∈ xs ∨ p.max = .fin (1 / 2 ^ 126)) := by
  have key : ∀ (xs : List XF) (p q : Peak) (seen : List XF), q = xs.foldl Peak.update p → p.min ≠ .nan → p.max ≠ .nan → (∀ x ∈ seen, x ≠ .nan → Le p.min x ∧ Le x p.max) →
      (p.min ∈ seen ∨ p.min = .fin maxF) → (p.max ∈ seen ∨ p.max = .fin (1 / 2 ^ 126)) →
      (∀ x ∈ seen ++ xs, x ≠ .nan → Le q.min x ∧ Le x q.max) ∧ (q.min ∈ seen ++ xs ∨ q.min = .fin maxF) ∧ (q.max ∈ seen ++ xs ∨ q.max = .fin (1 / 2 ^ 126)) := by
    intro xs
    induction xs with
    | nil => intro p q seen h _ _ a b c; subst h; rw [List.append_nil]; exact ⟨a, b, c⟩
    | cons v xs ih =>
      intro p q seen h n1 n2 a b c
      rw [List.foldl_cons] at h
      have hmin : (p.update v).min = (if lt v p.min then v else p.min) ∧ (p.update v).max = (if lt p.max v then v else p.max) := by
        unfold Peak.update
        by_cases h1 : lt v p.min <;> by_cases h2 : lt p.max v <;> simp [h1, h2]
      have hv1 : lt v p.min = true → v ≠ .nan := by intro h; rintro rfl; simp [lt] at h
      have hv2 : lt p.max v = true → v ≠ .nan := by
        intro h; rintro rfl; rw [lt_nan] at h; exact absurd h (by decide)
      have := ih (p.update v) q (seen ++ [v]) h
        (by rw [hmin.1]; split
            · next h => exact hv1 h
            · exact n1)
        (by rw [hmin.2]; split
            · next h => exact hv2 h
            · exact n2)
        (by intro x hx hxn
            rw [hmin.1, hmin.2]
            rcases List.mem_append.mp hx with hx | hx
            · obtain ⟨l1, l2⟩ := a x hx hxn
              constructor
              · split
                · next h => exact le_trans' (le_of_lt' h) l1
                · exact l1
              · split
                · next h => exact le_trans' l2 (le_of_lt' h)
                · exact l2
            · rw [List.mem_singleton] at hx
              subst hx
              constructor
              · split
                · exact le_refl' hxn
                · next h => exact le_of_not_lt hxn n1 h
              · split
                · exact le_refl' hxn
                · next h => exact le_of_not_lt n2 hxn h)
        (by rw [hmin.1]; split
            · exact Or.inl (by simp)
            · rcases b with b | b
              · exact Or.inl (by simp [b])
              · exact Or.inr b)
        (by rw [hmin.2]; split
            · exact Or.inl (by simp)
            · rcases c with b | b
              · exact Or.inl (by simp [b])
              · exact Or.inr b)
      simpa [List.append_assoc] using this
  have := key xs Peak.init p [] hp (by simp [Peak.init]) (by simp [Peak.init]) (by simp) (Or.inr rfl) (Or.inr rfl)
  simpa using this

example := C193_peaks [.fin 1, .nan, .inf true] _ rfl

end XFilter
