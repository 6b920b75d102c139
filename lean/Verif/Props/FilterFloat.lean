import Verif.Model.FilterFloat
import Verif.Lemmas.FltErr
import Verif.Props.Filter
/-! # C143: the smoothing filters in binary32 -/

namespace FilterFloat
open Flt Filter.Spec

/-- The difference of two floats is 0 or at least 2^-149. -/
theorem sub_ge {x s : ℚ} (hx : F32 x) (hs : F32 s) (h : s < x) : (1 : ℚ) / 2 ^ 149 ≤ x - s := by
  obtain ⟨a, ha⟩ := f32_units hx
  obtain ⟨b, hb⟩ := f32_units hs
  have hp := two_zpow_pos (-149)
  rw [ha, hb] at h ⊢
  have h1 : b < a := by
    have : (b : ℚ) < a := lt_of_mul_lt_mul_right h hp.le
    exact_mod_cast this
  have h2 : (1 : ℚ) ≤ (a : ℚ) - b := by
    have : (1 : ℤ) ≤ a - b := by omega
    exact_mod_cast this
  rw [← sub_mul]
  have e : (2 : ℚ) ^ (-149 : ℤ) = 1 / 2 ^ 149 := by norm_num
  rw [e] at hp ⊢
  nlinarith

/-- `flat` as computed. -/
def flat (rnd : ℚ → ℚ) (num div : ℕ) : ℚ := rnd (rnd num / rnd div)

theorem flat_nonneg (rnd : ℚ → ℚ) (h : Nearest rnd) (num div : ℕ) : 0 ≤ flat rnd num div := by
  have h1 := h.ge f32_zero (Nat.cast_nonneg (α := ℚ) num)
  have h2 := h.ge f32_zero (Nat.cast_nonneg (α := ℚ) div)
  exact h.ge f32_zero (div_nonneg h1 h2)

/-- One step upwards by a transfer that gives 0 ≤ t with s + t ≤ x. -/
theorem step_up (rnd : ℚ → ℚ) (h : Nearest rnd) (s x t : ℚ) (hs : F32 s) (hx : F32 x) (h0 : 0 ≤ t) (h1 : s + t ≤ x) : Between s x (rnd (s + t)) := by
  have a := h.ge hs (by linarith : s ≤ s + t)
  have b := h.le hx h1
  unfold Between
  rw [min_eq_left (by linarith), max_eq_right (by linarith)]
  exact ⟨a, b⟩

theorem step_down (rnd : ℚ → ℚ) (h : Nearest rnd) (s x t : ℚ) (hs : F32 s) (hx : F32 x) (h0 : t ≤ 0) (h1 : x ≤ s + t) : Between s x (rnd (s + t)) := by
  have a := h.le hs (by linarith : s + t ≤ s)
  have b := h.ge hx h1
  unfold Between
  rw [min_eq_right (by linarith), max_eq_left (by linarith)]
  exact ⟨b, a⟩

/-- **C143** (hysteresis filter): in binary32, with an input at most 2^22 dead zones away, the new state lies exactly between the old state and the input; an input within the dead zone leaves the state as it is, bit for bit;
the new state follows the input within the dead zone, up to rounding. -/
theorem C143_hysteresis (rnd : ℚ → ℚ) (h : Nearest rnd) (num div : ℕ) (s x : ℚ) (hs : F32 s) (hx : F32 x) (t : ℚ) (ht : t = flat rnd num div) (hd : |x - s| ≤ 2 ^ 22 * t) (s' : ℚ) (hs' : s' = onePole rnd (hysteresis rnd num div) s x) :
    Between s x s' ∧ (|x - s| ≤ t → s' = s) ∧ |x - s'| ≤ t + (|x - s| / 2 ^ 22 + |x| / 2 ^ 23) ∧ F32 s' := by
  have ht0 : 0 ≤ t := by rw [ht]; exact flat_nonneg rnd h num div
  have htF : F32 t := by rw [ht]; exact h.f32 _
  have hsub := h.sub_rel hx hs
  have e : s' = rnd (s + rnd (rnd (x - s) - Filter.clampQ (rnd (x - s)) (-t) t)) := by rw [hs', ht]; rfl
  have hF' : F32 s' := by rw [e]; exact h.f32 _
  -- within the dead zone
  have keep : |x - s| ≤ t → s' = s := by
    intro hin
    rw [abs_le] at hin
    have a := h.le htF hin.2
    have b := h.ge (f32_neg htF) hin.1
    have hc : Filter.clampQ (rnd (x - s)) (-t) t = rnd (x - s) := by
      unfold Filter.clampQ
      rw [if_neg (by linarith), if_neg (by linarith)]
    rw [e, hc, sub_self, h.zero, add_zero, h.fix hs]
  obtain ⟨d, hd'⟩ : ∃ d, d = rnd (x - s) := ⟨_, rfl⟩
  have hdF : F32 d := by rw [hd']; exact h.f32 _
  rw [← hd'] at e hsub
  by_cases hz : -t ≤ d ∧ d ≤ t
  · have hc : Filter.clampQ d (-t) t = d := by
      unfold Filter.clampQ
      rw [if_neg (by linarith [hz.1]), if_neg (by linarith [hz.2])]
    have e2 : s' = s := by rw [e, hc, sub_self, h.zero, add_zero, h.fix hs]
    refine ⟨?_, keep, ?_, hF'⟩
    · rw [e2]; unfold Between; exact ⟨min_le_left _ _, le_max_left _ _⟩
    · rw [e2]
      have h1 : |d| ≤ t := abs_le.mpr hz
      have h2 : |x - s| ≤ |d| + |x - s| / 2 ^ 24 := by
        have := abs_sub_abs_le_abs_sub (x - s) d
        rw [abs_sub_comm (x - s) d] at this
        linarith
      have := abs_nonneg (x - s)
      have := abs_nonneg x
      linarith
  · rcases lt_or_ge t d with hup | hup
    · have hc : Filter.clampQ d (-t) t = t := by
        unfold Filter.clampQ
        rw [if_neg (by linarith), if_pos hup]
      rw [hc] at e
      have hr := h.sub_rel hdF htF
      rw [abs_of_pos (by linarith : 0 < d - t)] at hr
      have hD : 0 < x - s := by
        by_contra hn
        rw [not_lt] at hn
        have := h.le f32_zero hn
        rw [← hd'] at this
        linarith
      rw [abs_of_pos hD] at hsub hd keep ⊢
      have t0 := h.ge f32_zero (by linarith : 0 ≤ d - t)
      rw [abs_le] at hr hsub
      have hle : s + rnd (d - t) ≤ x := by linarith [hr.2, hsub.2]
      have hb := step_up rnd h s x _ hs hx t0 hle
      rw [← e] at hb
      refine ⟨hb, keep, ?_, hF'⟩
      have hle' : s' ≤ x := by
        rw [e]; exact h.le hx hle
      rw [abs_of_nonneg (by linarith)]
      have hr2 := h.add_rel hs (h.f32 (d - t))
      rw [← e] at hr2
      have hmag : |s + rnd (d - t)| ≤ |x| + (x - s) := by
        rw [abs_le]
        constructor
        · linarith [neg_abs_le x]
        · linarith [le_abs_self x]
      have hr3 := (abs_le.mp hr2).1
      have hax := abs_nonneg x
      linarith [hr.1, hsub.1]
    · have hdn : d < -t := by
        by_contra hn
        exact hz ⟨by linarith, hup⟩
      have hc : Filter.clampQ d (-t) t = -t := by
        unfold Filter.clampQ
        rw [if_pos hdn]
      rw [hc, sub_neg_eq_add] at e
      have hr := h.add_rel hdF htF
      rw [abs_of_neg (by linarith : d + t < 0)] at hr
      have hD : x - s < 0 := by
        by_contra hn
        rw [not_lt] at hn
        have := h.ge f32_zero hn
        rw [← hd'] at this
        linarith
      rw [abs_of_neg hD] at hsub hd keep ⊢
      have t0 := h.le f32_zero (by linarith : d + t ≤ 0)
      rw [abs_le] at hr hsub
      have hle : x ≤ s + rnd (d + t) := by linarith [hr.1, hsub.1]
      have hb := step_down rnd h s x _ hs hx t0 hle
      rw [← e] at hb
      refine ⟨hb, keep, ?_, hF'⟩
      have hle' : x ≤ s' := by
        rw [e]; exact h.ge hx hle
      rw [abs_of_nonpos (by linarith)]
      have hr2 := h.add_rel hs (h.f32 (d + t))
      rw [← e] at hr2
      have hmag : |s + rnd (d + t)| ≤ |x| + -(x - s) := by
        rw [abs_le]
        constructor
        · linarith [neg_abs_le x]
        · linarith [le_abs_self x]
      have hr3 := (abs_le.mp hr2).2
      have hax := abs_nonneg x
      linarith [hr.2, hsub.2]

example (rnd : ℚ → ℚ) (h : Nearest rnd) := C143_hysteresis rnd h 1 128 0 0 f32_zero f32_zero _ rfl (by
  have : 0 ≤ flat rnd 1 128 := h.ge f32_zero (div_nonneg (h.ge f32_zero (by norm_num)) (h.ge f32_zero (by norm_num)))
  simpa using this) _ rfl

/-- Mirrored rounding. -/
theorem nearest_neg (rnd : ℚ → ℚ) (h : Nearest rnd) : Nearest (fun x => -rnd (-x)) := by
  constructor
  · intro x; exact f32_neg (h.f32 _)
  · intro x y hy
    have := h.nearest (-x) (-y) (f32_neg hy)
    rw [show -rnd (-x) - x = -(rnd (-x) - -x) by ring, show y - x = -(-y - -x) by ring, abs_neg, abs_neg]
    exact this

theorem quad_up (rnd : ℚ → ℚ) (h : Nearest rnd) (f : ℚ) (f0 : 0 ≤ f) (f1 : f ≤ 1) (v : ℚ) (hv : 1 ≤ v) (hf : f * v ≤ 1 + 1 / 2 ^ 23) (s x : ℚ) (hs : F32 s) (hx : F32 x) (hlt : s < x) (hd : x - s ≤ v * (1 - 1 / 2 ^ 20)) :
    0 ≤ rnd (rnd (|rnd (x - s)| * rnd (x - s)) * f) ∧ s + rnd (rnd (|rnd (x - s)| * rnd (x - s)) * f) ≤ x := by
  have hsub := h.sub_rel hx hs
  obtain ⟨D, hD⟩ : ∃ D, D = x - s := ⟨_, rfl⟩
  obtain ⟨d, hd'⟩ : ∃ d, d = rnd D := ⟨_, rfl⟩
  have hD0 : 0 < D := by rw [hD]; linarith
  have hDm : (1 : ℚ) / 2 ^ 149 ≤ D := by rw [hD]; exact sub_ge hx hs hlt
  rw [← hD] at hsub hd ⊢
  rw [← hd'] at hsub ⊢
  have d0 : 0 ≤ d := by rw [hd']; exact h.ge f32_zero hD0.le
  rw [abs_of_pos hD0, abs_le] at hsub
  rw [abs_of_nonneg d0]
  obtain ⟨q, hq⟩ : ∃ q, q = rnd (d * d) := ⟨_, rfl⟩
  have q0 : 0 ≤ q := by rw [hq]; exact h.ge f32_zero (by positivity)
  rw [← hq]
  refine ⟨h.ge f32_zero (by positivity), ?_⟩
  suffices rnd (q * f) ≤ D by rw [hD] at this; linarith
  by_cases hsm : D ≤ 1 / 2 ^ 100
  · -- tiny differences: the square underflows
    have hF : F32 (1 / 2 ^ 149) := by have := f32_div 1 (by norm_num) 149 (by norm_num); norm_num at this ⊢; exact this
    have hq1 : q ≤ 1 / 2 ^ 149 := by
      rw [hq]
      apply h.le hF
      have : d ≤ 2 / 2 ^ 100 := by linarith [hsub.2]
      calc d * d ≤ (2 / 2 ^ 100) * (2 / 2 ^ 100) := by nlinarith
        _ ≤ 1 / 2 ^ 149 := by norm_num
    have : rnd (q * f) ≤ 1 / 2 ^ 149 := h.le hF (by nlinarith)
    linarith
  · rw [not_le] at hsm
    have r1 := h.rel (d * d)
    rw [← hq, abs_of_nonneg (by positivity : 0 ≤ d * d), abs_le] at r1
    have r2 := h.rel (q * f)
    rw [abs_of_nonneg (by positivity : 0 ≤ q * f), abs_le] at r2
    have hdd : d * d ≤ D * D * (1 + 1 / 2 ^ 24) ^ 2 := by
      have : d ≤ D * (1 + 1 / 2 ^ 24) := by linarith [hsub.2]
      calc d * d ≤ (D * (1 + 1 / 2 ^ 24)) * (D * (1 + 1 / 2 ^ 24)) := by gcongr
        _ = _ := by ring
    have hDf : D * f ≤ (1 - 1 / 2 ^ 20) * (1 + 1 / 2 ^ 23) := by
      calc D * f ≤ (v * (1 - 1 / 2 ^ 20)) * f := by gcongr
        _ = (1 - 1 / 2 ^ 20) * (f * v) := by ring
        _ ≤ _ := by gcongr
    have hDDf : D * D * f ≤ D * ((1 - 1 / 2 ^ 20) * (1 + 1 / 2 ^ 23)) := by
      rw [mul_assoc]; gcongr
    have hqf : q * f ≤ (d * d * (1 + 1 / 2 ^ 24) + 1 / 2 ^ 150) * f := by
      gcongr
      linarith [r1.2]
    have h4 : d * d * (1 + 1 / 2 ^ 24) * f ≤ D * D * f * (1 + 1 / 2 ^ 24) ^ 3 := by
      calc d * d * (1 + 1 / 2 ^ 24) * f ≤ (D * D * (1 + 1 / 2 ^ 24) ^ 2) * (1 + 1 / 2 ^ 24) * f := by gcongr
        _ = _ := by ring
    have h5 : D * D * f * (1 + 1 / 2 ^ 24) ^ 3 ≤ D * ((1 - 1 / 2 ^ 20) * (1 + 1 / 2 ^ 23)) * (1 + 1 / 2 ^ 24) ^ 3 := by gcongr
    have h6 : (1 : ℚ) / 2 ^ 150 * f ≤ 1 / 2 ^ 150 := by nlinarith
    have h7 : q * f ≤ D * ((1 - 1 / 2 ^ 20) * (1 + 1 / 2 ^ 23)) * (1 + 1 / 2 ^ 24) ^ 3 + 1 / 2 ^ 150 := by
      rw [add_mul] at hqf
      linarith
    norm_num at r2 h7 hsm ⊢
    linarith [r2.2]

theorem fact_le (rnd : ℚ → ℚ) (h : Nearest rnd) (divisor : ℕ) (h1 : 1 ≤ divisor) (h2 : divisor < 2 ^ 24) : 0 ≤ rnd (1 / rnd divisor) ∧ rnd (1 / rnd divisor) ≤ 1 ∧ rnd (1 / rnd divisor) * divisor ≤ 1 + 1 / 2 ^ 23 := by
  have hF : F32 ((divisor : ℕ) : ℚ) := by
    have := f32_int divisor (by rw [abs_of_nonneg (by omega)]; exact_mod_cast h2)
    exact_mod_cast this
  rw [h.fix hF]
  have hv : (1 : ℚ) ≤ divisor := by exact_mod_cast h1
  have hv2 : (divisor : ℚ) < 2 ^ 24 := by exact_mod_cast h2
  have hp : (0 : ℚ) < divisor := by linarith
  have hpos : 0 ≤ 1 / (divisor : ℚ) := by positivity
  refine ⟨h.ge f32_zero hpos, h.le f32_one ((div_le_one hp).mpr hv), ?_⟩
  have r := h.rel (1 / (divisor : ℚ))
  rw [abs_of_nonneg hpos] at r
  have r2 := (abs_le.mp r).2
  have e : 1 / (divisor : ℚ) * divisor = 1 := by field_simp
  have : rnd (1 / (divisor : ℚ)) ≤ 1 / divisor * (1 + 1 / 2 ^ 24) + 1 / 2 ^ 150 := by linarith
  calc rnd (1 / (divisor : ℚ)) * divisor ≤ (1 / divisor * (1 + 1 / 2 ^ 24) + 1 / 2 ^ 150) * divisor := by gcongr
    _ = 1 / (divisor : ℚ) * divisor * (1 + 1 / 2 ^ 24) + 1 / 2 ^ 150 * divisor := by ring
    _ ≤ 1 + 1 / 2 ^ 23 := by
      rw [e]
      have : (1 : ℚ) / 2 ^ 150 * divisor ≤ 1 / 2 ^ 150 * 2 ^ 24 := by gcongr
      have : (1 : ℚ) / 2 ^ 150 * 2 ^ 24 ≤ 1 / 2 ^ 24 := by norm_num
      linarith

/-- **C143** (quadratic filter): in binary32, with an input closer than `divisor` (by a millionth), the new state lies exactly between the old state and the input. -/
theorem C143_quadratic (rnd : ℚ → ℚ) (h : Nearest rnd) (divisor : ℕ) (h1 : 1 ≤ divisor) (h2 : divisor < 2 ^ 24) (s x : ℚ) (hs : F32 s) (hx : F32 x) (hd : |x - s| ≤ divisor * (1 - 1 / 2 ^ 20)) :
    Between s x (onePole rnd (quadratic rnd divisor) s x) ∧ F32 (onePole rnd (quadratic rnd divisor) s x) := by
  refine ⟨?_, h.f32 _⟩
  obtain ⟨f0, f1, f2⟩ := fact_le rnd h divisor h1 h2
  have hv : (1 : ℚ) ≤ divisor := by exact_mod_cast h1
  unfold onePole quadratic
  simp only []
  generalize rnd (1 / rnd divisor) = f at f0 f1 f2 ⊢
  rw [abs_le] at hd
  rcases lt_trichotomy s x with hlt | rfl | hgt
  · obtain ⟨a, b⟩ := quad_up rnd h f f0 f1 divisor hv f2 s x hs hx hlt hd.2
    exact step_up rnd h s x _ hs hx a b
  · rw [sub_self, h.zero, abs_zero, zero_mul, h.zero, zero_mul, h.zero, add_zero, h.fix hs]
    unfold Between
    simp
  · obtain ⟨a, b⟩ := quad_up _ (nearest_neg rnd h) f f0 f1 divisor hv f2 (-s) (-x) (f32_neg hs) (f32_neg hx) (by linarith) (by linarith [hd.1])
    rw [show -(-x - -s) = x - s by ring, abs_neg, mul_neg, neg_neg, neg_mul, neg_neg] at a b
    exact step_down rnd h s x _ hs hx (by linarith) (by linarith)

/-- **C143**: in binary32 both filters, fed any number of float samples from [lo, hi], keep their state in [lo, hi], without any rounding excess. -/
theorem C143_stays (rnd : ℚ → ℚ) (h : Nearest rnd) (lo hi s : ℚ) (hsF : F32 s) (hs : lo ≤ s ∧ s ≤ hi) (xs : List ℚ) (hxs : ∀ x ∈ xs, F32 x ∧ lo ≤ x ∧ x ≤ hi) :
    (∀ divisor : ℕ, 1 ≤ divisor → divisor < 2 ^ 24 → hi - lo ≤ divisor * (1 - 1 / 2 ^ 20) →
      lo ≤ xs.foldl (onePole rnd (quadratic rnd divisor)) s ∧ xs.foldl (onePole rnd (quadratic rnd divisor)) s ≤ hi) ∧
    (∀ num div : ℕ, hi - lo ≤ 2 ^ 22 * flat rnd num div →
      lo ≤ xs.foldl (onePole rnd (hysteresis rnd num div)) s ∧ xs.foldl (onePole rnd (hysteresis rnd num div)) s ≤ hi) := by
  have gen : ∀ (step : ℚ → ℚ → ℚ), (∀ s x, F32 s → F32 x → lo ≤ s → s ≤ hi → lo ≤ x → x ≤ hi → Between s x (step s x) ∧ F32 (step s x)) →
      ∀ (xs : List ℚ) (s : ℚ), F32 s → lo ≤ s ∧ s ≤ hi → (∀ x ∈ xs, F32 x ∧ lo ≤ x ∧ x ≤ hi) → lo ≤ xs.foldl step s ∧ xs.foldl step s ≤ hi := by
    intro step hstep xs
    induction xs with
    | nil => intro s _ hs _; exact hs
    | cons x xs ih =>
      intro s hsF hs hxs
      obtain ⟨hxF, hx0, hx1⟩ := hxs x (by simp)
      obtain ⟨⟨b0, b1⟩, bF⟩ := hstep s x hsF hxF hs.1 hs.2 hx0 hx1
      exact ih _ bF ⟨(le_min hs.1 hx0).trans b0, b1.trans (max_le hs.2 hx1)⟩ (fun y hy => hxs y (by simp [hy]))
  constructor
  · intro divisor h1 h2 hr
    refine gen _ ?_ xs s hsF hs hxs
    intro s x hs hx a b c d
    exact C143_quadratic rnd h divisor h1 h2 s x hs hx (by rw [abs_le]; constructor <;> linarith)
  · intro num div hr
    refine gen _ ?_ xs s hsF hs hxs
    intro s x hs hx a b c d
    obtain ⟨h1, -, -, h4⟩ := C143_hysteresis rnd h num div s x hs hx _ rfl ((abs_le.mpr ⟨by linarith, by linarith⟩ : |x - s| ≤ hi - lo).trans hr) _ rfl
    exact ⟨h1, h4⟩

/-- **C143** (SmoothOversampler): in binary32, for samples whose block sums stay below 2^24, the value is the correctly rounded mean of the last complete block (0 before there is one). -/
theorem C143_smooth (rnd : ℚ → ℚ) (h : Nearest rnd) (size bits : ℕ) (h0 : 0 < size) (hfit : size * 2 ^ bits ≤ 2 ^ 24) (xs : List ℕ) (hx : ∀ x ∈ xs, x < 2 ^ bits) :
    (xs.foldl (smoothAdd rnd size) Filter.Smooth.init).val = if xs.length < size then 0 else rnd (((Filter.Spec.lastBlock size xs).sum : ℚ) / size) := by
  have sim : ∀ (xs : List ℕ) (o : Filter.Smooth) (s : ℕ × ℚ × ℕ), s = (o.buff, o.value, o.idx) →
      (xs.foldl (smoothAdd rnd size) o).value = (xs.foldl (Filter.blockStep size (fun b x => (b + x) % Filter.W) 0 (fun b => rnd (rnd (b : ℚ) / rnd size))) s).2.1 := by
    intro xs
    induction xs with
    | nil => intro o s h; rw [h]; rfl
    | cons x xs ih =>
      intro o s h
      rw [List.foldl_cons, List.foldl_cons]
      apply ih
      rw [h]; unfold Filter.blockStep smoothAdd
      simp only
      by_cases hw : o.idx + 1 ≥ size
      · rw [if_pos hw, if_pos hw]
      · rw [if_neg hw, if_neg hw]
  have intF : ∀ n : ℕ, n < 2 ^ 24 → F32 (n : ℚ) := by
    intro n hn
    have := f32_int n (by rw [abs_of_nonneg (by omega)]; exact_mod_cast hn)
    exact_mod_cast this
  have intF' : ∀ n : ℕ, n ≤ 2 ^ 24 → F32 (n : ℚ) := by
    intro n hn
    rcases eq_or_lt_of_le hn with h | h
    · rw [h]; have := f32_pow2 24; exact_mod_cast this
    · exact intF n h
  unfold Filter.Smooth.val
  rw [sim xs Filter.Smooth.init (0, 0, 0) rfl, Filter.block_run size h0]
  simp only
  by_cases hl : xs.length < size
  · rw [if_pos hl, if_pos hl]
  · rw [if_neg hl, if_neg hl]
    have hb := Filter.sum_le (Filter.Spec.lastBlock size xs) (2 ^ bits) (fun x h => hx x (Filter.lastBlock_mem size xs x h))
    rw [Filter.lastBlock_length size h0 xs (by omega)] at hb
    rw [Filter.foldl_mod0 _ (by rw [Filter.W_val]; omega)]
    have hp : 1 ≤ 2 ^ bits := Nat.one_le_two_pow
    have hsz : size ≤ 2 ^ 24 := le_trans (by nlinarith) hfit
    rw [h.fix (intF' _ hsz), h.fix (intF' _ (by omega))]

-- a 12-bit reading in [0, 4095], dead zone 1/100 (of a value in [0, 1])
example (rnd : ℚ → ℚ) (h : Nearest rnd) (xs : List ℚ) (hxs : ∀ x ∈ xs, F32 x ∧ 0 ≤ x ∧ x ≤ 4095) : 0 ≤ xs.foldl (onePole rnd (quadratic rnd 4096)) 0 ∧ xs.foldl (onePole rnd (quadratic rnd 4096)) 0 ≤ 4095 :=
  (C143_stays rnd h 0 4095 0 f32_zero (by norm_num) xs hxs).1 4096 (by norm_num) (by norm_num) (by norm_num)

example (rnd : ℚ → ℚ) (h : Nearest rnd) : |(1 : ℚ) - 0| ≤ 2 ^ 22 * flat rnd 1 128 := by
  have h1 : flat rnd 1 128 = 1 / 128 := by
    unfold flat
    have a : rnd ((1 : ℕ) : ℚ) = 1 := by rw [Nat.cast_one]; exact h.fix f32_one
    have b : rnd ((128 : ℕ) : ℚ) = 128 := h.fix (by have := f32_pow2 7; norm_num at this ⊢; exact this)
    rw [a, b]
    exact h.fix (by have := f32_div 1 (by norm_num) 7 (by norm_num); norm_num at this ⊢; exact this)
  rw [h1]; norm_num

end FilterFloat
