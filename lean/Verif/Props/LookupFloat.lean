import Verif.Model.InterpFloat
import Verif.Props.Interp
import Verif.Lemmas.FltLerp
/-! # Property C145: LookupTable in binary32 -/

namespace InterpFloat
open Flt Interp Interp.Spec

/-! ## The broken line through the points -/

/-- `x` cut to [0, 1]. -/
def unit (x : ℚ) : ℚ := max 0 (min x 1)

/-- The broken line through the points `p 0`, ..., `p n` at position `x`. -/
def line (p : ℕ → ℚ) : ℕ → ℚ → ℚ
  | 0, _ => p 0
  | n + 1, x => line p n x + (p (n + 1) - p n) * unit (x - n)

theorem unit_low {x : ℚ} (h : x ≤ 0) : unit x = 0 := by unfold unit; rw [max_eq_left]; exact le_trans (min_le_left _ _) h
theorem unit_high {x : ℚ} (h : 1 ≤ x) : unit x = 1 := by unfold unit; rw [min_eq_right h]; norm_num
theorem unit_mid {x : ℚ} (h0 : 0 ≤ x) (h1 : x ≤ 1) : unit x = x := by unfold unit; rw [min_eq_left h1, max_eq_right h0]

theorem unit_mono {x y : ℚ} (h : x ≤ y) : unit x ≤ unit y := max_le_max_left _ (min_le_min_right _ h)

theorem line_low (p : ℕ → ℚ) (n : ℕ) {x : ℚ} (h : x ≤ 0) : line p n x = p 0 := by
  induction n with
  | zero => rfl
  | succ n ih =>
    have : (0 : ℚ) ≤ n := Nat.cast_nonneg _
    rw [line, ih, unit_low (by linarith)]; ring

theorem line_high (p : ℕ → ℚ) (n : ℕ) {x : ℚ} (h : (n : ℚ) ≤ x) : line p n x = p n := by
  induction n with
  | zero => rfl
  | succ n ih =>
    push_cast at h
    rw [line, ih (by linarith), unit_high (by linarith)]; ring

theorem line_cell (p : ℕ → ℚ) (n k : ℕ) (hk : k + 1 ≤ n) {x : ℚ} (h0 : (k : ℚ) ≤ x) (h1 : x ≤ k + 1) : line p n x = lerp (p k) (p (k + 1)) (x - k) := by
  induction n with
  | zero => omega
  | succ n ih =>
    rw [line]
    by_cases h : k + 1 ≤ n
    · have : ((k + 1 : ℕ) : ℚ) ≤ n := by exact_mod_cast h
      push_cast at this
      rw [ih h, unit_low (by linarith)]; ring
    · have : n = k := by omega
      subst this
      rw [line_high p n h0, unit_mid (by linarith) (by linarith)]
      unfold lerp; ring

/-- `x` cut to [0, n]. -/
def upto (n : ℕ) (x : ℚ) : ℚ := max 0 (min x n)

theorem upto_succ (n : ℕ) (x : ℚ) : upto (n + 1) x = upto n x + unit (x - n) := by
  have hn : (0 : ℚ) ≤ n := Nat.cast_nonneg _
  unfold upto
  rcases le_total x n with h | h
  · rw [unit_low (by linarith), min_eq_left h, min_eq_left (by push_cast; linarith), add_zero]
  · rw [min_eq_right h, max_eq_right hn]
    rcases le_total x (n + 1) with h' | h'
    · rw [unit_mid (by linarith) (by linarith), min_eq_left (by push_cast; linarith), max_eq_right (by linarith)]; ring
    · rw [unit_high (by linarith), min_eq_right (by push_cast; linarith), max_eq_right (by positivity)]; push_cast; ring

theorem line_lip (p : ℕ → ℚ) (D : ℚ) (n : ℕ) (hD : ∀ k < n, |p (k + 1) - p k| ≤ D) (x y : ℚ) (h : x ≤ y) : |line p n y - line p n x| ≤ D * (upto n y - upto n x) := by
  induction n with
  | zero => unfold line upto; simp
  | succ n ih =>
    have h1 := ih (fun k hk => hD k (by omega))
    have h2 := hD n (by omega)
    have h3 := unit_mono (sub_le_sub_right h (n : ℚ))
    rw [line, line, upto_succ, upto_succ]
    have e : line p n y + (p (n + 1) - p n) * unit (y - n) - (line p n x + (p (n + 1) - p n) * unit (x - n)) = (line p n y - line p n x) + (p (n + 1) - p n) * (unit (y - n) - unit (x - n)) := by ring
    rw [e]
    refine le_trans (abs_add_le _ _) ?_
    rw [abs_mul, abs_of_nonneg (sub_nonneg.mpr h3)]
    have := mul_le_mul_of_nonneg_right h2 (sub_nonneg.mpr h3)
    linarith

theorem upto_le (n : ℕ) (x y : ℚ) (h : x ≤ y) : upto n y - upto n x ≤ y - x := by
  have hn : (0 : ℚ) ≤ n := Nat.cast_nonneg _
  unfold upto
  rcases le_total x n with h1 | h1 <;> rcases le_total y n with h2 | h2
  · rw [min_eq_left h1, min_eq_left h2]
    rcases le_total 0 x with h3 | h3 <;> rcases le_total 0 y with h4 | h4
    · rw [max_eq_right h3, max_eq_right h4]
    · rw [max_eq_right h3, max_eq_left h4]; linarith
    · rw [max_eq_left h3, max_eq_right h4]; linarith
    · rw [max_eq_left h3, max_eq_left h4]; linarith
  · rw [min_eq_left h1, min_eq_right h2, max_eq_right hn]
    have := le_max_right 0 x
    linarith
  · rw [min_eq_right h1, min_eq_left h2, max_eq_right hn]
    have := le_max_right 0 x
    rcases le_total 0 y with h4 | h4
    · rw [max_eq_right h4]; linarith
    · rw [max_eq_left h4]; linarith
  · rw [min_eq_right h1, min_eq_right h2]; linarith

theorem line_close (p : ℕ → ℚ) (D : ℚ) (n : ℕ) (hD0 : 0 ≤ D) (hD : ∀ k < n, |p (k + 1) - p k| ≤ D) (x y : ℚ) : |line p n y - line p n x| ≤ D * |y - x| := by
  rcases le_total x y with h | h
  · rw [abs_of_nonneg (sub_nonneg.mpr h)]
    exact le_trans (line_lip p D n hD x y h) (mul_le_mul_of_nonneg_left (upto_le n x y h) hD0)
  · rw [abs_sub_comm, abs_sub_comm y, abs_of_nonneg (sub_nonneg.mpr h)]
    exact le_trans (line_lip p D n hD y x h) (mul_le_mul_of_nonneg_left (upto_le n y x h) hD0)

/-! ## The index -/

theorem nat_fix {rnd : ℚ → ℚ} (h : Nearest rnd) (n : ℕ) (hn : n < 2 ^ 24) : rnd n = n := by
  have := h.fix (f32_int n (by rw [abs_of_nonneg (by positivity)]; exact_mod_cast hn))
  exact_mod_cast this

theorem idx_mono {rnd : ℚ → ℚ} (h : Nearest rnd) (n : ℕ) (hn : n ≤ 2 ^ 24) (lo hi : ℚ) (hlo : F32 lo) (hhi : F32 hi) (hlh : lo < hi) {u v : ℚ} (huv : u ≤ v) : lookupIdx rnd n lo hi u ≤ lookupIdx rnd n lo hi v := by
  unfold lookupIdx
  have h2 := h.sub_ne_zero hlo hhi hlh
  rw [nat_fix h (n - 1) (by have : (0 : ℕ) < 2 ^ 24 := by norm_num
                            omega)]
  apply h.mono
  apply mul_le_mul_of_nonneg_right _ (Nat.cast_nonneg _)
  apply h.mono
  apply div_le_div_of_nonneg_right _ h2.le
  exact h.mono (by linarith)

theorem idx_low {rnd : ℚ → ℚ} (h : Nearest rnd) (n : ℕ) (hn : n ≤ 2 ^ 24) (lo hi : ℚ) (hlo : F32 lo) (hhi : F32 hi) (hlh : lo < hi) {v : ℚ} (hv : v ≤ lo) : lookupIdx rnd n lo hi v ≤ 0 := by
  refine le_trans (idx_mono h n hn lo hi hlo hhi hlh hv) ?_
  unfold lookupIdx
  rw [sub_self, h.zero, zero_div, h.zero, zero_mul, h.zero]

theorem idx_high {rnd : ℚ → ℚ} (h : Nearest rnd) (n : ℕ) (hn : n ≤ 2 ^ 24) (lo hi : ℚ) (hlo : F32 lo) (hhi : F32 hi) (hlh : lo < hi) {v : ℚ} (hv : hi ≤ v) : ((n - 1 : ℕ) : ℚ) ≤ lookupIdx rnd n lo hi v := by
  refine le_trans ?_ (idx_mono h n hn lo hi hlo hhi hlh hv)
  unfold lookupIdx
  have h2 := h.sub_ne_zero hlo hhi hlh
  have hc : n - 1 < 2 ^ 24 := by
    have : (0 : ℕ) < 2 ^ 24 := by norm_num
    omega
  rw [div_self (ne_of_gt h2), h.fix f32_one, one_mul, nat_fix h _ hc, nat_fix h _ hc]

/-- The computed index is within 5 2^-24 (n - 1) of the position. -/
theorem idx_close {rnd : ℚ → ℚ} (h : Nearest rnd) (n : ℕ) (hn2 : 2 ≤ n) (hn : n ≤ 2 ^ 24) (lo hi : ℚ) (hlo : F32 lo) (hhi : F32 hi) (hlh : lo < hi) {v : ℚ} (hv : F32 v) (h1 : lo ≤ v) (h2 : v ≤ hi) :
    |lookupIdx rnd n lo hi v - LookupTable.pos n lo hi v| ≤ 5 / 2 ^ 24 * ((n - 1 : ℕ) : ℚ) := by
  unfold lookupIdx LookupTable.pos
  have hc : n - 1 < 2 ^ 24 := by
    have : (0 : ℕ) < 2 ^ 24 := by norm_num
    omega
  rw [nat_fix h _ hc]
  have hM : (1 : ℚ) ≤ ((n - 1 : ℕ) : ℚ) := by exact_mod_cast (show 1 ≤ n - 1 by omega)
  generalize ((n - 1 : ℕ) : ℚ) = M at hM
  have a1 := h.sub_rel hv hlo
  have a2 := h.sub_rel hhi hlo
  have hW : 0 < hi - lo := by linarith
  have hw : 0 ≤ v - lo := by linarith
  have hwW : v - lo ≤ hi - lo := by linarith
  have h20 := h.sub_ne_zero hlo hhi hlh
  have h10 : 0 ≤ rnd (v - lo) := h.ge f32_zero hw
  rw [abs_of_nonneg hw] at a1
  rw [abs_of_pos hW] at a2
  generalize rnd (v - lo) = r1 at a1 h10
  generalize rnd (hi - lo) = r2 at a2 h20
  generalize v - lo = w at a1 hw hwW
  generalize hi - lo = W at a2 hW hwW
  obtain ⟨a1l, a1u⟩ := abs_le.mp a1
  obtain ⟨a2l, a2u⟩ := abs_le.mp a2
  -- the quotient
  have q1 : |r1 / r2 - w / W| ≤ 21 / 10 / 2 ^ 24 := by
    rw [div_sub_div _ _ (ne_of_gt h20) (ne_of_gt hW), abs_div, abs_of_pos (mul_pos h20 hW), div_le_iff₀ (mul_pos h20 hW), abs_le]
    have e1 : r1 * W ≤ (w + w / 2 ^ 24) * W := mul_le_mul_of_nonneg_right (by linarith) hW.le
    have e2 : (w - w / 2 ^ 24) * W ≤ r1 * W := mul_le_mul_of_nonneg_right (by linarith) hW.le
    have e3 : r2 * w ≤ (W + W / 2 ^ 24) * w := mul_le_mul_of_nonneg_right (by linarith) hw
    have e4 : (W - W / 2 ^ 24) * w ≤ r2 * w := mul_le_mul_of_nonneg_right (by linarith) hw
    have e5 : w * W ≤ W * W := mul_le_mul_of_nonneg_right hwW hW.le
    have e6 : (W - W / 2 ^ 24) * W ≤ r2 * W := mul_le_mul_of_nonneg_right (by linarith) hW.le
    have e7 : 0 < W * W := mul_pos hW hW
    constructor <;> ring_nf at e1 e2 e3 e4 e5 e6 e7 ⊢ <;> linarith
  have hwW1 : w / W ≤ 1 := by rw [div_le_one hW]; exact hwW
  have hwW0 : 0 ≤ w / W := by positivity
  have q2 := h.rel (r1 / r2)
  have hq0 : 0 ≤ r1 / r2 := by positivity
  rw [abs_of_nonneg hq0] at q2
  generalize r1 / r2 = q at q1 q2 hq0
  generalize w / W = ρ at q1 hwW0 hwW1
  obtain ⟨q1l, q1u⟩ := abs_le.mp q1
  have q3 : |rnd q - ρ| ≤ 32 / 10 / 2 ^ 24 := by
    have : |rnd q - ρ| ≤ |rnd q - q| + |q - ρ| := abs_sub_le _ _ _
    norm_num at *; linarith
  have hq3 : 0 ≤ rnd q := h.ge f32_zero hq0
  generalize rnd q = q' at q3 hq3
  obtain ⟨q3l, q3u⟩ := abs_le.mp q3
  have q4 := h.rel (q' * M)
  have hM0 : 0 ≤ M := by linarith
  rw [abs_of_nonneg (mul_nonneg hq3 hM0)] at q4
  have hqM : q' * M ≤ (11 / 10) * M := mul_le_mul_of_nonneg_right (by norm_num at *; linarith) (by linarith)
  have q5 : |q' * M - ρ * M| ≤ 32 / 10 / 2 ^ 24 * M := by
    rw [← sub_mul, abs_mul, abs_of_pos (show 0 < M by linarith)]
    exact mul_le_mul_of_nonneg_right q3 (by linarith)
  have : |rnd (q' * M) - ρ * M| ≤ |rnd (q' * M) - q' * M| + |q' * M - ρ * M| := abs_sub_le _ _ _
  have h150 : (1 : ℚ) / 2 ^ 150 ≤ 1 / 10 / 2 ^ 24 * M := by
    have : (1 : ℚ) / 2 ^ 150 ≤ 1 / 10 / 2 ^ 24 := by norm_num
    nlinarith
  have e8 : q' * M / 2 ^ 24 ≤ 11 / 10 / 2 ^ 24 * M := by
    have := div_le_div_of_nonneg_right hqM (show (0 : ℚ) ≤ 2 ^ 24 by norm_num)
    linarith
  have e9 : (5 : ℚ) / 2 ^ 24 * M = 32 / 10 / 2 ^ 24 * M + 11 / 10 / 2 ^ 24 * M + 1 / 10 / 2 ^ 24 * M + 6 / 10 / 2 ^ 24 * M := by ring
  have e10 : 0 ≤ 6 / 10 / 2 ^ 24 * M := by positivity
  linarith

/-! ## lookup -/

/-- The interpolation of one cell, with rounding, stays between the points; it is monotone in the phase. -/
theorem eval_between {rnd : ℚ → ℚ} (h : Nearest rnd) {a b p : ℚ} (ha : F32 a) (hb : F32 b) (hp0 : 0 ≤ p) (hp : p ≤ 1 - 1 / 2 ^ 24) : Between a b (rnd (a + rnd (p * rnd (b - a)))) := by
  unfold Between
  rcases le_total a b with hab | hab
  · rw [min_eq_left hab, max_eq_right hab]
    have h1 : 0 ≤ rnd (p * rnd (b - a)) := h.ge f32_zero (mul_nonneg hp0 (h.ge f32_zero (by linarith)))
    have h2 := h.scaled_le ha hb hab hp0 hp
    exact ⟨h.ge ha (by linarith), h.le hb (by linarith)⟩
  · rw [min_eq_right hab, max_eq_left hab]
    have h1 : rnd (p * rnd (b - a)) ≤ 0 := h.le f32_zero (mul_nonpos_of_nonneg_of_nonpos hp0 (h.le f32_zero (by linarith)))
    have h2 := h.scaled_ge ha hb hab hp0 hp
    exact ⟨h.ge hb (by linarith), h.le ha (by linarith)⟩

theorem lookup_cases {rnd : ℚ → ℚ} (h : Nearest rnd) (points : List ℚ) (h2 : 2 ≤ points.length) (hn : points.length ≤ 2 ^ 24) (lo hi : ℚ) (hlo : F32 lo) (hhi : F32 hi) (hlh : lo < hi) (v : ℚ) (i : ℚ) (hi' : i = lookupIdx rnd points.length lo hi v) :
    (i ≤ 0 ∧ lookup rnd points lo hi v = .ok (at' points 0)) ∨ (((points.length - 1 : ℕ) : ℚ) ≤ i ∧ lookup rnd points lo hi v = .ok (at' points (points.length - 1))) ∨
    (∃ k : ℕ, (k : ℚ) ≤ i ∧ i < k + 1 ∧ k + 1 < points.length ∧ 0 ≤ i - k ∧ i - k ≤ 1 - 1 / 2 ^ 24 ∧
      lookup rnd points lo hi v = .ok (rnd (at' points k + rnd ((i - k) * rnd (at' points (k + 1) - at' points k))))) := by
  have hc : points.length - 1 < 2 ^ 24 := by
    have : (0 : ℕ) < 2 ^ 24 := by norm_num
    omega
  unfold lookup
  rw [if_neg (ne_of_gt (h.sub_ne_zero hlo hhi hlh))]
  simp only [← hi']
  rw [nat_fix h _ hc]
  by_cases h0 : i ≤ 0
  · rw [if_pos h0, get_at _ _ (by omega)]; exact .inl ⟨h0, rfl⟩
  · rw [if_neg h0]
    by_cases h1 : i ≥ ((points.length - 1 : ℕ) : ℚ)
    · rw [if_pos h1, get_at _ _ (by omega)]; exact .inr (.inl ⟨h1, rfl⟩)
    · rw [if_neg h1]
      rw [not_le] at h0
      obtain ⟨k, hk, hk1⟩ := cell i h0.le
      have hkl : k + 1 < points.length := by
        have : (k : ℚ) < ((points.length - 1 : ℕ) : ℚ) := lt_of_le_of_lt hk (not_le.mp h1)
        have : k < points.length - 1 := by exact_mod_cast this
        omega
      have hF : F32 (i - k) := f32_frac (by rw [hi']; exact h.f32 _) k hk hk1
      refine .inr (.inr ⟨k, hk, hk1, hkl, by linarith, f32_lt_one hF (by linarith), ?_⟩)
      rw [trunc_cell _ k i hk hk1 (by have : (2 : ℕ) ^ 24 < 4294967296 := by norm_num
                                      omega), R.bind_ok]
      rw [nat_fix h k (by omega), h.fix hF, get_at _ _ (by omega), R.bind_ok, get_at _ _ hkl, R.bind_ok]

theorem at_f32 (points : List ℚ) (hp : ∀ p ∈ points, F32 p) (k : ℕ) : F32 (at' points k) := by
  unfold at'
  rw [List.getD_eq_getElem?_getD]
  by_cases hk : k < points.length
  · rw [List.getElem?_eq_getElem hk]; exact hp _ (List.getElem_mem hk)
  · rw [List.getElem?_eq_none (by omega)]; exact f32_zero

/-- **C145**: in binary32, lookup in a table of 2 to 2^24 floats is defined (never reads outside the table) for every float argument, and gives a float between two neighbouring points; so a value outside the range of the points is never returned. -/
theorem C145_between (rnd : ℚ → ℚ) (h : Nearest rnd) (points : List ℚ) (hp : ∀ p ∈ points, F32 p) (h2 : 2 ≤ points.length) (hn : points.length ≤ 2 ^ 24) (lo hi : ℚ) (hlo : F32 lo) (hhi : F32 hi) (hlh : lo < hi) (v : ℚ) :
    ∃ r, lookup rnd points lo hi v = .ok r ∧ F32 r ∧ (∃ k, k + 1 < points.length ∧ Between (at' points k) (at' points (k + 1)) r) ∧
      ∀ a b, (∀ p ∈ points, a ≤ p ∧ p ≤ b) → a ≤ r ∧ r ≤ b := by
  have key : ∃ r, lookup rnd points lo hi v = .ok r ∧ F32 r ∧ (∃ k, k + 1 < points.length ∧ Between (at' points k) (at' points (k + 1)) r) := by
    rcases lookup_cases h points h2 hn lo hi hlo hhi hlh v _ rfl with ⟨_, e⟩ | ⟨_, e⟩ | ⟨k, _, _, hkl, h3, h4, e⟩
    · exact ⟨_, e, at_f32 points hp 0, 0, by omega, min_le_left _ _, le_max_left _ _⟩
    · refine ⟨_, e, at_f32 points hp _, points.length - 2, by omega, ?_⟩
      rw [show points.length - 2 + 1 = points.length - 1 by omega]
      exact ⟨min_le_right _ _, le_max_right _ _⟩
    · exact ⟨_, e, h.f32 _, k, hkl, eval_between h (at_f32 points hp k) (at_f32 points hp (k + 1)) h3 h4⟩
  obtain ⟨r, e, hF, k, hk, hb1, hb2⟩ := key
  refine ⟨r, e, hF, ⟨k, hk, hb1, hb2⟩, ?_⟩
  intro a b hab
  have at_mem : ∀ j, j < points.length → at' points j ∈ points := by
    intro j hj
    unfold at'
    rw [List.getD_eq_getElem?_getD, List.getElem?_eq_getElem hj]
    exact List.getElem_mem hj
  have m1 := hab _ (at_mem k (by omega))
  have m2 := hab _ (at_mem (k + 1) hk)
  exact ⟨le_trans (le_min m1.1 m2.1) hb1, le_trans hb2 (max_le m1.2 m2.2)⟩

/-- **C145**: at and below `min` exactly the first point, at and above `max` exactly the last. -/
theorem C145_ends (rnd : ℚ → ℚ) (h : Nearest rnd) (points : List ℚ) (h2 : 2 ≤ points.length) (hn : points.length ≤ 2 ^ 24) (lo hi : ℚ) (hlo : F32 lo) (hhi : F32 hi) (hlh : lo < hi) (v : ℚ) :
    (v ≤ lo → lookup rnd points lo hi v = .ok (at' points 0)) ∧ (hi ≤ v → lookup rnd points lo hi v = .ok (at' points (points.length - 1))) := by
  have hpos : (0 : ℚ) < ((points.length - 1 : ℕ) : ℚ) := by exact_mod_cast (show 0 < points.length - 1 by omega)
  constructor
  · intro hv
    have hi0 := idx_low h points.length hn lo hi hlo hhi hlh hv
    rcases lookup_cases h points h2 hn lo hi hlo hhi hlh v _ rfl with ⟨_, e⟩ | ⟨h3, e⟩ | ⟨k, hk, hk1, hkl, h3, h4, e⟩
    · exact e
    · linarith
    · have hk0 : (0 : ℚ) ≤ k := Nat.cast_nonneg _
      have e0 : lookupIdx rnd points.length lo hi v = 0 := by linarith
      have e1 : (k : ℚ) = 0 := by linarith
      unfold lookup
      rw [if_neg (ne_of_gt (h.sub_ne_zero hlo hhi hlh))]
      simp only [e0]
      rw [if_pos le_rfl, get_at _ _ (by omega)]
  · intro hv
    have hi0 := idx_high h points.length hn lo hi hlo hhi hlh hv
    rcases lookup_cases h points h2 hn lo hi hlo hhi hlh v _ rfl with ⟨h3, e⟩ | ⟨_, e⟩ | ⟨k, hk, hk1, hkl, h3, h4, e⟩
    · linarith
    · exact e
    · have : ((k + 1 : ℕ) : ℚ) ≤ ((points.length - 1 : ℕ) : ℚ) := by exact_mod_cast (show k + 1 ≤ points.length - 1 by omega)
      push_cast at this
      linarith

/-- **C145**: in binary32 lookup in a table that never decreases never decreases, rounding included. -/
theorem C145_monotone (rnd : ℚ → ℚ) (h : Nearest rnd) (points : List ℚ) (hp : ∀ p ∈ points, F32 p) (hm : Spec.Monotone points) (h2 : 2 ≤ points.length) (hn : points.length ≤ 2 ^ 24) (lo hi : ℚ) (hlo : F32 lo) (hhi : F32 hi) (hlh : lo < hi)
    (u v : ℚ) (huv : u ≤ v) (a b : ℚ) (ha : lookup rnd points lo hi u = .ok a) (hb : lookup rnd points lo hi v = .ok b) : a ≤ b := by
  have hij := idx_mono h points.length hn lo hi hlo hhi hlh huv
  have hpos : (0 : ℚ) < ((points.length - 1 : ℕ) : ℚ) := by exact_mod_cast (show 0 < points.length - 1 by omega)
  have fa := at_f32 points hp
  have bet : ∀ (k : ℕ) (x : ℚ), k + 1 < points.length → 0 ≤ x → x ≤ 1 - 1 / 2 ^ 24 →
      at' points k ≤ rnd (at' points k + rnd (x * rnd (at' points (k + 1) - at' points k))) ∧ rnd (at' points k + rnd (x * rnd (at' points (k + 1) - at' points k))) ≤ at' points (k + 1) := by
    intro k x hk hx0 hx1
    have hm' := hm k (k + 1) (by omega) hk
    have := eval_between h (fa k) (fa (k + 1)) hx0 hx1
    unfold Between at this
    rwa [min_eq_left hm', max_eq_right hm'] at this
  rcases lookup_cases h points h2 hn lo hi hlo hhi hlh u _ rfl with ⟨i1, e⟩ | ⟨i1, e⟩ | ⟨k, k1, k2, k3, k4, k5, e⟩ <;> rw [e] at ha <;> injection ha with ha <;>
  rcases lookup_cases h points h2 hn lo hi hlo hhi hlh v _ rfl with ⟨j1, f⟩ | ⟨j1, f⟩ | ⟨l, l1, l2, l3, l4, l5, f⟩ <;> rw [f] at hb <;> injection hb with hb <;> rw [← ha, ← hb]
  · exact hm 0 _ (by omega) (by omega)
  · exact le_trans (hm 0 l (by omega) (by omega)) (bet l _ l3 l4 l5).1
  · linarith
  · have : ((l + 1 : ℕ) : ℚ) ≤ ((points.length - 1 : ℕ) : ℚ) := by exact_mod_cast (show l + 1 ≤ points.length - 1 by omega)
    push_cast at this
    linarith
  · have hk0 : (0 : ℚ) ≤ k := Nat.cast_nonneg _
    have e0 : lookupIdx rnd points.length lo hi u - k = 0 := by linarith
    have e1 : k = 0 := by
      have : (k : ℚ) = 0 := by linarith
      exact_mod_cast this
    rw [e0, zero_mul, h.zero, add_zero, h.fix (fa k), e1]
  · exact le_trans (bet k _ k3 k4 k5).2 (hm (k + 1) _ (by omega) (by omega))
  · by_cases hkl : k = l
    · subst hkl
      apply h.mono
      apply add_le_add_right
      apply h.mono
      apply mul_le_mul_of_nonneg_right (by linarith)
      exact h.ge f32_zero (by have := hm k (k + 1) (by omega) k3; linarith)
    · have hlt : k < l := by
        by_contra hc
        have : ((l + 1 : ℕ) : ℚ) ≤ k := by exact_mod_cast (show l + 1 ≤ k by omega)
        push_cast at this
        linarith
      exact le_trans (bet k _ k3 k4 k5).2 (le_trans (hm (k + 1) l (by omega) (by omega)) (bet l _ l3 l4 l5).1)

/-- **C145**: in binary32 lookup is within (5 n D + 2 B) 2^-24 of exact linear interpolation, D bounding the distance of neighbouring points and B their magnitude. -/
theorem C145_close (rnd : ℚ → ℚ) (h : Nearest rnd) (points : List ℚ) (hp : ∀ p ∈ points, F32 p) (h2 : 2 ≤ points.length) (hn : points.length ≤ 2 ^ 24) (lo hi : ℚ) (hlo : F32 lo) (hhi : F32 hi) (hlh : lo < hi) (v : ℚ) (hv : F32 v)
    (D B : ℚ) (hD : ∀ k, k + 1 < points.length → |at' points (k + 1) - at' points k| ≤ D) (hB : ∀ k, k < points.length → |at' points k| ≤ B)
    (r x : ℚ) (hr : lookup rnd points lo hi v = .ok r) (hx : LookupTable.lookup points lo hi v = .ok x) : |r - x| ≤ (5 * points.length * D + 2 * B) / 2 ^ 24 + 1 / 2 ^ 150 := by
  have hD0 : 0 ≤ D := le_trans (abs_nonneg _) (hD 0 (by omega))
  have hB0 : 0 ≤ B := le_trans (abs_nonneg _) (hB 0 (by omega))
  have hlen : (2 : ℚ) ≤ points.length := by exact_mod_cast h2
  have hw : points.length ≤ 2 ^ 32 := le_trans hn (by norm_num)
  have fa := at_f32 points hp
  have nonneg : (0 : ℚ) ≤ (5 * points.length * D + 2 * B) / 2 ^ 24 + 1 / 2 ^ 150 := by positivity
  by_cases c1 : v ≤ lo
  · rw [(C145_ends rnd h points h2 hn lo hi hlo hhi hlh v).1 c1] at hr
    rw [(LookupTable.C102_clamps points lo hi hlh h2 v).1 c1] at hx
    injection hr with hr; injection hx with hx
    rw [← hr, ← hx, sub_self, abs_zero]; exact nonneg
  by_cases c2 : hi ≤ v
  · rw [(C145_ends rnd h points h2 hn lo hi hlo hhi hlh v).2 c2] at hr
    rw [(LookupTable.C102_clamps points lo hi hlh h2 v).2 c2] at hx
    injection hr with hr; injection hx with hx
    rw [← hr, ← hx, sub_self, abs_zero]; exact nonneg
  rw [not_le] at c1 c2
  -- the exact value on the broken line
  obtain ⟨n, hn'⟩ : ∃ n, n = points.length - 1 := ⟨_, rfl⟩
  have ex : x = line (at' points) n (LookupTable.pos points.length lo hi v) := by
    obtain ⟨k, a, b, c, _⟩ := LookupTable.find_cell points lo hi hlh h2 v c1.le c2.le
    rw [LookupTable.lookup_cell points lo hi hlh hw v k a b c] at hx
    injection hx with hx
    rw [← hx, line_cell _ n k (by omega) a b]
  have hidx := idx_close h points.length h2 hn lo hi hlo hhi hlh hv c1.le c2.le
  have hlip := line_close (at' points) D n hD0 (fun k hk => hD k (by omega)) (LookupTable.pos points.length lo hi v) (lookupIdx rnd points.length lo hi v)
  rw [← ex] at hlip
  have hlip2 : |line (at' points) n (lookupIdx rnd points.length lo hi v) - x| ≤ D * (5 / 2 ^ 24 * (points.length - 1)) := by
    refine le_trans hlip (mul_le_mul_of_nonneg_left ?_ hD0)
    have : ((points.length - 1 : ℕ) : ℚ) = points.length - 1 := by rw [Nat.cast_sub (by omega)]; norm_num
    rwa [this] at hidx
  -- the evaluation
  have hev : |r - line (at' points) n (lookupIdx rnd points.length lo hi v)| ≤ (3 * D + 2 * B) / 2 ^ 24 + 1 / 2 ^ 150 := by
    rcases lookup_cases h points h2 hn lo hi hlo hhi hlh v _ rfl with ⟨i1, e⟩ | ⟨i1, e⟩ | ⟨k, k1, k2, k3, k4, k5, e⟩ <;> rw [e] at hr <;> injection hr with hr <;> rw [← hr]
    · rw [line_low _ _ i1, sub_self, abs_zero]; positivity
    · rw [← hn'] at i1 ⊢
      rw [line_high _ _ i1, sub_self, abs_zero]; positivity
    · rw [line_cell _ n k (by omega) k1 k2.le]
      have hbet := eval_between h (fa k) (fa (k + 1)) k4 k5
      have hDk := hD k k3
      have hBk := hB k (by omega)
      have hBk1 := hB (k + 1) k3
      unfold lerp
      have fk := fa k
      have s1 := h.sub_rel (fa (k + 1)) fk
      have s2 := h.rel ((lookupIdx rnd points.length lo hi v - k) * rnd (at' points (k + 1) - at' points k))
      have s3 := h.add_rel fk (h.f32 ((lookupIdx rnd points.length lo hi v - k) * rnd (at' points (k + 1) - at' points k)))
      generalize lookupIdx rnd points.length lo hi v - k = φ at *
      generalize at' points k = a at *
      generalize at' points (k + 1) = b at *
      have hφ1 : φ ≤ 1 := le_trans k5 (by norm_num)
      have t1 : |rnd (b - a) - (b - a)| ≤ D / 2 ^ 24 := le_trans s1 (div_le_div_of_nonneg_right hDk (by norm_num))
      have t2 : |rnd (b - a)| ≤ D + D / 2 ^ 24 := by
        have := abs_add_le (rnd (b - a) - (b - a)) (b - a)
        rw [sub_add_cancel] at this
        linarith
      generalize rnd (b - a) = d at *
      have t3 : |φ * d| ≤ D + D / 2 ^ 24 := by
        rw [abs_mul, abs_of_nonneg k4]
        nlinarith [abs_nonneg d]
      have t4 : |φ * d - (b - a) * φ| ≤ D / 2 ^ 24 := by
        rw [show φ * d - (b - a) * φ = φ * (d - (b - a)) by ring, abs_mul, abs_of_nonneg k4]
        nlinarith [abs_nonneg (d - (b - a))]
      have t5 : |rnd (φ * d) - φ * d| ≤ (D + D / 2 ^ 24) / 2 ^ 24 + 1 / 2 ^ 150 := le_trans s2 (by have := div_le_div_of_nonneg_right t3 (show (0 : ℚ) ≤ 2 ^ 24 by norm_num); linarith)
      generalize rnd (φ * d) = y at *
      -- the sum rounds to something between a and b
      have t6 : |rnd (a + y)| ≤ B := by
        rw [abs_le] at hBk hBk1 ⊢
        exact ⟨le_trans (le_min hBk.1 hBk1.1) hbet.1, le_trans hbet.2 (max_le hBk.2 hBk1.2)⟩
      have t7 : |a + y| ≤ 11 / 10 * B := by
        have := abs_add_le (a + y - rnd (a + y)) (rnd (a + y))
        rw [sub_add_cancel, abs_sub_comm] at this
        have h0 := abs_nonneg (a + y)
        norm_num at this s3 ⊢
        linarith
      have t8 : |rnd (a + y) - (a + y)| ≤ 11 / 10 * B / 2 ^ 24 := le_trans s3 (div_le_div_of_nonneg_right t7 (by norm_num))
      have e1 : rnd (a + y) - (a + (b - a) * φ) = (rnd (a + y) - (a + y)) + ((y - φ * d) + (φ * d - (b - a) * φ)) := by ring
      rw [e1]
      refine le_trans (abs_add_le _ _) ?_
      have := abs_add_le (y - φ * d) (φ * d - (b - a) * φ)
      norm_num at *
      linarith
  have := abs_sub_le r (line (at' points) n (lookupIdx rnd points.length lo hi v)) x
  have e : (5 * points.length * D + 2 * B) / 2 ^ 24 = (3 * D + 2 * B) / 2 ^ 24 + D * (5 / 2 ^ 24 * (points.length - 1)) + 2 * D / 2 ^ 24 := by ring
  have : 0 ≤ 2 * D / 2 ^ 24 := by positivity
  linarith

-- sin-like table of three points on [0, 1]: the hypotheses of the C145 theorems hold
example (rnd : ℚ → ℚ) (h : Nearest rnd) (v : ℚ) : ∃ r, lookup rnd [0, 1, 3] 0 1 v = .ok r ∧ 0 ≤ r ∧ r ≤ 3 := by
  have hp : ∀ p ∈ ([0, 1, 3] : List ℚ), F32 p := by
    intro p hp
    simp only [List.mem_cons, List.not_mem_nil, or_false] at hp
    rcases hp with rfl | rfl | rfl
    · exact f32_zero
    · exact f32_one
    · exact_mod_cast f32_int 3 (by norm_num)
  obtain ⟨r, e, _, _, hb⟩ := C145_between rnd h [0, 1, 3] hp (by decide) (by decide) 0 1 f32_zero f32_one (by norm_num) v
  refine ⟨r, e, hb 0 3 ?_⟩
  intro p hp
  simp only [List.mem_cons, List.not_mem_nil, or_false] at hp
  rcases hp with rfl | rfl | rfl <;> norm_num
example (rnd : ℚ → ℚ) (h : Nearest rnd) : lookup rnd [0, 1, 3] 0 1 (3 / 4) = .ok 2 := by
  have e1 : rnd (3 / 4) = 3 / 4 := h.fix (by have := f32_div 3 (by norm_num) 2 (by norm_num); norm_num at this ⊢; exact this)
  have e2 : rnd 1 = 1 := h.fix f32_one
  have e3 : rnd 2 = 2 := h.fix (by exact_mod_cast f32_int 2 (by norm_num))
  have e4 : rnd (3 / 2) = 3 / 2 := h.fix (by have := f32_div 3 (by norm_num) 1 (by norm_num); norm_num at this ⊢; exact this)
  have e5 : rnd (1 / 2) = 1 / 2 := h.fix (by have := f32_div 1 (by norm_num) 1 (by norm_num); norm_num at this ⊢; exact this)
  have e6 : Color.trunc 4294967296 (3 / 2) = .ok 1 := trunc_cell _ 1 _ (by norm_num) (by norm_num) (by norm_num)
  unfold lookup lookupIdx
  norm_num [e1, e2, e3, e4, e5, e6, arrGet, R.bind_ok]

/-! ## generate -/

/-- **C146** (partial): in binary32 generate evaluates the function at exactly `min` first, and at the i-th point within (4 W + 2 B) 2^-24 of the i-th grid point, W being the width of the range and B the larger magnitude of its ends.
Missing: the last argument need not be `max`, and may lie outside the range. -/
theorem C146_args_partial (rnd : ℚ → ℚ) (h : Nearest rnd) (n : ℕ) (h2 : 2 ≤ n) (hn : n ≤ 2 ^ 24) (lo hi : ℚ) (hlo : F32 lo) (hhi : F32 hi) (hlh : lo < hi) (B : ℚ) (hB1 : |lo| ≤ B) (hB2 : |hi| ≤ B) (f : ℚ → ℚ) (i : ℕ) (hi' : i < n) :
    createArg rnd n lo hi 0 = lo ∧ (create rnd n lo hi f)[i]? = some (f (createArg rnd n lo hi i)) ∧ (create rnd n lo hi f).length = n ∧
    |createArg rnd n lo hi i - (lo + i * ((hi - lo) / (n - 1)))| ≤ (4 * (hi - lo) + 2 * B) / 2 ^ 24 + 1 / 2 ^ 148 := by
  have hc : n - 1 < 2 ^ 24 := by
    have : (0 : ℕ) < 2 ^ 24 := by norm_num
    omega
  refine ⟨?_, ?_, ?_, ?_⟩
  · unfold createArg
    rw [Nat.cast_zero, h.zero, zero_mul, h.zero, zero_div, h.zero, add_zero, h.fix hlo]
  · unfold create; simp [hi']
  · unfold create; simp
  · have hB0 : 0 ≤ B := le_trans (abs_nonneg _) hB1
    unfold createArg
    rw [nat_fix h (n - 1) hc, nat_fix h i (by omega)]
    have eM : ((n - 1 : ℕ) : ℚ) = n - 1 := by rw [Nat.cast_sub (by omega)]; norm_num
    have hM : (1 : ℚ) ≤ ((n - 1 : ℕ) : ℚ) := by exact_mod_cast (show 1 ≤ n - 1 by omega)
    have hiM : (i : ℚ) ≤ ((n - 1 : ℕ) : ℚ) := by exact_mod_cast (show i ≤ n - 1 by omega)
    have hi0 : (0 : ℚ) ≤ i := Nat.cast_nonneg _
    rw [← eM]
    generalize ((n - 1 : ℕ) : ℚ) = M at hM hiM
    generalize (i : ℚ) = I at hiM hi0
    have hM0 : 0 < M := by linarith
    have hW : 0 < hi - lo := by linarith
    have s1 := h.sub_rel hhi hlo
    rw [abs_of_pos hW] at s1
    have hr0 := h.sub_ne_zero hlo hhi hlh
    have s2 := h.rel (I * rnd (hi - lo))
    have s3 := h.rel (rnd (I * rnd (hi - lo)) / M)
    have s4 := h.add_rel hlo (h.f32 (rnd (I * rnd (hi - lo)) / M))
    have hr1 : 0 ≤ rnd (I * rnd (hi - lo)) := h.ge f32_zero (by positivity)
    generalize rnd (hi - lo) = d at *
    rw [abs_of_nonneg (show 0 ≤ I * d by positivity)] at s2
    generalize rnd (I * d) = e at *
    rw [abs_of_nonneg (show 0 ≤ e / M by positivity)] at s3
    -- everything divided by M
    have hIM : I / M ≤ 1 := by rw [div_le_one hM0]; exact hiM
    have hIM0 : 0 ≤ I / M := by positivity
    have t1 : |I * d / M - I * ((hi - lo) / M)| ≤ (hi - lo) / 2 ^ 24 := by
      rw [show I * d / M - I * ((hi - lo) / M) = I / M * (d - (hi - lo)) by ring, abs_mul, abs_of_nonneg hIM0]
      nlinarith [abs_nonneg (d - (hi - lo))]
    have t2 : |e / M - I * d / M| ≤ (I * d / M) / 2 ^ 24 + 1 / 2 ^ 150 := by
      rw [← sub_div, abs_div, abs_of_pos hM0, div_le_iff₀ hM0]
      refine le_trans s2 ?_
      have : ((I * d / M) / 2 ^ 24 + 1 / 2 ^ 150) * M = I * d / 2 ^ 24 + 1 / 2 ^ 150 * M := by field_simp
      rw [this]
      have : (0 : ℚ) ≤ 1 / 2 ^ 150 := by norm_num
      nlinarith
    have t3 : I * d / M ≤ (hi - lo) * (1 + 1 / 2 ^ 24) := by
      have := (abs_le.mp s1).2
      rw [show I * d / M = I / M * d by ring]
      nlinarith
    have u2 : |e / M - I * ((hi - lo) / M)| ≤ 21 / 10 * (hi - lo) / 2 ^ 24 + 1 / 2 ^ 150 := by
      have := abs_sub_le (e / M) (I * d / M) (I * ((hi - lo) / M))
      norm_num at *; linarith
    have hx1 : I * ((hi - lo) / M) ≤ hi - lo := by
      rw [show I * ((hi - lo) / M) = I / M * (hi - lo) by ring]; nlinarith
    have hx0 : 0 ≤ I * ((hi - lo) / M) := by positivity
    generalize I * ((hi - lo) / M) = x at *
    have t4 : e / M ≤ 11 / 10 * (hi - lo) + 1 / 2 ^ 150 := by
      have := (abs_le.mp u2).2
      norm_num at *; linarith
    have u3 : |rnd (e / M) - x| ≤ 33 / 10 * (hi - lo) / 2 ^ 24 + 3 / 2 ^ 150 := by
      have := abs_sub_le (rnd (e / M)) (e / M) x
      norm_num at *; linarith
    generalize rnd (e / M) = g at *
    have t5 : |lo + x| ≤ B := by
      rw [abs_le] at hB1 hB2 ⊢
      constructor <;> linarith
    have t6 : |lo + g| ≤ B + (33 / 10 * (hi - lo) / 2 ^ 24 + 3 / 2 ^ 150) := by
      have := abs_add_le (lo + x) (g - x)
      rw [show lo + x + (g - x) = lo + g by ring] at this
      linarith
    have := abs_sub_le (rnd (lo + g)) (lo + g) (lo + x)
    rw [show lo + g - (lo + x) = g - x by ring] at this
    norm_num at *; linarith

/-- **C146, violated**: ten points on [0, 1.9f]: the last argument is the float above 1.9f, outside the range. -/
theorem C146_outside_violated (rnd : ℚ → ℚ) (h : Nearest rnd) (hi : ℚ) (hhi : hi = 15938355 / 2 ^ 23) : F32 hi ∧ createArg rnd 10 0 hi 9 = 15938356 / 2 ^ 23 ∧ hi < createArg rnd 10 0 hi 9 := by
  have hF : F32 hi := by rw [hhi]; have := f32_div 15938355 (by norm_num) 23 (by norm_num); norm_num at this ⊢; exact this
  have e : createArg rnd 10 0 hi 9 = 15938356 / 2 ^ 23 := by
    unfold createArg
    rw [nat_fix h 9 (by norm_num), sub_zero, h.fix hF, hhi]
    have r1 : rnd (((9 : ℕ) : ℚ) * (15938355 / 2 ^ 23)) = 8965325 / 2 ^ 19 := by
      have := h.eq_of_close (((9 : ℕ) : ℚ) * (15938355 / 2 ^ 23)) 8965325 (-19) (by norm_num) (by norm_num) (by rw [abs_of_pos (by norm_num)]; norm_num) (by norm_num [abs_lt])
      rw [this]; norm_num
    rw [r1]
    have r2 : rnd (8965325 / 2 ^ 19 / ((9 : ℕ) : ℚ)) = 15938356 / 2 ^ 23 := by
      have := h.eq_of_close (8965325 / 2 ^ 19 / ((9 : ℕ) : ℚ)) 15938356 (-23) (by norm_num) (by norm_num) (by rw [abs_of_pos (by norm_num)]; norm_num) (by norm_num [abs_lt])
      rw [this]; norm_num
    rw [r2, zero_add]
    exact h.fix (by have := f32_div 15938356 (by norm_num) 23 (by norm_num); norm_num at this ⊢; exact this)
  refine ⟨hF, e, ?_⟩
  rw [e, hhi]; norm_num

example (rnd : ℚ → ℚ) (h : Nearest rnd) : |createArg rnd 11 0 1 10 - 1| ≤ 1 / 2 ^ 20 := by
  have := (C146_args_partial rnd h 11 (by norm_num) (by norm_num) 0 1 f32_zero f32_one (by norm_num) 1 (by norm_num) (by norm_num) id 10 (by norm_num)).2.2.2
  norm_num at this ⊢
  linarith

end InterpFloat
