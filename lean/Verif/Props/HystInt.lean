import Verif.Model.HystInt
import Verif.Props.FilterFloat
import Verif.Props.ParamsInt
/-! # Property C174: the hysteresis filter on integers -/

namespace HystInt
open Flt ParamsInt FilterFloat

/-- Truncation towards zero: within less than 1, and it keeps integer bounds. -/
theorem toInt_spec (t : Ty) (a b : Int) (ha : InTy t a) (hb : InTy t b) (q : ℚ) (h1 : ((min a b : Int) : ℚ) ≤ q) (h2 : q ≤ ((max a b : Int) : ℚ)) :
    ∃ n : Int, toInt t q = .ok n ∧ min a b ≤ n ∧ n ≤ max a b ∧ |q - n| < 1 ∧ ∀ k : Int, q = k → n = k := by
  obtain ⟨n, hn⟩ : ∃ n : Int, n = if 0 ≤ q then ⌊q⌋ else ⌈q⌉ := ⟨_, rfl⟩
  have key : min a b ≤ n ∧ n ≤ max a b ∧ |q - n| < 1 ∧ ∀ k : Int, q = k → n = k := by
    rw [hn]
    split
    · refine ⟨Int.le_floor.mpr h1, ?_, ?_, ?_⟩
      · have := (Int.floor_le q).trans h2
        exact_mod_cast this
      · rw [abs_lt]; constructor <;> linarith [Int.floor_le q, Int.lt_floor_add_one q]
      · intro k hk; rw [hk]; exact Int.floor_intCast k
    · refine ⟨?_, Int.ceil_le.mpr h2, ?_, ?_⟩
      · have := h1.trans (Int.le_ceil q)
        exact_mod_cast this
      · rw [abs_lt]; constructor <;> linarith [Int.le_ceil q, Int.ceil_lt_add_one q]
      · intro k hk; rw [hk]; exact Int.ceil_intCast k
  refine ⟨n, ?_, key⟩
  unfold toInt
  rw [← hn]
  simp only
  rw [if_pos (inTy_between ha hb ⟨key.1, key.2.1⟩)]

/-- **C174** (partial): for every dead zone and every integer type except unsigned ones of 32 bits, with state and input of magnitude below 2^22, add_val is defined; the new state lies between the old state and the input;
it is the old state if the input is within the dead zone; it follows the input within the dead zone plus one unit, up to rounding. Missing: 32-bit unsigned types going down. -/
theorem C174_hysteresis_partial (rnd : ℚ → ℚ) (h : Nearest rnd) (t : Ty) (hw : 0 < t.w) (ht : t.signed = true ∧ 32 ≤ t.w ∨ t.w < 32) (num div : Nat) (s x : Int) (hs : InTy t s) (hx : InTy t x) (bs : |s| < 2 ^ 22) (bx : |x| < 2 ^ 22) :
    ∃ s', addVal rnd t num div s x = .ok s' ∧ min s x ≤ s' ∧ s' ≤ max s x ∧ ((|x - s| : ℤ) ≤ flat rnd num div → s' = s) ∧
      ((|x - s'| : ℤ) : ℚ) < flat rnd num div + 1 + (((|x - s| : ℤ) : ℚ) / 2 ^ 24 + ((max |s| |x| : ℤ) : ℚ) / 2 ^ 24) := by
  have bs' := abs_lt.mp bs
  have bx' := abs_lt.mp bx
  have hdiff : diff t x s = .ok (x - s) := by
    unfold diff
    rcases ht with ⟨h1, h2⟩ | h1
    · rw [if_neg (by omega)]
      have hin : InTy t (x - s) := by
        unfold InTy
        rw [if_pos h1]
        have : (2 : ℤ) ^ 31 ≤ 2 ^ (t.w - 1) := pow_le_pow_right₀ (by norm_num) (by omega)
        constructor <;> linarith
      rw [op_id hw hin]
    · rw [if_pos h1]
  obtain ⟨f, hf⟩ : ∃ f, f = flat rnd num div := ⟨_, rfl⟩
  have hf0 : 0 ≤ f := by rw [hf]; exact flat_nonneg rnd h num div
  have hfF : F32 f := by rw [hf]; exact h.f32 _
  have hdF : F32 ((x - s : ℤ) : ℚ) := f32_int _ (by rw [abs_lt]; constructor <;> linarith)
  have hsF : F32 (s : ℚ) := f32_int _ (by linarith)
  have hxF : F32 (x : ℚ) := f32_int _ (by linarith)
  obtain ⟨d, hd⟩ : ∃ d : ℚ, d = ((x - s : ℤ) : ℚ) := ⟨_, rfl⟩
  have hd' : d = x - s := by rw [hd]; push_cast; rfl
  have heq : addVal rnd t num div s x = toInt t (rnd (s + rnd (d - Filter.clampQ d (-f) f))) := by
    unfold addVal
    rw [hdiff, R.bind_ok]
    simp only [FilterFloat.hysteresis]
    rw [h.fix hdF, h.fix hsF, hf, hd]
    rfl
  rw [← hd] at hdF
  -- the float sum
  have main : ∀ y, y = rnd (d - Filter.clampQ d (-f) f) → ((min s x : ℤ) : ℚ) ≤ rnd (s + y) ∧ rnd (s + y) ≤ ((max s x : ℤ) : ℚ) ∧ (|d| ≤ f → rnd (s + y) = s) ∧
      |x - rnd (s + y)| ≤ f + (|d| / 2 ^ 24 + ((max |s| |x| : ℤ) : ℚ) / 2 ^ 24) := by
    intro y hy
    have hmx : (max |(s : ℚ)| |(x : ℚ)|) = ((max |s| |x| : ℤ) : ℚ) := by push_cast; rfl
    rw [← hmx]
    have hadd := h.add_rel hsF (show F32 y by rw [hy]; exact h.f32 _)
    have fin : min (s : ℚ) x ≤ s + y → s + y ≤ max (s : ℚ) x → |x - (s + y)| ≤ f + |d| / 2 ^ 24 → |x - rnd (s + y)| ≤ f + (|d| / 2 ^ 24 + max |(s : ℚ)| |(x : ℚ)| / 2 ^ 24) := by
      intro g1 g2 g3
      have g4 : |(s : ℚ) + y| ≤ max |(s : ℚ)| |(x : ℚ)| := by
        rw [abs_le]
        constructor
        · have : -max |(s : ℚ)| |(x : ℚ)| ≤ min (s : ℚ) x := le_min (by linarith [neg_abs_le (s : ℚ), le_max_left |(s : ℚ)| |(x : ℚ)|]) (by linarith [neg_abs_le (x : ℚ), le_max_right |(s : ℚ)| |(x : ℚ)|])
          linarith
        · have : max (s : ℚ) x ≤ max |(s : ℚ)| |(x : ℚ)| := max_le_max (le_abs_self _) (le_abs_self _)
          linarith
      have g5 := abs_sub_le (x : ℚ) (s + y) (rnd (s + y))
      rw [abs_sub_comm (s + y) (rnd _)] at g5
      linarith
    push_cast
    rcases lt_or_ge f |d| with hout | hin
    · have keep : |d| ≤ f → rnd (s + y) = s := fun hc => absurd hc (not_le.mpr hout)
      rcases lt_or_ge 0 d with hpos | hneg
      · rw [abs_of_pos hpos] at hout
        have hc : Filter.clampQ d (-f) f = f := by
          unfold Filter.clampQ
          rw [if_neg (by linarith), if_pos hout]
        rw [hc] at hy
        have hr := h.sub_rel hdF hfF
        rw [← hy, abs_of_pos (by linarith : 0 < d - f), abs_le] at hr
        have y0 : 0 ≤ y := by rw [hy]; exact h.ge f32_zero (by linarith)
        have y1 : y ≤ d := by rw [hy]; exact h.le hdF (by linarith)
        have e1 : min (s : ℚ) x = s := min_eq_left (by linarith)
        have e2 : max (s : ℚ) x = x := max_eq_right (by linarith)
        rw [e1, e2] at fin ⊢
        refine ⟨h.ge hsF (by linarith), h.le hxF (by linarith), keep, fin (by linarith) (by linarith) ?_⟩
        rw [abs_of_pos hpos, abs_of_nonneg (by linarith)]
        linarith [hr.1]
      · rw [abs_of_nonpos hneg] at hout
        have hc : Filter.clampQ d (-f) f = -f := by
          unfold Filter.clampQ
          rw [if_pos (by linarith)]
        rw [hc] at hy
        have hr := h.sub_rel hdF (f32_neg hfF)
        rw [← hy, abs_of_neg (by linarith : d - -f < 0), abs_le] at hr
        have y0 : y ≤ 0 := by rw [hy]; exact h.le f32_zero (by linarith)
        have y1 : d ≤ y := by rw [hy]; exact h.ge hdF (by linarith)
        have e1 : min (s : ℚ) x = x := min_eq_right (by linarith)
        have e2 : max (s : ℚ) x = s := max_eq_left (by linarith)
        rw [e1, e2] at fin ⊢
        refine ⟨h.ge hxF (by linarith), h.le hsF (by linarith), keep, fin (by linarith) (by linarith) ?_⟩
        rw [abs_of_nonpos hneg, abs_of_nonpos (by linarith)]
        linarith [hr.2]
    · have hz := abs_le.mp hin
      have hc : Filter.clampQ d (-f) f = d := by
        unfold Filter.clampQ
        rw [if_neg (by linarith [hz.1]), if_neg (by linarith [hz.2])]
      have y0 : y = 0 := by rw [hy, hc, sub_self, h.zero]
      rw [y0, add_zero] at fin ⊢
      refine ⟨by rw [h.fix hsF]; exact min_le_left _ _, by rw [h.fix hsF]; exact le_max_left _ _, fun _ => h.fix hsF, fin (min_le_left _ _) (le_max_left _ _) ?_⟩
      rw [← hd']
      have := abs_nonneg d
      linarith
  obtain ⟨m1, m2, m3, m4⟩ := main _ rfl
  obtain ⟨n, e, b1, b2, b3, b4⟩ := toInt_spec t s x hs hx _ m1 m2
  have hcast : ((|x - s| : ℤ) : ℚ) = |d| := by rw [hd]; push_cast; rfl
  refine ⟨n, by rw [heq, e], b1, b2, ?_, ?_⟩
  · intro hz
    rw [hcast, ← hf] at hz
    exact b4 s (m3 hz)
  · rw [hcast, ← hf]
    push_cast
    have := abs_sub_le (x : ℚ) (rnd (s + rnd (d - Filter.clampQ d (-f) f))) n
    push_cast at m4
    linarith

/-- `HysteresisFilter<5, 2, int>` at 0 with input 10 -/
example := fun rnd h => C174_hysteresis_partial rnd h ⟨32, true⟩ (by decide) (Or.inl (by decide)) 5 2 0 10 (by decide) (by decide) (by norm_num) (by norm_num)

/-- **C174** (partial): hence, whatever the inputs of magnitude below 2^22, the state never leaves the range of the initial state and the inputs, and every call is defined. -/
theorem C174_range_partial (rnd : ℚ → ℚ) (h : Nearest rnd) (t : Ty) (hw : 0 < t.w) (ht : t.signed = true ∧ 32 ≤ t.w ∨ t.w < 32) (num div : Nat) (lo hi : Int) (hlo : InTy t lo) (hhi : InTy t hi) (blo : |lo| < 2 ^ 22) (bhi : |hi| < 2 ^ 22)
    (xs : List Int) (s : Int) (hs : lo ≤ s ∧ s ≤ hi) (hx : ∀ x ∈ xs, lo ≤ x ∧ x ≤ hi) : ∃ s', run rnd t num div xs s = .ok s' ∧ lo ≤ s' ∧ s' ≤ hi := by
  have hty : ∀ x, lo ≤ x ∧ x ≤ hi → InTy t x ∧ |x| < 2 ^ 22 := by
    intro x hx
    have b1 := abs_lt.mp blo
    have b2 := abs_lt.mp bhi
    exact ⟨inTy_between hlo hhi ⟨(min_le_left _ _).trans hx.1, hx.2.trans (le_max_right _ _)⟩, abs_lt.mpr ⟨by omega, by omega⟩⟩
  induction xs generalizing s with
  | nil => exact ⟨s, rfl, hs⟩
  | cons x xs ih =>
    have hx0 := hx x List.mem_cons_self
    obtain ⟨s1, e1, a, b, _⟩ := C174_hysteresis_partial rnd h t hw ht num div s x (hty s hs).1 (hty x hx0).1 (hty s hs).2 (hty x hx0).2
    have hs1 : lo ≤ s1 ∧ s1 ≤ hi := ⟨(le_min hs.1 hx0.1).trans a, b.trans (max_le hs.2 hx0.2)⟩
    obtain ⟨s', e', r⟩ := ih s1 hs1 (fun y hy => hx y (List.mem_cons_of_mem _ hy))
    exact ⟨s', by rw [run, e1, R.bind_ok, e'], r⟩

example := fun rnd h => C174_range_partial rnd h ⟨16, false⟩ (by decide) (Or.inr (by decide)) 5 2 0 4095 (by decide) (by decide) (by norm_num) (by norm_num) [17, 4000, 3] 100 (by decide) (by decide)

/-- **C174 is violated** by a 32-bit unsigned type: an input one below the state makes add_val undefined, for every rounding (the difference wraps, and the float sum is 2^32). -/
theorem C174_unsigned_violated (rnd : ℚ → ℚ) (h : Nearest rnd) : addVal rnd ⟨32, false⟩ 1 2 10 9 = .ub := by
  have r : rnd 4294967295 = 4294967296 := by
    rw [h.eq_of_close 4294967295 16777216 8 (by norm_num) (by norm_num) (by rw [abs_of_nonneg] <;> norm_num) (by rw [abs_lt]; norm_num)]
    norm_num
  have r2 : rnd (4294967296 - 1 / 2) = 4294967296 := by
    rw [h.eq_of_close (4294967296 - 1 / 2) 16777216 8 (by norm_num) (by norm_num) (by rw [abs_of_nonneg] <;> norm_num) (by rw [abs_lt]; norm_num)]
    norm_num
  have r3 : rnd (10 + 4294967296) = 4294967296 := by
    rw [h.eq_of_close (10 + 4294967296) 8388608 9 (by norm_num) (by norm_num) (by rw [abs_of_nonneg] <;> norm_num) (by rw [abs_lt]; norm_num)]
    norm_num
  have r10 : rnd 10 = 10 := h.fix (by have := f32_int 10 (by norm_num); exact_mod_cast this)
  have r1 : rnd 1 = 1 := h.fix f32_one
  have r22 : rnd 2 = 2 := h.fix (by have := f32_int 2 (by norm_num); exact_mod_cast this)
  have rh : rnd (1 / 2) = 1 / 2 := h.fix (by have := f32_div 1 (by norm_num) 1 (by norm_num); norm_num at this ⊢; exact this)
  have hd : diff ⟨32, false⟩ 9 10 = .ok 4294967295 := by decide
  unfold addVal
  rw [hd, R.bind_ok]
  simp only [FilterFloat.hysteresis, Filter.clampQ]
  push_cast
  rw [r, r10, r1, r22, rh, if_neg (by norm_num), if_pos (by norm_num), r2, r3]
  unfold toInt
  have hfl : ⌊(4294967296 : ℚ)⌋ = 4294967296 := by norm_num
  have h0 : (0 : ℚ) ≤ 4294967296 := by norm_num
  simp only [h0, if_true, hfl]
  decide

end HystInt
