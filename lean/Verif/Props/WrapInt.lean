import Verif.Model.WrapInt
import Verif.Props.FilterInt
/-! # Property C177: wrap in narrow and unsigned types, wrap<Max> on signed types -/

namespace WrapInt
open ParamsInt FilterInt

theorem conv_eq_add (t : Ty) (x : Int) : ∃ z, conv t x = x + 2 ^ t.w * z := by
  unfold conv
  split
  · refine ⟨-((x + 2 ^ (t.w - 1)) / 2 ^ t.w), ?_⟩
    have := Int.emod_add_mul_ediv (x + 2 ^ (t.w - 1)) (2 ^ t.w)
    linarith
  · refine ⟨-(x / 2 ^ t.w), ?_⟩
    have := Int.emod_add_mul_ediv x (2 ^ t.w)
    linarith

theorem conv_sub_conv (t : Ty) (a b : Int) : conv t (a - conv t b) = conv t (a - b) := by
  obtain ⟨z, hz⟩ := conv_eq_add t b
  rw [hz, show a - (b + 2 ^ t.w * z) = a - b + 2 ^ t.w * (-z) by ring, conv_add_mul]

theorem conv_add_conv (t : Ty) (a b : Int) : conv t (a + conv t b) = conv t (a + b) := by
  obtain ⟨z, hz⟩ := conv_eq_add t b
  rw [hz, show a + (b + 2 ^ t.w * z) = a + b + 2 ^ t.w * z by ring, conv_add_mul]

/-- **C177**: `wrap(val, min, max)` in a type that is unsigned or narrower than `int` ends, with a value between min and max that differs from val by a whole number of periods, for all values and all bounds min ≤ max of the type. -/
theorem C177_wrap (t : Ty) (hw : 0 < t.w) (val min max : Int) (hv : InTy t val) (h1 : InTy t min) (h2 : InTy t max) (h : min ≤ max) :
    ∃ r fuel, (∀ f, fuel ≤ f → wrap t f val min max = some r) ∧ min ≤ r ∧ r ≤ max ∧ (max - min + 1) ∣ (r - val) := by
  obtain ⟨p, hp⟩ : ∃ p, p = max - min + 1 := ⟨_, rfl⟩
  have p0 : 0 < p := by omega
  -- down
  have hdown : ∀ (n : Nat) (v : Int), InTy t v → v - max ≤ n → ∃ r, (∀ f, n < f → down t (conv t p) max f v = some r) ∧ r ≤ max ∧ InTy t r ∧ p ∣ (r - v) ∧ (min ≤ r ∨ r = v) := by
    intro n
    induction n with
    | zero =>
      intro v hv hn
      refine ⟨v, ?_, by push_cast at hn; omega, hv, by simp, Or.inr rfl⟩
      intro f hf
      obtain ⟨g, rfl⟩ : ∃ g, f = g + 1 := ⟨f - 1, by omega⟩
      rw [down, if_neg (by push_cast at hn; omega)]
    | succ n ih =>
      intro v hv hn
      by_cases hc : v > max
      · have hlo : min ≤ v - p := by omega
        have hin : InTy t (v - p) := inTy_between h1 hv ⟨(min_le_left _ _).trans hlo, (by omega : v - p ≤ v).trans (le_max_right _ _)⟩
        obtain ⟨r, e, b1, b2, b3, b4⟩ := ih (v - p) hin (by push_cast at hn; omega)
        refine ⟨r, ?_, b1, b2, ?_, Or.inl ?_⟩
        · intro f hf
          obtain ⟨g, rfl⟩ : ∃ g, f = g + 1 := ⟨f - 1, by omega⟩
          rw [down, if_pos hc, conv_sub_conv, conv_id hw hin]
          exact e g (by omega)
        · have : r - v = r - (v - p) - p := by ring
          rw [this]
          exact dvd_sub b3 dvd_rfl
        · rcases b4 with b4 | b4 <;> omega
      · refine ⟨v, ?_, by omega, hv, by simp, Or.inr rfl⟩
        intro f hf
        obtain ⟨g, rfl⟩ : ∃ g, f = g + 1 := ⟨f - 1, by omega⟩
        rw [down, if_neg hc]
  have hup : ∀ (n : Nat) (v : Int), InTy t v → v ≤ max → min - v ≤ n → ∃ r, (∀ f, n < f → up t (conv t p) min f v = some r) ∧ min ≤ r ∧ r ≤ max ∧ p ∣ (r - v) := by
    intro n
    induction n with
    | zero =>
      intro v hv hm hn
      refine ⟨v, ?_, by push_cast at hn; omega, hm, by simp⟩
      intro f hf
      obtain ⟨g, rfl⟩ : ∃ g, f = g + 1 := ⟨f - 1, by omega⟩
      rw [up, if_neg (by push_cast at hn; omega)]
    | succ n ih =>
      intro v hv hm hn
      by_cases hc : v < min
      · have hhi : v + p ≤ max := by omega
        have hin : InTy t (v + p) := inTy_between hv h2 ⟨(min_le_left _ _).trans (by omega : v ≤ v + p), hhi.trans (le_max_right _ _)⟩
        obtain ⟨r, e, b1, b2, b3⟩ := ih (v + p) hin hhi (by push_cast at hn; omega)
        refine ⟨r, ?_, b1, b2, ?_⟩
        · intro f hf
          obtain ⟨g, rfl⟩ : ∃ g, f = g + 1 := ⟨f - 1, by omega⟩
          rw [up, if_pos hc, conv_add_conv, conv_id hw hin]
          exact e g (by omega)
        · have : r - v = r - (v + p) + p := by ring
          rw [this]
          exact dvd_add b3 dvd_rfl
      · refine ⟨v, ?_, by omega, hm, by simp⟩
        intro f hf
        obtain ⟨g, rfl⟩ : ∃ g, f = g + 1 := ⟨f - 1, by omega⟩
        rw [up, if_neg hc]
  obtain ⟨r1, e1, a1, a2, a3, _⟩ := hdown (val - max).toNat val hv (by omega)
  obtain ⟨r2, e2, c1, c2, c3⟩ := hup (min - r1).toNat r1 a2 a1 (by omega)
  refine ⟨r2, (val - max).toNat + (min - r1).toNat + 1, ?_, c1, c2, ?_⟩
  · intro f hf
    unfold wrap
    rw [← hp]
    simp only
    rw [e1 f (by omega), Option.bind_some, e2 f (by omega)]
  · rw [← hp]
    have : r2 - val = (r2 - r1) + (r1 - val) := by ring
    rw [this]
    exact dvd_add c3 a3

example := C177_wrap ⟨8, true⟩ (by decide) 101 (-100) 100 (by decide) (by decide) (by decide) (by decide)
/-- In `int8_t` the period 201 does not fit and is stored as -55; the result is right all the same. -/
example : wrap ⟨8, true⟩ 5 101 (-100) 100 = some (-100) := by decide

/-- What `wrap<Max, T>` computes for every 32-bit type: the remainder of the value taken as unsigned. -/
theorem wrapMax_exact (t : Ty) (ht : t.w = 32) (max : Nat) (hm : 0 < max) (val : Int) : ∃ r fuel, (∀ f, fuel ≤ f → wrapMax t max f val = some r) ∧ r % 4294967296 = val % 4294967296 % max ∧ (InTy t val → InTy t r) := by
  have key : ∀ (n : Nat) (v : Int), v % 4294967296 ≤ n → ∃ r, (∀ f, n < f → wrapMax t max f v = some r) ∧ r % 4294967296 = v % 4294967296 % max ∧ (InTy t v → InTy t r) := by
    intro n
    induction n with
    | zero =>
      intro v hn
      have h0 : v % 4294967296 = 0 := by
        have := Int.emod_nonneg v (show (4294967296 : Int) ≠ 0 by decide)
        push_cast at hn
        omega
      refine ⟨v, ?_, by rw [h0]; simp, id⟩
      intro f hf
      obtain ⟨g, rfl⟩ : ∃ g, f = g + 1 := ⟨f - 1, by omega⟩
      rw [wrapMax, if_neg (by omega)]
    | succ n ih =>
      intro v hn
      by_cases hc : v % 4294967296 ≥ max
      · obtain ⟨z, hz⟩ := conv_eq_add t (v - max)
        rw [ht] at hz
        have hmod : conv t (v - max) % 4294967296 = v % 4294967296 - max := by
          rw [hz]
          omega
        obtain ⟨r, e, b, b2⟩ := ih (conv t (v - max)) (by rw [hmod]; push_cast at hn; omega)
        refine ⟨r, ?_, ?_, fun _ => b2 ?_⟩
        · intro f hf
          obtain ⟨g, rfl⟩ : ∃ g, f = g + 1 := ⟨f - 1, by omega⟩
          rw [wrapMax, if_pos hc]
          exact e g (by omega)
        · rw [b, hmod, Int.sub_emod_right]
        · unfold InTy conv
          rw [ht]
          norm_num
          split <;> omega
      · refine ⟨v, ?_, ?_, id⟩
        · intro f hf
          obtain ⟨g, rfl⟩ : ∃ g, f = g + 1 := ⟨f - 1, by omega⟩
          rw [wrapMax, if_neg hc]
        · rw [Int.emod_eq_of_lt (b := (max : Int)) (Int.emod_nonneg _ (by decide)) (by omega)]
  obtain ⟨r, e, b⟩ := key (val % 4294967296).toNat val (by
    have := Int.emod_nonneg val (show (4294967296 : Int) ≠ 0 by decide)
    omega)
  exact ⟨r, (val % 4294967296).toNat + 1, fun f hf => e f (by omega), b⟩

/-- **C177** (partial): `wrap<Max, T>` on a non-negative value of any integer type of at most 32 bits gives the remainder. Missing: negative values. -/
theorem C177_wrap_max_partial (t : Ty) (hw : 0 < t.w ∧ t.w ≤ 32) (max : Nat) (hm : 0 < max) (val : Int) (hv : InTy t val) (h0 : 0 ≤ val) :
    ∃ fuel, ∀ f, fuel ≤ f → wrapMax t max f val = some (val % max) := by
  have key : ∀ (n : Nat) (v : Int), InTy t v → 0 ≤ v → v ≤ n → ∀ f, n < f → wrapMax t max f v = some (v % max) := by
    intro n
    induction n with
    | zero =>
      intro v hv h0 hn f hf
      obtain ⟨g, rfl⟩ : ∃ g, f = g + 1 := ⟨f - 1, by omega⟩
      have : v = 0 := by push_cast at hn; omega
      subst this
      rw [wrapMax, if_neg (by omega)]
      simp
    | succ n ih =>
      intro v hv h0 hn f hf
      obtain ⟨g, rfl⟩ : ∃ g, f = g + 1 := ⟨f - 1, by omega⟩
      have hlt : v < 4294967296 := by
        have a1 : (2 : ℤ) ^ (t.w - 1) ≤ 2 ^ 32 := pow_le_pow_right₀ (by norm_num) (by omega)
        have a2 : (2 : ℤ) ^ t.w ≤ 2 ^ 32 := pow_le_pow_right₀ (by norm_num) (by omega)
        norm_num at a1 a2
        unfold InTy at hv
        split at hv <;> omega
      rw [wrapMax, Int.emod_eq_of_lt h0 hlt]
      by_cases hc : v ≥ max
      · have hin : InTy t (v - max) := inTy_between (inTy_zero t) hv ⟨(min_le_left _ _).trans (by omega), (by omega : v - max ≤ v).trans (le_max_right _ _)⟩
        rw [if_pos hc, conv_id hw.1 hin, ih (v - max) hin (by omega) (by push_cast at hn; omega) g (by omega), Int.sub_emod_right]
      · rw [if_neg hc, Int.emod_eq_of_lt h0 (by omega)]
  exact ⟨val.toNat + 1, fun f hf => key val.toNat val hv h0 (by omega) f (by omega)⟩

example := C177_wrap_max_partial ⟨8, true⟩ (by decide) 10 (by decide) 99 (by decide) (by decide)

/-- **C177 is violated** by negative values: `wrap<10, int>(-1)` ends (after 429496729 turns) with 5, not 9; `wrap<12, int8_t>(-1)` with 3, not 11. -/
theorem C177_negative_violated : (∃ fuel, ∀ f, fuel ≤ f → wrapMax ⟨32, true⟩ 10 f (-1) = some 5) ∧ wrapMax ⟨8, true⟩ 12 30 (-1) = some 3 := by
  constructor
  · obtain ⟨r, fuel, e, b, ty⟩ := wrapMax_exact ⟨32, true⟩ rfl 10 (by decide) (-1)
    have h1 := ty (by decide)
    unfold InTy at h1
    norm_num at h1 b
    have : r = 5 := by omega
    exact ⟨fuel, fun f hf => by rw [e f hf, this]⟩
  · decide +kernel

end WrapInt
