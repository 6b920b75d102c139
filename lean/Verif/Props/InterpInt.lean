import Verif.Model.InterpInt
import Verif.Props.InterpFloat
import Verif.Props.HystInt
/-! # Property C175: interpolating arrays of integers -/

namespace InterpInt
open Flt ParamsInt Interp Interp.Spec HystInt

/-- Conversion of a float within 1/2 of a blend of two values of the type. -/
theorem toInt_blend (t : Ty) (a b : Int) (ha : InTy t a) (hb : InTy t b) (u q : ℚ) (u0 : 0 ≤ u) (u1 : u ≤ 1) (hq : |q - lerp a b u| ≤ 1 / 2) (hq0 : 0 ≤ a → 0 ≤ b → 0 ≤ q) :
    ∃ n : Int, toInt t q = .ok n ∧ min a b - 1 ≤ n ∧ n ≤ max a b + 1 ∧ |(n : ℚ) - lerp a b u| < 3 / 2 ∧ (0 ≤ a → 0 ≤ b → n ≤ max a b) ∧ (a ≤ 0 → b ≤ 0 → min a b ≤ n) := by
  obtain ⟨n, hn⟩ : ∃ n : Int, n = if 0 ≤ q then ⌊q⌋ else ⌈q⌉ := ⟨_, rfl⟩
  have hl : ((min a b : Int) : ℚ) ≤ lerp a b u := by
    push_cast
    unfold lerp
    rcases le_total a b with hab | hab
    · have : (a : ℚ) ≤ b := by exact_mod_cast hab
      rw [min_eq_left this]; nlinarith
    · have : (b : ℚ) ≤ a := by exact_mod_cast hab
      rw [min_eq_right this]; nlinarith
  have hh : lerp a b u ≤ ((max a b : Int) : ℚ) := by
    push_cast
    unfold lerp
    rcases le_total a b with hab | hab
    · have : (a : ℚ) ≤ b := by exact_mod_cast hab
      rw [max_eq_right this]; nlinarith
    · have : (b : ℚ) ≤ a := by exact_mod_cast hab
      rw [max_eq_left this]; nlinarith
  rw [abs_le] at hq
  have key : min a b - 1 ≤ n ∧ n ≤ max a b + 1 ∧ |q - n| < 1 ∧ (0 ≤ q → 0 ≤ n ∧ n ≤ max a b) ∧ (q < 0 → n ≤ 0 ∧ min a b ≤ n) := by
    rw [hn]
    split
    · next h0 =>
      have f1 := Int.floor_le q
      have f2 := Int.lt_floor_add_one q
      have g1 : ⌊q⌋ < max a b + 1 := by
        have : ((⌊q⌋ : ℤ) : ℚ) < ((max a b + 1 : ℤ) : ℚ) := by push_cast; push_cast at hh; linarith
        exact_mod_cast this
      have g2 : min a b - 2 < ⌊q⌋ := by
        have : ((min a b - 2 : ℤ) : ℚ) < ((⌊q⌋ : ℤ) : ℚ) := by push_cast; push_cast at hl; linarith
        exact_mod_cast this
      exact ⟨by omega, by omega, by rw [abs_lt]; constructor <;> linarith, fun _ => ⟨Int.floor_nonneg.mpr h0, by omega⟩, fun h => absurd h0 (not_le.mpr h)⟩
    · next h0 =>
      have f1 := Int.le_ceil q
      have f2 := Int.ceil_lt_add_one q
      have g1 : ⌈q⌉ < max a b + 2 := by
        have : ((⌈q⌉ : ℤ) : ℚ) < ((max a b + 2 : ℤ) : ℚ) := by push_cast; push_cast at hh; linarith
        exact_mod_cast this
      have g2 : min a b - 1 < ⌈q⌉ := by
        have : ((min a b - 1 : ℤ) : ℚ) < ((⌈q⌉ : ℤ) : ℚ) := by push_cast; push_cast at hl; linarith
        exact_mod_cast this
      refine ⟨by omega, by omega, by rw [abs_lt]; constructor <;> linarith, fun h => absurd h h0, fun h => ⟨?_, by omega⟩⟩
      rw [Int.ceil_le]; push_cast; linarith
  obtain ⟨k1, k2, k3, k4, k5⟩ := key
  have hin : InTy t n := by
    have h0 := inTy_zero t
    rcases lt_or_ge q 0 with h | h
    · obtain ⟨r1, r2⟩ := k5 h
      have : InTy t (min a b) := by rcases min_choice a b with e | e <;> rw [e] <;> assumption
      exact inTy_between this h0 ⟨(min_le_left _ _).trans r2, r1.trans (le_max_right _ _)⟩
    · obtain ⟨r1, r2⟩ := k4 h
      have : InTy t (max a b) := by rcases max_choice a b with e | e <;> rw [e] <;> assumption
      exact inTy_between h0 this ⟨(min_le_left _ _).trans r1, r2.trans (le_max_right _ _)⟩
  refine ⟨n, ?_, k1, k2, ?_, fun ha hb => (k4 (hq0 ha hb)).2, fun ha hb => ?_⟩
  · unfold toInt
    rw [← hn]
    simp only
    rw [if_pos hin]
  · rw [abs_lt] at k3 ⊢
    constructor <;> linarith
  · rcases lt_or_ge q 0 with h | h
    · exact (k5 h).2
    · exact (min_le_left a b).trans (ha.trans (k4 h).1)

theorem floats_eq (rnd : ℚ → ℚ) (h : Nearest rnd) (data : List Int) (hb : ∀ x ∈ data, |x| ≤ 2 ^ 20) : floats rnd data = data.map (fun x : Int => (x : ℚ)) := by
  unfold floats
  apply List.map_congr_left
  intro x hx
  exact h.fix (f32_int x (by have := hb x hx; linarith [show (2 : ℤ) ^ 20 < 2 ^ 24 by norm_num]))

theorem at_floats (data : List Int) (k : Nat) (hk : k < data.length) : at' (data.map (fun x : Int => (x : ℚ))) k = (data[k] : ℤ) := by
  unfold at'
  rw [List.getD_eq_getElem?_getD, List.getElem?_eq_getElem (by simpa using hk)]
  simp

theorem f32_grid_nat (n : ℕ) (hn : n ≤ 2 ^ 24) : F32 (n : ℚ) := by
  have := f32_grid (n : ℤ) 0 (by rw [abs_of_nonneg (by positivity)]; exact_mod_cast hn) (by norm_num)
  simpa using this

theorem mix_nonneg {rnd : ℚ → ℚ} (h : Nearest rnd) {a b u : ℚ} (ha : 0 ≤ a) (hb : 0 ≤ b) (u0 : 0 ≤ u) (u1 : u ≤ 1) : 0 ≤ InterpFloat.mix rnd a b u := by
  unfold InterpFloat.mix
  have w := h.ge f32_zero (show (0 : ℚ) ≤ 1 - u by linarith)
  have e1 := h.ge f32_zero (mul_nonneg hb u0)
  have e2 := h.ge f32_zero (mul_nonneg ha w)
  exact h.ge f32_zero (by linarith)

/-- **C175**: an array of integers of magnitude up to 2^20 of any integer type. interp_by_index_wrap at a float index between k and k+1 is defined, and at most one unit outside the range of the k-th and the next element (cyclically); it is within 3/2 of
the linear blend. With elements of one sign it is never further from zero than both. At an integer index it is exactly the element. interp_by_index gives the same inside the table. -/
theorem C175_by_index (rnd : ℚ → ℚ) (h : Nearest rnd) (t : Ty) (data : List Int) (hd : ∀ x ∈ data, InTy t x) (hb : ∀ x ∈ data, |x| ≤ 2 ^ 20) (hn1 : 0 < data.length) (hn : data.length ≤ 2 ^ 24) (x : ℚ) (hx : F32 x) (k : ℕ) (h0 : (k : ℚ) ≤ x) (h1 : x < k + 1)
    (hk : k < 2 ^ 24) (a b : Int) (ha : a = data[k % data.length]'(Nat.mod_lt _ hn1)) (hb' : b = data[(k + 1) % data.length]'(Nat.mod_lt _ hn1)) :
    ∃ n : Int, interpByIndexWrap rnd t data x = .ok n ∧ min a b - 1 ≤ n ∧ n ≤ max a b + 1 ∧ |(n : ℚ) - lerp a b (x - k)| < 3 / 2 ∧
      (0 ≤ a → 0 ≤ b → n ≤ max a b) ∧ (a ≤ 0 → b ≤ 0 → min a b ≤ n) ∧ (x = k → n = a) ∧ (k < data.length → interpByIndex rnd t data x = .ok n) := by
  have hl0 : k % data.length < data.length := Nat.mod_lt _ hn1
  have hl1 : (k + 1) % data.length < data.length := Nat.mod_lt _ hn1
  obtain ⟨fs, hfs⟩ : ∃ fs : List ℚ, fs = data.map (fun x : Int => (x : ℚ)) := ⟨_, rfl⟩
  have hlen : fs.length = data.length := by rw [hfs, List.length_map]
  have ea : at' fs (k % data.length) = a := by rw [hfs, at_floats data _ hl0, ha]
  have eb : at' fs ((k + 1) % data.length) = b := by rw [hfs, at_floats data _ hl1, hb']
  have hta : InTy t a := by rw [ha]; exact hd _ (List.getElem_mem hl0)
  have htb : InTy t b := by rw [hb']; exact hd _ (List.getElem_mem hl1)
  have ba : |(a : ℚ)| ≤ 2 ^ 20 := by
    have := hb a (by rw [ha]; exact List.getElem_mem hl0)
    exact_mod_cast this
  have bb : |(b : ℚ)| ≤ 2 ^ 20 := by
    have := hb b (by rw [hb']; exact List.getElem_mem hl1)
    exact_mod_cast this
  have aF : F32 (a : ℚ) := by
    refine f32_int a ?_
    have := hb a (by rw [ha]; exact List.getElem_mem hl0)
    linarith [show (2 : ℤ) ^ 20 < 2 ^ 24 by norm_num]
  have big : (2 : ℕ) ^ 24 < 4294967296 := by norm_num
  have u0 : 0 ≤ x - k := by linarith
  have u1 : x - k ≤ 1 := by linarith
  have ew : InterpFloat.interpByIndexWrap rnd fs x = .ok (InterpFloat.mix rnd a b (x - k)) := by
    unfold InterpFloat.interpByIndexWrap
    rw [trunc_cell _ k x h0 h1 (by omega), R.bind_ok, InterpArray.wrapIdx_eq _ (by omega)]
    simp only []
    rw [InterpFloat.phase_eq h x hx k h0 h1 hk, hlen, InterpFloat.blend_eq rnd fs _ (by omega), hlen, Nat.mod_add_mod, ea, eb]
    rfl
  have hclose := InterpFloat.mix_close h (f32_frac hx k h0 h1) u0 u1 ba bb
  have hsm : (4 * 2 ^ 20 / 2 ^ 24 + 1 / 2 ^ 148 : ℚ) ≤ 1 / 2 := by norm_num
  obtain ⟨n, e, r1, r2, r3, r4, r5⟩ := toInt_blend t a b hta htb (x - k) _ u0 u1 (hclose.trans hsm) (fun g1 g2 => mix_nonneg h (by exact_mod_cast g1) (by exact_mod_cast g2) u0 u1)
  refine ⟨n, ?_, r1, r2, r3, r4, r5, ?_, ?_⟩
  · unfold interpByIndexWrap
    rw [floats_eq rnd h data hb, ← hfs, ew, R.bind_ok, e]
  · intro hxk
    rw [hxk, sub_self, InterpFloat.mix_zero h aF] at e
    obtain ⟨n', e', _, _, _, r⟩ := toInt_spec t a a hta hta (a : ℚ) (by simp) (by simp)
    rw [e] at e'
    injection e' with e'
    rw [e']
    exact r a rfl
  · intro hkl
    unfold interpByIndex
    rw [floats_eq rnd h data hb, ← hfs]
    have : InterpFloat.interpByIndex rnd fs x = .ok (InterpFloat.mix rnd a b (x - k)) := by
      unfold InterpFloat.interpByIndex
      rw [trunc_cell _ k x h0 h1 (by omega), R.bind_ok]
      simp only []
      rw [InterpFloat.phase_eq h x hx k h0 h1 hk, InterpFloat.blend_eq rnd fs _ (by omega), hlen, eb, ← Nat.mod_eq_of_lt hkl, ea, Nat.mod_eq_of_lt hkl]
      rfl
    rw [this, R.bind_ok, e]

example (rnd : ℚ → ℚ) (h : Nearest rnd) := C175_by_index rnd h ⟨16, true⟩ [-32768, 32767, 5] (by decide) (by decide) (by decide) (by decide) 4 (by have := f32_int 4 (by norm_num); exact_mod_cast this) 4 (by norm_num) (by norm_num) (by norm_num) 32767 5 rfl rfl

/-- **C175**: interp(phase) for a phase in [0, 1] is defined and at most one unit outside the range of the elements; phase 0 gives exactly the first element, phase 1 the last. -/
theorem C175_interp (rnd : ℚ → ℚ) (h : Nearest rnd) (t : Ty) (data : List Int) (hd : ∀ x ∈ data, InTy t x) (hb : ∀ x ∈ data, |x| ≤ 2 ^ 20) (hn1 : 0 < data.length) (hn : data.length ≤ 2 ^ 24) (lo hi : Int) (hlo : ∀ x ∈ data, lo ≤ x ∧ x ≤ hi) (p : ℚ) (p0 : 0 ≤ p) (p1 : p ≤ 1) :
    ∃ n : Int, interp rnd t data p = .ok n ∧ lo - 1 ≤ n ∧ n ≤ hi + 1 ∧ (p = 0 → n = data[0]) ∧ (p = 1 → n = data[data.length - 1]) := by
  have hc : data.length - 1 < 2 ^ 24 := by omega
  have hcF : F32 ((data.length - 1 : ℕ) : ℚ) := by
    have := f32_int ((data.length - 1 : ℕ) : ℤ) (by rw [abs_of_nonneg (by positivity)]; exact_mod_cast hc)
    exact_mod_cast this
  obtain ⟨x, hx⟩ : ∃ x, x = rnd (p * rnd ((data.length - 1 : ℕ) : ℚ)) := ⟨_, rfl⟩
  have hfix : rnd ((data.length - 1 : ℕ) : ℚ) = ((data.length - 1 : ℕ) : ℚ) := h.fix hcF
  have cn : (0 : ℚ) ≤ ((data.length - 1 : ℕ) : ℚ) := Nat.cast_nonneg _
  have hxF : F32 x := by rw [hx]; exact h.f32 _
  have x0 : 0 ≤ x := by rw [hx, hfix]; exact h.ge f32_zero (by positivity)
  have x1 : x ≤ ((data.length - 1 : ℕ) : ℚ) := by rw [hx, hfix]; exact h.le hcF (by nlinarith)
  obtain ⟨k, hk0, hk1⟩ := cell x x0
  have hkl : k ≤ data.length - 1 := by
    have : (k : ℚ) ≤ ((data.length - 1 : ℕ) : ℚ) := hk0.trans x1
    exact_mod_cast this
  have hkd : k < data.length := by omega
  obtain ⟨n, _, r1, r2, _, _, _, r3, r4⟩ := C175_by_index rnd h t data hd hb hn1 hn x hxF k hk0 hk1 (by omega) _ _ rfl rfl
  have ma := hlo _ (List.getElem_mem (Nat.mod_lt k hn1))
  have mb := hlo _ (List.getElem_mem (Nat.mod_lt (k + 1) hn1))
  refine ⟨n, ?_, ?_, ?_, ?_, ?_⟩
  · unfold interp
    rw [← hx, r4 hkd]
  · have := le_min ma.1 mb.1
    omega
  · have := max_le ma.2 mb.2
    omega
  · intro hp
    have hx0 : x = 0 := by rw [hx, hp, zero_mul, h.zero]
    have hk' : k = 0 := by
      rw [hx0] at hk0
      have : k ≤ 0 := by exact_mod_cast hk0
      omega
    subst hk'
    have := r3 (by rw [hx0]; simp)
    simpa using this
  · intro hp
    have hxl : x = ((data.length - 1 : ℕ) : ℚ) := by rw [hx, hp, one_mul, hfix, hfix]
    have hk' : k = data.length - 1 := by
      rw [hxl] at hk1
      have : data.length - 1 < k + 1 := by exact_mod_cast hk1
      omega
    have := r3 (by rw [hxl, hk'])
    rw [this]
    congr 1
    rw [Nat.mod_eq_of_lt hkd, hk']

example (rnd : ℚ → ℚ) (h : Nearest rnd) := C175_interp rnd h ⟨16, true⟩ [-32768, 32767, 5] (by decide) (by decide) (by decide) (by decide) (-32768) 32767 (by decide) (1 / 3) (by norm_num) (by norm_num)

/-- **C175**: interp_wrap(phase) for a phase of at least 0 with phase * Size (as a float) below 2^24 is defined, lies at most one unit outside the range of the elements k and k+1 around phase * Size (cyclically), and gives exactly the first element at phase 0. -/
theorem C175_wrap (rnd : ℚ → ℚ) (h : Nearest rnd) (t : Ty) (data : List Int) (hd : ∀ x ∈ data, InTy t x) (hb : ∀ x ∈ data, |x| ≤ 2 ^ 20) (hn1 : 0 < data.length) (hn : data.length ≤ 2 ^ 24) (p : ℚ) (p0 : 0 ≤ p) (hp : rnd (p * data.length) < 2 ^ 24) :
    ∃ (n : Int) (k : ℕ), interpWrap rnd t data p = .ok n ∧ (k : ℚ) ≤ rnd (p * data.length) ∧ rnd (p * data.length) < k + 1 ∧
      min (data[k % data.length]'(Nat.mod_lt _ hn1)) (data[(k + 1) % data.length]'(Nat.mod_lt _ hn1)) - 1 ≤ n ∧
      n ≤ max (data[k % data.length]'(Nat.mod_lt _ hn1)) (data[(k + 1) % data.length]'(Nat.mod_lt _ hn1)) + 1 ∧ (p = 0 → n = data[0]) := by
  have hfix : rnd (data.length : ℚ) = data.length := h.fix (f32_grid_nat data.length hn)
  have cn : (0 : ℚ) ≤ (data.length : ℚ) := Nat.cast_nonneg _
  obtain ⟨x, hx⟩ : ∃ x, x = rnd (p * data.length) := ⟨_, rfl⟩
  have x0 : 0 ≤ x := by rw [hx]; exact h.ge f32_zero (by positivity)
  obtain ⟨k, hk0, hk1⟩ := cell x x0
  have hk : k < 2 ^ 24 := by
    rw [← hx] at hp
    have : (k : ℚ) < ((2 ^ 24 : ℕ) : ℚ) := by push_cast; linarith
    exact_mod_cast this
  obtain ⟨n, r0, r1, r2, _, _, _, r3, _⟩ := C175_by_index rnd h t data hd hb hn1 hn x (by rw [hx]; exact h.f32 _) k hk0 hk1 hk _ _ rfl rfl
  rw [← hx]
  refine ⟨n, k, ?_, hk0, hk1, r1, r2, ?_⟩
  · unfold interpWrap
    rw [hfix, ← hx, r0]
  · intro hz
    have hx0 : x = 0 := by rw [hx, hz, zero_mul, h.zero]
    have hk' : k = 0 := by
      rw [hx0] at hk0
      have : k ≤ 0 := by exact_mod_cast hk0
      omega
    subst hk'
    have := r3 (by rw [hx0]; simp)
    simpa using this

example (rnd : ℚ → ℚ) (h : Nearest rnd) := C175_wrap rnd h ⟨16, true⟩ [-32768, 32767] (by decide) (by decide) (by decide) (by decide) (5 / 2) (by norm_num) (lt_of_le_of_lt (h.le (by have := f32_int 5 (by norm_num); exact_mod_cast this) (by norm_num)) (by norm_num : (5 : ℚ) < 2 ^ 24))

/-- **C175 is violated** in that an array of equal integers does not always give that integer: the table {3, 3} reads 2 at a phase near 0.044, whichever way ties are rounded. -/
theorem C175_constant_violated (rnd : ℚ → ℚ) (hr : Nearest rnd) : F32 (11842569 / 2 ^ 28) ∧ interp rnd ⟨16, true⟩ [3, 3] (11842569 / 2 ^ 28) = .ok 2 := by
  have q : rnd (1 - 11842569 / 2 ^ 28) = (16037055 : ℤ) * (2 : ℚ) ^ (-24 : ℤ) :=
    hr.eq_of_close _ _ _ (by norm_num) (by norm_num) (by rw [abs_of_nonneg] <;> norm_num) (by rw [abs_lt]; norm_num)
  have a : rnd (3 * (11842569 / 2 ^ 28)) = (8881927 : ℤ) * (2 : ℚ) ^ (-26 : ℤ) :=
    hr.eq_of_close _ _ _ (by norm_num) (by norm_num) (by rw [abs_of_nonneg] <;> norm_num) (by rw [abs_lt]; norm_num)
  have b : rnd (3 * ((16037055 : ℤ) * (2 : ℚ) ^ (-24 : ℤ))) = (12027791 : ℤ) * (2 : ℚ) ^ (-22 : ℤ) :=
    hr.eq_of_close _ _ _ (by norm_num) (by norm_num) (by rw [abs_of_nonneg] <;> norm_num) (by rw [abs_lt]; norm_num)
  have x : rnd ((8881927 : ℤ) * (2 : ℚ) ^ (-26 : ℤ) + (12027791 : ℤ) * (2 : ℚ) ^ (-22 : ℤ)) = (12582911 : ℤ) * (2 : ℚ) ^ (-22 : ℤ) :=
    hr.eq_of_close _ _ _ (by norm_num) (by norm_num) (by rw [abs_of_nonneg] <;> norm_num) (by rw [abs_lt]; norm_num)
  have hF : F32 (11842569 / 2 ^ 28) := by have := f32_div 11842569 (by norm_num) 28 (by norm_num); norm_num at this ⊢; exact this
  refine ⟨hF, ?_⟩
  have hm : InterpFloat.mix rnd 3 3 (11842569 / 2 ^ 28) = (12582911 : ℤ) * (2 : ℚ) ^ (-22 : ℤ) := by
    unfold InterpFloat.mix; rw [q, a, b, x]
  have e1 : rnd (11842569 / 2 ^ 28 * rnd ((([3, 3] : List Int).length - 1 : ℕ) : ℚ)) = 11842569 / 2 ^ 28 := by
    have : ((([3, 3] : List Int).length - 1 : ℕ) : ℚ) = 1 := by norm_num
    rw [this, hr.fix f32_one, mul_one, hr.fix hF]
  unfold interp interpByIndex
  rw [e1, floats_eq rnd hr _ (by decide)]
  unfold InterpFloat.interpByIndex
  rw [trunc_cell _ 0 _ (by norm_num) (by norm_num) (by norm_num), R.bind_ok]
  simp only []
  rw [Nat.cast_zero, hr.zero, sub_zero, hr.fix hF, InterpFloat.blend_eq rnd _ 0 (by simp)]
  have h3 : ∀ j, j < 2 → at' (([3, 3] : List Int).map (fun x : Int => (x : ℚ))) j = 3 := by
    intro j hj
    have := at_floats [3, 3] j hj
    rw [this]
    rcases (by omega : j = 0 ∨ j = 1) with rfl | rfl <;> norm_num
  rw [h3 _ (by simp), h3 0 (by norm_num), R.bind_ok]
  have : rnd (rnd (3 * (11842569 / 2 ^ 28)) + rnd (3 * rnd (1 - 11842569 / 2 ^ 28))) = (12582911 : ℤ) * (2 : ℚ) ^ (-22 : ℤ) := hm
  rw [this]
  unfold toInt
  have f : ⌊((12582911 : ℤ) : ℚ) * (2 : ℚ) ^ (-22 : ℤ)⌋ = 2 := by rw [Int.floor_eq_iff]; norm_num
  have p : (0 : ℚ) ≤ ((12582911 : ℤ) : ℚ) * (2 : ℚ) ^ (-22 : ℤ) := by positivity
  simp only [p, if_true, f]
  decide

end InterpInt
