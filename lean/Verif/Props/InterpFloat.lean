import Verif.Props.LookupFloat
/-! # Property C147: InterpArray in binary32 -/

namespace InterpFloat
open Flt Interp Interp.Spec

theorem blend_eq (rnd : ℚ → ℚ) (data : List ℚ) (k : ℕ) (h : k < data.length) (t : ℚ) :
    blend rnd data k t = .ok (rnd (rnd (at' data ((k + 1) % data.length) * t) + rnd (at' data k * rnd (1 - t)))) := by
  unfold blend
  have e : (if k = data.length - 1 then 0 else k + 1) = (k + 1) % data.length := by
    split
    · next hk => rw [hk, Nat.sub_add_cancel (by omega), Nat.mod_self]
    · rw [Nat.mod_eq_of_lt (by omega)]
  simp only [e]
  rw [get_at data _ (Nat.mod_lt _ (by omega)), R.bind_ok, get_at data k h, R.bind_ok]

/-- The blend of two elements, rounded. -/
def mix (rnd : ℚ → ℚ) (a b t : ℚ) : ℚ := rnd (rnd (b * t) + rnd (a * rnd (1 - t)))

theorem mix_zero {rnd : ℚ → ℚ} (h : Nearest rnd) {a b : ℚ} (ha : F32 a) : mix rnd a b 0 = a := by
  unfold mix
  rw [mul_zero, h.zero, sub_zero, h.fix f32_one, mul_one, h.fix ha, zero_add, h.fix ha]

theorem mix_close {rnd : ℚ → ℚ} (h : Nearest rnd) {a b t B : ℚ} (ht : F32 t) (ht0 : 0 ≤ t) (ht1 : t ≤ 1) (haB : |a| ≤ B) (hbB : |b| ≤ B) : |mix rnd a b t - lerp a b t| ≤ 4 * B / 2 ^ 24 + 1 / 2 ^ 148 := by
  have hB0 : 0 ≤ B := le_trans (abs_nonneg _) haB
  unfold mix lerp
  have s1 := h.sub_rel f32_one ht
  rw [abs_of_nonneg (sub_nonneg.mpr ht1)] at s1
  have hw0 : 0 ≤ rnd (1 - t) := h.ge f32_zero (by linarith)
  have hw1 : rnd (1 - t) ≤ 1 := h.le f32_one (by linarith)
  generalize rnd (1 - t) = w at s1 hw0 hw1
  have s2 := h.rel (b * t)
  have s3 := h.rel (a * w)
  have s4 := h.add_rel (h.f32 (b * t)) (h.f32 (a * w))
  have m1 : |b * t| ≤ B * t := by rw [abs_mul, abs_of_nonneg ht0]; exact mul_le_mul_of_nonneg_right hbB ht0
  have m2 : |a * w| ≤ B * w := by rw [abs_mul, abs_of_nonneg hw0]; exact mul_le_mul_of_nonneg_right haB hw0
  have m3 : |a * w - a * (1 - t)| ≤ B * ((1 - t) / 2 ^ 24) := by
    rw [← mul_sub, abs_mul]; exact mul_le_mul haB s1 (abs_nonneg _) hB0
  have m4 : |b * t + a * (1 - t)| ≤ B := by
    have e : |b * t| + |a * (1 - t)| ≤ B * t + B * (1 - t) := by
      rw [abs_mul a, abs_of_nonneg (sub_nonneg.mpr ht1)]
      have := mul_le_mul_of_nonneg_right haB (sub_nonneg.mpr ht1)
      linarith
    have := abs_add_le (b * t) (a * (1 - t))
    linarith
  have hw2 : w ≤ (1 - t) + (1 - t) / 2 ^ 24 := by have := (abs_le.mp s1).2; linarith
  have m5 : B * w ≤ B * (1 - t) + B * (1 - t) / 2 ^ 24 := by
    have := mul_le_mul_of_nonneg_left hw2 hB0
    linarith
  have hBt : 0 ≤ B * t := mul_nonneg hB0 ht0
  have hBt1 : 0 ≤ B * (1 - t) := mul_nonneg hB0 (by linarith)
  have hsum : B * t + B * (1 - t) = B := by ring
  have m3' : |a * w - a * (1 - t)| ≤ B * (1 - t) / 2 ^ 24 := by linarith
  generalize rnd (b * t) = x at *
  generalize rnd (a * w) = y at *
  generalize B * t = P at *
  generalize B * (1 - t) = Q at *
  have key : |x + y - (b * t + a * (1 - t))| ≤ 21 / 10 * B / 2 ^ 24 + 2 / 2 ^ 150 := by
    have e : x + y - (b * t + a * (1 - t)) = (x - b * t) + ((y - a * w) + (a * w - a * (1 - t))) := by ring
    rw [e]
    have a1 := abs_add_le (x - b * t) ((y - a * w) + (a * w - a * (1 - t)))
    have a2 := abs_add_le (y - a * w) (a * w - a * (1 - t))
    norm_num at *
    linarith
  have m6 : |x + y| ≤ 11 / 10 * B + 2 / 2 ^ 150 := by
    have := abs_add_le (x + y - (b * t + a * (1 - t))) (b * t + a * (1 - t))
    rw [sub_add_cancel] at this
    norm_num at *
    linarith
  have := abs_sub_le (rnd (x + y)) (x + y) (b * t + a * (1 - t))
  rw [show a + (b - a) * t = b * t + a * (1 - t) by ring]
  norm_num at *
  linarith

theorem phase_eq {rnd : ℚ → ℚ} (h : Nearest rnd) (x : ℚ) (hx : F32 x) (k : ℕ) (h0 : (k : ℚ) ≤ x) (h1 : x < k + 1) (hk : k < 2 ^ 24) : rnd (x - rnd k) = x - k := by
  rw [nat_fix h k hk, h.fix (f32_frac hx k h0 h1)]

/-- **C147**: in binary32, interp_by_index at an index between 0 and Size - 1 reads inside the table and is within 4 2^-24 B of the linear blend of the two elements around the index, B bounding them; at an integer index it is exactly the element. -/
theorem C147_by_index (rnd : ℚ → ℚ) (h : Nearest rnd) (data : List ℚ) (hd : ∀ p ∈ data, F32 p) (hn : data.length ≤ 2 ^ 24) (x : ℚ) (hx : F32 x) (k : ℕ) (h0 : (k : ℚ) ≤ x) (h1 : x < k + 1) (B : ℚ) (hB : ∀ p ∈ data, |p| ≤ B) :
    (k + 1 < data.length → ∃ r, interpByIndex rnd data x = .ok r ∧ |r - lerp (at' data k) (at' data (k + 1)) (x - k)| ≤ 4 * B / 2 ^ 24 + 1 / 2 ^ 148) ∧
    (k < data.length → interpByIndex rnd data k = .ok (at' data k)) := by
  have hBat : ∀ j, j < data.length → |at' data j| ≤ B := by
    intro j hj
    unfold at'
    rw [List.getD_eq_getElem?_getD, List.getElem?_eq_getElem hj]
    exact hB _ (List.getElem_mem hj)
  have big : (2 : ℕ) ^ 24 < 4294967296 := by norm_num
  constructor
  · intro hk
    unfold interpByIndex
    rw [trunc_cell _ k x h0 h1 (by omega), R.bind_ok]
    simp only []
    rw [phase_eq h x hx k h0 h1 (by omega), blend_eq rnd data k (by omega), Nat.mod_eq_of_lt hk]
    exact ⟨_, rfl, mix_close h (f32_frac hx k h0 h1) (by linarith) (by linarith) (hBat k (by omega)) (hBat (k + 1) hk)⟩
  · intro hk
    unfold interpByIndex
    rw [trunc_cell _ k k le_rfl (by linarith) (by omega), R.bind_ok]
    simp only []
    rw [nat_fix h k (by omega), sub_self, h.zero, blend_eq rnd data k hk]
    exact congrArg R.ok (mix_zero h (at_f32 data hd k))

example (rnd : ℚ → ℚ) (h : Nearest rnd) := C147_by_index rnd h [1, 0, 1] (by intro p hp; simp at hp; rcases hp with rfl | rfl | rfl; exacts [f32_one, f32_zero, f32_one]) (by norm_num) 1 f32_one 1 (by norm_num) (by norm_num) 1 (by intro p hp; simp at hp; rcases hp with rfl | rfl | rfl <;> norm_num)

/-- **C147**: in binary32, interp(phase) for a float phase in [0, 1] reads inside the table and is within (2 n D + 4 B) 2^-24 of the broken line through the elements at phase * (Size - 1), D bounding the distance of neighbours and B the elements;
0 gives exactly the first element and 1 the last. closest(phase) reads inside the table. -/
theorem C147_interp (rnd : ℚ → ℚ) (h : Nearest rnd) (data : List ℚ) (hd : ∀ p ∈ data, F32 p) (hn1 : 1 ≤ data.length) (hn : data.length ≤ 2 ^ 24) (p : ℚ) (hp0 : 0 ≤ p) (hp1 : p ≤ 1) (D B : ℚ) (hD0 : 0 ≤ D) (hB : ∀ p ∈ data, |p| ≤ B)
    (hD : ∀ k, k + 1 < data.length → |at' data (k + 1) - at' data k| ≤ D) :
    (∃ r, interp rnd data p = .ok r ∧ |r - line (at' data) (data.length - 1) (p * ((data.length - 1 : ℕ) : ℚ))| ≤ (2 * data.length * D + 4 * B) / 2 ^ 24 + D / 2 ^ 150 + 1 / 2 ^ 148) ∧
    interp rnd data 0 = .ok (at' data 0) ∧ interp rnd data 1 = .ok (at' data (data.length - 1)) ∧ ∃ j, j < data.length ∧ closest rnd data p = .ok (at' data j) := by
  have hc : data.length - 1 < 2 ^ 24 := by omega
  have big : (2 : ℕ) ^ 24 < 4294967296 := by norm_num
  have hM0 : (0 : ℚ) ≤ ((data.length - 1 : ℕ) : ℚ) := Nat.cast_nonneg _
  have hMF : F32 ((data.length - 1 : ℕ) : ℚ) := by rw [← nat_fix h _ hc]; exact h.f32 _
  have hB0 : 0 ≤ B := le_trans (abs_nonneg _) (hB _ (List.getElem_mem (show 0 < data.length by omega)))
  -- the index
  have i0 : 0 ≤ rnd (p * ((data.length - 1 : ℕ) : ℚ)) := h.ge f32_zero (by positivity)
  have i1 : rnd (p * ((data.length - 1 : ℕ) : ℚ)) ≤ ((data.length - 1 : ℕ) : ℚ) := h.le hMF (by nlinarith)
  have iF : F32 (rnd (p * ((data.length - 1 : ℕ) : ℚ))) := h.f32 _
  have ic : |rnd (p * ((data.length - 1 : ℕ) : ℚ)) - p * ((data.length - 1 : ℕ) : ℚ)| ≤ ((data.length - 1 : ℕ) : ℚ) / 2 ^ 24 + 1 / 2 ^ 150 := by
    refine le_trans (h.rel _) ?_
    rw [abs_of_nonneg (by positivity)]
    have : p * ((data.length - 1 : ℕ) : ℚ) ≤ ((data.length - 1 : ℕ) : ℚ) := by nlinarith
    have := div_le_div_of_nonneg_right this (show (0 : ℚ) ≤ 2 ^ 24 by norm_num)
    linarith
  obtain ⟨j, hj0, hj1⟩ := cell _ i0
  have hjl : j < data.length := by
    have : (j : ℚ) ≤ ((data.length - 1 : ℕ) : ℚ) := le_trans hj0 i1
    have : j ≤ data.length - 1 := by exact_mod_cast this
    omega
  have at_exact : ∀ k : ℕ, k < data.length → interpByIndex rnd data k = .ok (at' data k) := by
    intro k hk
    have kF : F32 (k : ℚ) := by rw [← nat_fix h k (by omega)]; exact h.f32 _
    exact (C147_by_index rnd h data hd hn k kF k le_rfl (by linarith) B hB).2 hk
  refine ⟨?_, ?_, ?_, ?_⟩
  · unfold interp
    rw [nat_fix h _ hc]
    have hlip := line_close (at' data) D (data.length - 1) hD0 (fun k hk => hD k (by omega)) (p * ((data.length - 1 : ℕ) : ℚ)) (rnd (p * ((data.length - 1 : ℕ) : ℚ)))
    have hlip2 := le_trans hlip (mul_le_mul_of_nonneg_left ic hD0)
    have hlen : ((data.length - 1 : ℕ) : ℚ) ≤ data.length := by exact_mod_cast (show data.length - 1 ≤ data.length by omega)
    have hDM : D * ((data.length - 1 : ℕ) : ℚ) ≤ D * data.length := mul_le_mul_of_nonneg_left hlen hD0
    have hDn : 0 ≤ D * (data.length : ℚ) := by positivity
    have ev : ∃ r, interpByIndex rnd data (rnd (p * ((data.length - 1 : ℕ) : ℚ))) = .ok r ∧ |r - line (at' data) (data.length - 1) (rnd (p * ((data.length - 1 : ℕ) : ℚ)))| ≤ 4 * B / 2 ^ 24 + 1 / 2 ^ 148 := by
      by_cases hl : j + 1 < data.length
      · obtain ⟨r, e1, e2⟩ := (C147_by_index rnd h data hd hn _ iF j hj0 hj1 B hB).1 hl
        refine ⟨r, e1, ?_⟩
        rw [line_cell _ _ j (by omega) hj0 hj1.le]; exact e2
      · have ej : j = data.length - 1 := by omega
        have ex : rnd (p * ((data.length - 1 : ℕ) : ℚ)) = ((data.length - 1 : ℕ) : ℚ) := le_antisymm i1 (by rw [ej] at hj0; exact hj0)
        rw [ex]
        refine ⟨_, at_exact (data.length - 1) (by omega), ?_⟩
        rw [line_high _ _ le_rfl, sub_self, abs_zero]
        positivity
    obtain ⟨r, e1, e2⟩ := ev
    refine ⟨r, e1, ?_⟩
    have := abs_sub_le r (line (at' data) (data.length - 1) (rnd (p * ((data.length - 1 : ℕ) : ℚ)))) (line (at' data) (data.length - 1) (p * ((data.length - 1 : ℕ) : ℚ)))
    have e3 : (2 * data.length * D + 4 * B) / 2 ^ 24 + D / 2 ^ 150 + 1 / 2 ^ 148 = 4 * B / 2 ^ 24 + 1 / 2 ^ 148 + (D * data.length / 2 ^ 24 + D / 2 ^ 150) + D * data.length / 2 ^ 24 := by ring
    rw [e3]
    have e4 : D * (((data.length - 1 : ℕ) : ℚ) / 2 ^ 24 + 1 / 2 ^ 150) = D * ((data.length - 1 : ℕ) : ℚ) / 2 ^ 24 + D / 2 ^ 150 := by ring
    rw [e4] at hlip2
    have e5 : D * ((data.length - 1 : ℕ) : ℚ) / 2 ^ 24 ≤ D * data.length / 2 ^ 24 := div_le_div_of_nonneg_right hDM (by norm_num)
    have e6 : 0 ≤ D * (data.length : ℚ) / 2 ^ 24 := by positivity
    linarith
  · unfold interp
    rw [zero_mul, h.zero]
    exact_mod_cast at_exact 0 (by omega)
  · unfold interp
    rw [one_mul, nat_fix h _ hc, nat_fix h _ hc]
    exact at_exact (data.length - 1) (by omega)
  · refine ⟨j, hjl, ?_⟩
    unfold closest
    rw [nat_fix h _ hc, trunc_cell _ j _ hj0 hj1 (by omega), R.bind_ok, get_at _ _ hjl]

/-- **C147**: in binary32, interp_wrap and closest_wrap read inside the table for every phase with 0 ≤ phase * Size < 2^32 (after rounding); interp_by_index_wrap is within 4 2^-24 B of the blend of the cyclic neighbours (index below 2^24). -/
theorem C147_wrap (rnd : ℚ → ℚ) (h : Nearest rnd) (data : List ℚ) (hn1 : 1 ≤ data.length) (hn : data.length ≤ 2 ^ 24) (B : ℚ) (hB : ∀ p ∈ data, |p| ≤ B) :
    (∀ p, 0 ≤ p → rnd (p * rnd data.length) < 2 ^ 32 → (∃ r, interpWrap rnd data p = .ok r) ∧ ∃ j, j < data.length ∧ closestWrap rnd data p = .ok (at' data j)) ∧
    (∀ (x : ℚ) (k : ℕ), F32 x → (k : ℚ) ≤ x → x < k + 1 → k < 2 ^ 24 →
      ∃ r, interpByIndexWrap rnd data x = .ok r ∧ |r - lerp (at' data (k % data.length)) (at' data ((k + 1) % data.length)) (x - k)| ≤ 4 * B / 2 ^ 24 + 1 / 2 ^ 148) := by
  have hl : 0 < data.length := by omega
  have hBat : ∀ j, j < data.length → |at' data j| ≤ B := by
    intro j hj
    unfold at'
    rw [List.getD_eq_getElem?_getD, List.getElem?_eq_getElem hj]
    exact hB _ (List.getElem_mem hj)
  constructor
  · intro p hp hlt
    have h0 : 0 ≤ rnd (data.length : ℚ) := h.ge f32_zero (Nat.cast_nonneg _)
    have i0 : 0 ≤ rnd (p * rnd data.length) := h.ge f32_zero (by positivity)
    obtain ⟨j, hj0, hj1⟩ := cell _ i0
    have hjw : j < 4294967296 := by
      have : (j : ℚ) < ((4294967296 : ℕ) : ℚ) := lt_of_le_of_lt hj0 (by norm_num at hlt ⊢; exact hlt)
      exact_mod_cast this
    constructor
    · unfold interpWrap interpByIndexWrap
      rw [trunc_cell _ j _ hj0 hj1 hjw, R.bind_ok, InterpArray.wrapIdx_eq _ hl]
      exact ⟨_, blend_eq rnd data _ (Nat.mod_lt _ hl) _⟩
    · refine ⟨j % data.length, Nat.mod_lt _ hl, ?_⟩
      unfold closestWrap
      rw [trunc_cell _ j _ hj0 hj1 hjw, R.bind_ok, InterpArray.wrapIdx_eq _ hl, get_at _ _ (Nat.mod_lt _ hl)]
  · intro x k hx h0 h1 hk
    have big : (2 : ℕ) ^ 24 < 4294967296 := by norm_num
    unfold interpByIndexWrap
    rw [trunc_cell _ k x h0 h1 (by omega), R.bind_ok, InterpArray.wrapIdx_eq _ hl]
    simp only []
    rw [phase_eq h x hx k h0 h1 hk, blend_eq rnd data _ (Nat.mod_lt _ hl), Nat.mod_add_mod]
    exact ⟨_, rfl, mix_close h (f32_frac hx k h0 h1) (by linarith) (by linarith) (hBat _ (Nat.mod_lt _ hl)) (hBat _ (Nat.mod_lt _ hl))⟩

/-- **C147, violated**: in binary32 interpolating between two equal elements does not always give that element, whatever the rule for ties: of the two tables {11926146, 11926146} and {11926147, 11926147} one returns the other value. -/
theorem C147_constant_violated (rnd : ℚ → ℚ) (h : Nearest rnd) :
    interp rnd [11926146, 11926146] (49 / 64) = .ok 11926147 ∨ interp rnd [11926147, 11926147] (51 / 64) = .ok 11926146 := by
  have e1 : ∀ m : ℤ, |m| < 2 ^ 24 → rnd ((m : ℚ) / 64) = m / 64 := by
    intro m hm
    have := f32_div m hm 6 (by norm_num)
    norm_num at this
    exact h.fix this
  have p1 := e1 49 (by norm_num)
  have p2 := e1 51 (by norm_num)
  have p3 := e1 15 (by norm_num)
  have p4 := e1 13 (by norm_num)
  have one : rnd 1 = 1 := h.fix f32_one
  have zero : rnd 0 = 0 := h.zero
  have t1 : Color.trunc 4294967296 (49 / 64) = .ok 0 := trunc_cell _ 0 _ (by norm_num) (by norm_num) (by norm_num)
  have t2 : Color.trunc 4294967296 (51 / 64) = .ok 0 := trunc_cell _ 0 _ (by norm_num) (by norm_num) (by norm_num)
  have a1 : rnd (11926146 * (49 / 64)) = 9130956 := by
    have := h.eq_of_close (11926146 * (49 / 64)) 9130956 0 (by norm_num) (by norm_num) (by rw [abs_of_pos (by norm_num)]; norm_num) (by norm_num [abs_lt])
    rw [this]; norm_num
  have a2 : rnd (11926146 * (15 / 64)) = 5590381 / 2 := by
    have := h.eq_of_close (11926146 * (15 / 64)) 11180762 (-2) (by norm_num) (by norm_num) (by rw [abs_of_pos (by norm_num)]; norm_num) (by norm_num [abs_lt])
    rw [this]; norm_num
  have b1 : rnd (11926147 * (51 / 64)) = 9503648 := by
    have := h.eq_of_close (11926147 * (51 / 64)) 9503648 0 (by norm_num) (by norm_num) (by rw [abs_of_pos (by norm_num)]; norm_num) (by norm_num [abs_lt])
    rw [this]; norm_num
  have b2 : rnd (11926147 * (13 / 64)) = 4844997 / 2 := by
    have := h.eq_of_close (11926147 * (13 / 64)) 9689994 (-2) (by norm_num) (by norm_num) (by rw [abs_of_pos (by norm_num)]; norm_num) (by norm_num [abs_lt])
    rw [this]; norm_num
  have f1 : F32 (11926146 : ℚ) := by exact_mod_cast f32_int 11926146 (by norm_num)
  have f2 : F32 (11926147 : ℚ) := by exact_mod_cast f32_int 11926147 (by norm_num)
  -- the tie
  have tie : rnd (23852293 / 2) = 11926146 ∨ rnd (23852293 / 2) = 11926147 := by
    obtain ⟨n, hn⟩ := f32_multiple (h.f32 (23852293 / 2)) 0 (by
      have := h.ge f1 (show (11926146 : ℚ) ≤ 23852293 / 2 by norm_num)
      rw [abs_of_nonneg (by linarith)]
      norm_num; linarith)
    have l := h.ge f1 (show (11926146 : ℚ) ≤ 23852293 / 2 by norm_num)
    have u := h.le f2 (show (23852293 / 2 : ℚ) ≤ 11926147 by norm_num)
    rw [hn] at l u ⊢
    rw [zpow_zero, mul_one] at l u ⊢
    have l' : (11926146 : ℤ) ≤ n := by exact_mod_cast l
    have u' : n ≤ (11926147 : ℤ) := by exact_mod_cast u
    rcases (by omega : n = 11926146 ∨ n = 11926147) with rfl | rfl
    · left; norm_num
    · right; norm_num
  norm_num at p1 p2 p3 p4 a1 a2 b1 b2 tie
  rcases tie with ht | ht
  · right
    unfold interp interpByIndex blend
    norm_num [arrGet, R.bind_ok, one, p2, t2, zero, b1, b2, p4, ht]
  · left
    unfold interp interpByIndex blend
    norm_num [arrGet, R.bind_ok, one, p1, t1, zero, a1, a2, p3, ht]

example (rnd : ℚ → ℚ) (h : Nearest rnd) : ∃ r, interp rnd [0, 1] (1 / 3) = .ok r ∧ |r - 1 / 3| ≤ 1 / 2 ^ 20 := by
  have hd : ∀ p ∈ ([0, 1] : List ℚ), F32 p := by
    intro p hp
    simp only [List.mem_cons, List.not_mem_nil, or_false] at hp
    rcases hp with rfl | rfl
    · exact f32_zero
    · exact f32_one
  obtain ⟨r, e, hb⟩ := (C147_interp rnd h [0, 1] hd (by decide) (by decide) (1 / 3) (by norm_num) (by norm_num) 1 1 (by norm_num)
    (by intro p hp; simp only [List.mem_cons, List.not_mem_nil, or_false] at hp; rcases hp with rfl | rfl <;> norm_num)
    (by intro k hk; have : k = 0 := by simp at hk; omega
        subst this; norm_num [at'])).1
  refine ⟨r, e, ?_⟩
  norm_num [line, at', unit] at hb ⊢
  linarith

end InterpFloat
