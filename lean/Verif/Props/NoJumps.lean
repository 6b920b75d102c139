import Verif.Props.Interp
import Verif.Spec.NoJumps
/-! # Property C224: interpolated tables have no jumps -/

namespace Interp
open Spec

/-- A sequence whose neighbours are `D` apart. -/
theorem far (a : Nat → ℚ) (D : ℚ) (i n : Nat) (h : ∀ k, i ≤ k → k < i + n → |a (k + 1) - a k| ≤ D) : |a (i + n) - a i| ≤ D * n := by
  induction n with
  | zero => simp
  | succ n ih =>
    have h1 := ih (fun k h1 h2 => h k h1 (by omega))
    have h2 := h (i + n) (by omega) (by omega)
    rw [abs_le] at *
    rw [show i + (n + 1) = i + n + 1 by omega]
    push_cast
    constructor <;> linarith [h1.1, h1.2, h2.1, h2.2]

/-- Piecewise linear interpolation of such a sequence changes by at most `D` per unit. -/
theorem lerp_far (a : Nat → ℚ) (D : ℚ) (i j : Nat) (hij : i ≤ j) (x y : ℚ) (hx : (i : ℚ) ≤ x) (hx1 : x ≤ i + 1) (hy : (j : ℚ) ≤ y) (hy1 : y ≤ j + 1) (hxy : x ≤ y)
    (h : ∀ k, i ≤ k → k ≤ j → |a (k + 1) - a k| ≤ D) : |lerp (a j) (a (j + 1)) (y - j) - lerp (a i) (a (i + 1)) (x - i)| ≤ D * (y - x) := by
  have hi := h i (le_refl _) hij
  have hj := h j hij (le_refl _)
  have hD : 0 ≤ D := le_trans (abs_nonneg _) hi
  unfold lerp
  rcases Nat.lt_or_ge i j with hlt | hge
  · obtain ⟨n, rfl⟩ : ∃ n, j = i + 1 + n := ⟨j - (i + 1), by omega⟩
    have hf := far a D (i + 1) n (fun k h1 h2 => h k (by omega) (by omega))
    push_cast at *
    rw [abs_le] at *
    have e1 : (a (i + 1) - a i) * (1 - (x - i)) ≤ D * (1 - (x - i)) := mul_le_mul_of_nonneg_right hi.2 (by linarith)
    have e2 : -D * (1 - (x - i)) ≤ (a (i + 1) - a i) * (1 - (x - i)) := mul_le_mul_of_nonneg_right hi.1 (by linarith)
    have e3 : (a (i + 1 + n + 1) - a (i + 1 + n)) * (y - (i + 1 + n)) ≤ D * (y - (i + 1 + n)) := mul_le_mul_of_nonneg_right hj.2 (by linarith)
    have e4 : -D * (y - (i + 1 + n)) ≤ (a (i + 1 + n + 1) - a (i + 1 + n)) * (y - (i + 1 + n)) := mul_le_mul_of_nonneg_right hj.1 (by linarith)
    constructor <;> nlinarith [hf.1, hf.2]
  · obtain rfl : i = j := by omega
    rw [show a i + (a (i + 1) - a i) * (y - i) - (a i + (a (i + 1) - a i) * (x - i)) = (a (i + 1) - a i) * (y - x) by ring, abs_mul, abs_of_nonneg (show 0 ≤ y - x by linarith)]
    exact mul_le_mul_of_nonneg_right hi (by linarith)

/-- Going round a ring. -/
theorem ring_step (l : List ℚ) (D : ℚ) (h : SmoothRing l D) (hne : l ≠ []) (k : Nat) : |at' l ((k + 1) % l.length) - at' l (k % l.length)| ≤ D := by
  have hl : 0 < l.length := List.length_pos_iff.mpr hne
  have hm : k % l.length < l.length := Nat.mod_lt _ hl
  rw [← Nat.mod_add_mod]
  by_cases e : k % l.length + 1 = l.length
  · rw [e, Nat.mod_self, show k % l.length = l.length - 1 by omega]; exact h.2
  · rw [Nat.mod_eq_of_lt (show k % l.length + 1 < l.length by omega)]; exact h.1 _ (by omega)

end Interp

namespace InterpArray
open Interp Interp.Spec

/-- **C224**: if neighbouring elements of the table, and the last and the first, differ by at most D, then moving the index by d changes what interp_by_index_wrap returns by at most D * |d|, however often the table is gone round. -/
theorem C224_wrap (data : List ℚ) (hne : data ≠ []) (D : ℚ) (hs : SmoothRing data D) (x y : ℚ) (hx : 0 ≤ x) (hy : 0 ≤ y) (hx2 : x < 2 ^ 32) (hy2 : y < 2 ^ 32) :
    ∃ a b, interpByIndexWrap data x = .ok a ∧ interpByIndexWrap data y = .ok b ∧ |b - a| ≤ D * |y - x| := by
  have main : ∀ x y : ℚ, 0 ≤ x → x ≤ y → y < 2 ^ 32 → ∃ a b, interpByIndexWrap data x = .ok a ∧ interpByIndexWrap data y = .ok b ∧ |b - a| ≤ D * |y - x| := by
    intro x y hx hxy hy2
    obtain ⟨i, hi, hi1⟩ := cell x hx
    obtain ⟨j, hj, hj1⟩ := cell y (by linarith)
    have bound : ∀ k : Nat, (k : ℚ) ≤ y → k < 2 ^ 32 := by
      intro k hk
      have : (k : ℚ) < ((2 ^ 32 : Nat) : ℚ) := by push_cast; linarith
      exact_mod_cast this
    have hij : i ≤ j := by
      have : (i : ℚ) < ((j + 1 : Nat) : ℚ) := by push_cast; linarith
      have : i < j + 1 := by exact_mod_cast this
      omega
    refine ⟨_, _, (C101_wrap_index data hne x i hi hi1 (bound i (by linarith)) _ _ rfl rfl).1, (C101_wrap_index data hne y j hj hj1 (bound j hj) _ _ rfl rfl).1, ?_⟩
    rw [abs_of_nonneg (show 0 ≤ y - x by linarith)]
    exact lerp_far (fun k => at' data (k % data.length)) D i j hij x y hi (le_of_lt hi1) hj (le_of_lt hj1) hxy (fun k _ _ => ring_step data D hs hne k)
  rcases le_total x y with h | h
  · exact main x y hx h hy2
  · obtain ⟨b, a, hb, ha, e⟩ := main y x hy h hx2
    exact ⟨a, b, ha, hb, by rw [abs_sub_comm b a, abs_sub_comm y x]; exact e⟩

/-- **C224**: ... so a phase that moves by d changes interp_wrap by at most D * Size * |d|, also where the phase passes from one period to the next. -/
theorem C224_phase (data : List ℚ) (hne : data ≠ []) (D : ℚ) (hs : SmoothRing data D) (p q : ℚ) (hp : 0 ≤ p) (hq : 0 ≤ q) (hp2 : p * data.length < 2 ^ 32) (hq2 : q * data.length < 2 ^ 32) :
    ∃ a b, interpWrap data p = .ok a ∧ interpWrap data q = .ok b ∧ |b - a| ≤ D * data.length * |q - p| := by
  have hl : (0 : ℚ) ≤ data.length := Nat.cast_nonneg _
  obtain ⟨a, b, ha, hb, e⟩ := C224_wrap data hne D hs (p * data.length) (q * data.length) (by positivity) (by positivity) hp2 hq2
  refine ⟨a, b, ha, hb, ?_⟩
  rw [← sub_mul, abs_mul, abs_of_nonneg hl] at e
  rw [show D * data.length * |q - p| = D * (|q - p| * data.length) by ring]
  exact e

/-- **C224**: interp over phases from 0 to 1 (the table is not taken for a ring): at most D * (Size - 1) * |d|. -/
theorem C224_interp (data : List ℚ) (hw : data.length ≤ 2 ^ 32) (h2 : 2 ≤ data.length) (D : ℚ) (hs : Smooth data D) (p q : ℚ) (hp : 0 ≤ p) (hq : 0 ≤ q) (hp1 : p ≤ 1) (hq1 : q ≤ 1) :
    ∃ a b, interp data p = .ok a ∧ interp data q = .ok b ∧ |b - a| ≤ D * (data.length - 1) * |q - p| := by
  have hn : ((data.length - 1 : Nat) : ℚ) = (data.length : ℚ) - 1 := by rw [Nat.cast_sub (by omega)]; norm_num
  have hn0 : (0 : ℚ) ≤ (data.length : ℚ) - 1 := by rw [← hn]; exact Nat.cast_nonneg _
  -- the cell of an index: the last point belongs to the last cell
  have find : ∀ x : ℚ, 0 ≤ x → x ≤ (data.length : ℚ) - 1 → ∃ k : Nat, (k : ℚ) ≤ x ∧ x ≤ k + 1 ∧ k + 1 < data.length ∧ (x < k + 1 ∨ k + 2 = data.length) := by
    intro x h0 h1
    obtain ⟨k, hk, hk1⟩ := cell x h0
    by_cases hl : k + 1 < data.length
    · exact ⟨k, hk, le_of_lt hk1, hl, .inl hk1⟩
    · have hge : (data.length : ℚ) - 1 ≤ k := by rw [← hn]; exact_mod_cast (show data.length - 1 ≤ k by omega)
      have c : ((data.length - 2 : Nat) : ℚ) = (data.length : ℚ) - 2 := by rw [Nat.cast_sub h2]; norm_num
      exact ⟨data.length - 2, by rw [c]; linarith, by rw [c]; linarith, by omega, .inr (by omega)⟩
  have main : ∀ x y : ℚ, 0 ≤ x → x ≤ y → y ≤ (data.length : ℚ) - 1 → ∃ a b, interpByIndex data x = .ok a ∧ interpByIndex data y = .ok b ∧ |b - a| ≤ D * (y - x) := by
    intro x y hx hxy hy
    obtain ⟨i, i1, i2, i3, i4⟩ := find x hx (by linarith)
    obtain ⟨j, j1, j2, j3, j4⟩ := find y (by linarith) hy
    have hij : i ≤ j := by
      rcases j4 with j4 | j4
      · have : (i : ℚ) < ((j + 1 : Nat) : ℚ) := by push_cast; linarith
        have : i < j + 1 := by exact_mod_cast this
        omega
      · omega
    exact ⟨_, _, (C101_by_index data hw x i i1 i2 i3).1, (C101_by_index data hw y j j1 j2 j3).1,
      lerp_far (at' data) D i j hij x y i1 i2 j1 j2 hxy (fun k _ h => hs k (by omega))⟩
  unfold interp
  rw [hn]
  rcases le_total p q with h | h
  · obtain ⟨a, b, ha, hb, e⟩ := main (p * (data.length - 1)) (q * (data.length - 1)) (by positivity) (by nlinarith) (by nlinarith)
    refine ⟨a, b, ha, hb, ?_⟩
    rw [abs_of_nonneg (show 0 ≤ q - p by linarith)]
    linarith
  · obtain ⟨b, a, hb, ha, e⟩ := main (q * (data.length - 1)) (p * (data.length - 1)) (by positivity) (by nlinarith) (by nlinarith)
    refine ⟨a, b, ha, hb, ?_⟩
    rw [abs_sub_comm b a, abs_sub_comm q p, abs_of_nonneg (show 0 ≤ p - q by linarith)]
    linarith

example : ∃ a b, interpWrap [0, 1, 2, 1] (31 / 32) = .ok a ∧ interpWrap [0, 1, 2, 1] (33 / 32) = .ok b ∧ |b - a| ≤ 1 * (([0, 1, 2, 1] : List ℚ).length : ℚ) * |33 / 32 - 31 / 32| := by
  refine C224_phase [0, 1, 2, 1] (by simp) 1 ⟨?_, ?_⟩ _ _ (by norm_num) (by norm_num) (by norm_num) (by norm_num)
  · intro k hk
    have hk : k + 1 < 4 := hk
    rcases (by omega : k = 0 ∨ k = 1 ∨ k = 2) with rfl | rfl | rfl <;> norm_num [at']
  · norm_num [at']

end InterpArray

namespace LookupTable
open Interp Interp.Spec

/-- Lookup at an argument clamped to the range. -/
theorem lookup_clamp (points : List ℚ) (min max : ℚ) (h : min < max) (h2 : 2 ≤ points.length) (w : ℚ) :
    lookup points min max w = lookup points min max (Max.max min (Min.min max w)) := by
  by_cases h1 : w ≤ min
  · rw [min_eq_right (by linarith), max_eq_left h1, (C102_clamps points min max h h2 w).1 h1, (C102_clamps points min max h h2 min).1 (le_refl _)]
  · by_cases h3 : max ≤ w
    · rw [min_eq_left h3, max_eq_right (le_of_lt h), (C102_clamps points min max h h2 w).2 h3, (C102_clamps points min max h h2 max).2 (le_refl _)]
    · rw [min_eq_right (by linarith), max_eq_right (by linarith)]

/-- **C224**: a lookup table whose neighbouring points differ by at most D: arguments anywhere on the line that are d apart give results at most D * |d| / step apart (step: the distance of the grid points). -/
theorem C224_lookup (points : List ℚ) (min max : ℚ) (h : min < max) (h2 : 2 ≤ points.length) (hw : points.length ≤ 2 ^ 32) (D : ℚ) (hs : Smooth points D) (u v : ℚ) :
    ∃ a b, lookup points min max u = .ok a ∧ lookup points min max v = .ok b ∧ |b - a| ≤ D * (|v - u| * (points.length - 1) / (max - min)) := by
  have hd : (0 : ℚ) < max - min := by linarith
  have hn : ((points.length - 1 : Nat) : ℚ) = (points.length : ℚ) - 1 := by rw [Nat.cast_sub (by omega)]; norm_num
  have hn0 : (0 : ℚ) < (points.length : ℚ) - 1 := by rw [← hn]; exact_mod_cast (show 0 < points.length - 1 by omega)
  have hD : 0 ≤ D := le_trans (abs_nonneg _) (hs 0 (by omega))
  have main : ∀ u v, min ≤ u → u ≤ v → v ≤ max → ∃ a b, lookup points min max u = .ok a ∧ lookup points min max v = .ok b ∧ |b - a| ≤ D * ((v - u) * (points.length - 1) / (max - min)) := by
    intro u v hu huv hv
    obtain ⟨i, i1, i2, i3, i4⟩ := find_cell points min max h h2 u hu (by linarith)
    obtain ⟨j, j1, j2, j3, j4⟩ := find_cell points min max h h2 v (by linarith) hv
    refine ⟨_, _, lookup_cell points min max h hw u i i1 i2 i3, lookup_cell points min max h hw v j j1 j2 j3, ?_⟩
    have hp : pos points.length min max v - pos points.length min max u = (v - u) * (points.length - 1) / (max - min) := by
      unfold pos; rw [hn]; field_simp; ring
    have hpos : pos points.length min max u ≤ pos points.length min max v := by
      have : 0 ≤ (v - u) * ((points.length : ℚ) - 1) / (max - min) := div_nonneg (mul_nonneg (by linarith) (le_of_lt hn0)) (le_of_lt hd)
      linarith
    have hij : i ≤ j := by
      rcases j4 with j4 | j4
      · have : (i : ℚ) < ((j + 1 : Nat) : ℚ) := by push_cast; linarith
        have : i < j + 1 := by exact_mod_cast this
        omega
      · omega
    rw [← hp]
    exact lerp_far (at' points) D i j hij _ _ i1 i2 j1 j2 hpos (fun k _ hk => hs k (by omega))
  have both : ∀ u v, u ≤ v → ∃ a b, lookup points min max u = .ok a ∧ lookup points min max v = .ok b ∧ |b - a| ≤ D * ((v - u) * (points.length - 1) / (max - min)) := by
    intro u v huv
    obtain ⟨a, b, ha, hb, e⟩ := main (Max.max min (Min.min max u)) (Max.max min (Min.min max v)) (le_max_left _ _) (max_le_max (le_refl _) (min_le_min (le_refl _) huv))
      (max_le (le_of_lt h) (min_le_left _ _))
    refine ⟨a, b, by rw [lookup_clamp points min max h h2]; exact ha, by rw [lookup_clamp points min max h h2]; exact hb, le_trans e ?_⟩
    refine mul_le_mul_of_nonneg_left ?_ hD
    refine div_le_div_of_nonneg_right (mul_le_mul_of_nonneg_right ?_ (le_of_lt hn0)) (le_of_lt hd)
    rcases le_total max u with a1 | a1 <;> rcases le_total max v with a2 | a2 <;> rcases le_total min u with a3 | a3 <;> rcases le_total min v with a4 | a4 <;>
      simp [a1, a2, a3, a4, le_of_lt h] <;> linarith
  rcases le_total u v with hh | hh
  · rw [abs_of_nonneg (show 0 ≤ v - u by linarith)]; exact both u v hh
  · obtain ⟨b, a, hb, ha, e⟩ := both v u hh
    exact ⟨a, b, ha, hb, by rw [abs_sub_comm b a, abs_sub_comm v u, abs_of_nonneg (show 0 ≤ u - v by linarith)]; exact e⟩

/-- **C224**: a table generated from a function that changes by at most L per unit is, everywhere in its range, within L * step / 2 of the function. -/
theorem C224_approximates (n : Nat) (h2 : 2 ≤ n) (hw : n ≤ 2 ^ 32) (min max : ℚ) (h : min < max) (f : ℚ → ℚ) (L : ℚ) (hf : Lipschitz L min max f) (v : ℚ) (hlo : min ≤ v) (hhi : v ≤ max) :
    ∃ r, generateLookup n min max f v = .ok r ∧ |r - f v| ≤ L * ((max - min) / (n - 1)) / 2 := by
  have hd : (0 : ℚ) < max - min := by linarith
  have hlen : (create n min max f).length = n := by simp [create]
  have hnq : ((n - 1 : Nat) : ℚ) = (n : ℚ) - 1 := by rw [Nat.cast_sub (by omega)]; norm_num
  have hn0 : (0 : ℚ) < (n : ℚ) - 1 := by rw [← hnq]; exact_mod_cast (show 0 < n - 1 by omega)
  obtain ⟨s, hs⟩ : ∃ s, s = (max - min) / ((n : ℚ) - 1) := ⟨_, rfl⟩
  have hs0 : 0 < s := by rw [hs]; exact div_pos hd hn0
  have hat : ∀ j, j < n → at' (create n min max f) j = f (min + j * s) := by
    intro j hj
    unfold at' create
    rw [List.getD_eq_getElem?_getD, List.getElem?_map, List.getElem?_range hj, hs]
    simp only [Option.map_some, Option.getD_some]
    congr 1; ring
  obtain ⟨k, k1, k2, k3, -⟩ := find_cell (create n min max f) min max h (by rw [hlen]; exact h2) v hlo hhi
  refine ⟨_, lookup_cell _ min max h (by rw [hlen]; exact hw) v k k1 k2 k3, ?_⟩
  obtain ⟨t, ht⟩ : ∃ t, pos (create n min max f).length min max v - k = t := ⟨_, rfl⟩
  have hv : v = min + (k + t) * s := by
    have := (pos_grid (create n min max f).length min max h v (k + t) (by rw [hlen]; exact h2)).mp (by linarith)
    rw [hlen, hnq, ← hs] at this; exact this
  rw [ht, ← hs]
  rw [hlen] at k3
  have t0 : 0 ≤ t := by linarith
  have t1 : t ≤ 1 := by linarith
  have hk1 : ((k + 1 : Nat) : ℚ) * s ≤ max - min := by
    have : ((k + 1 : Nat) : ℚ) ≤ (n : ℚ) - 1 := by rw [← hnq]; exact_mod_cast (show k + 1 ≤ n - 1 by omega)
    calc ((k + 1 : Nat) : ℚ) * s ≤ ((n : ℚ) - 1) * s := mul_le_mul_of_nonneg_right this (le_of_lt hs0)
      _ = max - min := by rw [hs]; field_simp
  have hk0 : (0 : ℚ) ≤ (k : ℚ) * s := by positivity
  push_cast at hk1
  have A := hf (min + k * s) v (by linarith) (by nlinarith) hlo hhi
  have B := hf (min + ((k + 1 : Nat) : ℚ) * s) v (by push_cast; nlinarith) (by push_cast; linarith) hlo hhi
  rw [hat k (by omega), hat (k + 1) k3]
  have eA : |min + k * s - v| = t * s := by
    rw [hv, show min + (k : ℚ) * s - (min + (k + t) * s) = -(t * s) by ring, abs_neg, abs_of_nonneg (by positivity)]
  have eB : |min + ((k + 1 : Nat) : ℚ) * s - v| = (1 - t) * s := by
    rw [hv, show min + ((k + 1 : Nat) : ℚ) * s - (min + (k + t) * s) = (1 - t) * s by push_cast; ring, abs_of_nonneg (mul_nonneg (by linarith) (le_of_lt hs0))]
  rw [eA, abs_le] at A
  rw [eB, abs_le] at B
  have hL : 0 ≤ L := by
    have := le_trans (abs_nonneg _) (hf max min (le_of_lt h) (le_refl _) (le_refl _) (le_of_lt h))
    rw [abs_of_pos hd] at this
    by_contra hc
    have : L * (max - min) < 0 := mul_neg_of_neg_of_pos (not_le.mp hc) hd
    linarith
  obtain ⟨fa, hfa⟩ : ∃ x, f (min + k * s) = x := ⟨_, rfl⟩
  obtain ⟨fb, hfb⟩ : ∃ x, f (min + ((k + 1 : Nat) : ℚ) * s) = x := ⟨_, rfl⟩
  obtain ⟨fv, hfv⟩ : ∃ x, f v = x := ⟨_, rfl⟩
  rw [hfa, hfv] at A
  rw [hfb, hfv] at B
  rw [hfa, hfb, hfv]
  have e : lerp fa fb t - fv = (1 - t) * (fa - fv) + t * (fb - fv) := by unfold lerp; ring
  have a1 := mul_le_mul_of_nonneg_left A.2 (show 0 ≤ 1 - t by linarith)
  have a2 := mul_le_mul_of_nonneg_left A.1 (show 0 ≤ 1 - t by linarith)
  have b1 := mul_le_mul_of_nonneg_left B.2 t0
  have b2 := mul_le_mul_of_nonneg_left B.1 t0
  have q : 2 * ((1 - t) * t) * (L * s) ≤ 1 / 2 * (L * s) := mul_le_mul_of_nonneg_right (by nlinarith [sq_nonneg (2 * t - 1)]) (by positivity)
  rw [e, abs_le]
  constructor <;> linarith

example : ∃ r, generateLookup 5 0 4 (fun x => 3 * x) (7 / 3) = .ok r ∧ |r - 3 * (7 / 3)| ≤ 3 * ((4 - 0) / ((5 : Nat) - 1)) / 2 :=
  C224_approximates 5 (by norm_num) (by norm_num) 0 4 (by norm_num) (fun x => 3 * x) 3 (by intro u v _ _ _ _; rw [← mul_sub, abs_mul]; norm_num) (7 / 3) (by norm_num) (by norm_num)

/-- **C224**: half a step cannot be had for less: a zig-zag of slope L halfway between two points. -/
theorem C224_approximates_sharp : ∃ r, generateLookup 2 0 1 (fun x => if x ≤ 1 / 2 then x else 1 - x) (1 / 2) = .ok r ∧ |r - 1 / 2| = 1 * ((1 - 0) / ((2 : Nat) - 1)) / 2 ∧
    Lipschitz 1 0 1 (fun x => if x ≤ 1 / 2 then x else 1 - x) := by
  refine ⟨0, ?_, by norm_num, ?_⟩
  · have hc : create 2 0 1 (fun x => if x ≤ 1 / 2 then x else 1 - x) = [0, 0] := by
      simp [create, List.range_succ]; norm_num
    unfold generateLookup
    rw [hc]
    have := (C102_interpolates [0, 0] 0 1 (by norm_num) (by norm_num) 1 (by norm_num) 0 (by norm_num) (1 / 2) (by norm_num) (by norm_num)).1
    norm_num [lerp, at'] at this
    exact this
  · intro u v _ _ _ _
    show |(if u ≤ 1 / 2 then u else 1 - u) - (if v ≤ 1 / 2 then v else 1 - v)| ≤ 1 * |u - v|
    rw [one_mul, abs_le]
    have p := le_abs_self (u - v)
    have m := neg_abs_le (u - v)
    by_cases a : u ≤ 1 / 2 <;> by_cases b : v ≤ 1 / 2 <;> simp only [a, b, if_true, if_false] <;> constructor <;> linarith

end LookupTable
