import Verif.Model.Interp
import Verif.Spec.Interp
import Mathlib.Tactic.Linarith
import Mathlib.Tactic.Ring
import Mathlib.Tactic.FieldSimp
import Mathlib.Tactic.NormNum
/-! # Properties C101 and C102: interpolating tables -/

namespace Interp
open Spec

theorem lerp_between (a b t : ℚ) (h0 : 0 ≤ t) (h1 : t ≤ 1) : Between a b (lerp a b t) := by
  unfold Between lerp
  rcases le_total a b with h | h
  · rw [min_eq_left h, max_eq_right h]; constructor <;> nlinarith
  · rw [min_eq_right h, max_eq_left h]; constructor <;> nlinarith

theorem get_at (l : List ℚ) (k : Nat) (h : k < l.length) : arrGet l k = .ok (at' l k) := by
  rw [arrGet_lt h]; unfold at'; rw [List.getD_eq_getElem?_getD, List.getElem?_eq_getElem h]; rfl

/-- Truncation of a number in cell `k`. -/
theorem trunc_cell (n k : Nat) (x : ℚ) (h0 : (k : ℚ) ≤ x) (h1 : x < k + 1) (hn : k < n) : Color.trunc n x = .ok k := by
  unfold Color.trunc
  have hk : (0 : ℚ) ≤ k := Nat.cast_nonneg _
  have hn' : (k : ℚ) + 1 ≤ n := by exact_mod_cast hn
  have : ⌊x⌋ = (k : Int) := by rw [Int.floor_eq_iff]; exact ⟨by exact_mod_cast h0, by exact_mod_cast h1⟩
  rw [if_pos ⟨by linarith, by linarith⟩, this]; rfl

/-- Every non-negative number lies in a cell. -/
theorem cell (x : ℚ) (h : 0 ≤ x) : ∃ k : Nat, (k : ℚ) ≤ x ∧ x < k + 1 := by
  refine ⟨⌊x⌋.toNat, ?_⟩
  have e : (⌊x⌋.toNat : ℚ) = (⌊x⌋ : ℚ) := by exact_mod_cast Int.toNat_of_nonneg (Int.floor_nonneg.mpr h)
  rw [e]
  exact ⟨Int.floor_le x, Int.lt_floor_add_one x⟩

end Interp

namespace InterpArray
open Interp Interp.Spec

theorem wrapIdx_eq (size : Nat) (h : 0 < size) (i : Nat) : wrapIdx size i = i % size := by
  induction i using Nat.strongRecOn with
  | _ i ih =>
    rw [wrapIdx]
    by_cases hg : i ≥ size
    · rw [dif_pos ⟨h, hg⟩, ih (i - size) (by omega), Nat.mod_eq_sub_mod hg]
    · rw [dif_neg (by omega), if_neg (by omega), Nat.mod_eq_of_lt (by omega)]

theorem blend_eq (data : List ℚ) (k : Nat) (h : k < data.length) (t : ℚ) : blend data k t = .ok (lerp (at' data k) (at' data ((k + 1) % data.length)) t) := by
  unfold blend
  have e : (if k = data.length - 1 then 0 else k + 1) = (k + 1) % data.length := by
    split
    · next hk => rw [hk, Nat.sub_add_cancel (by omega), Nat.mod_self]
    · rw [Nat.mod_eq_of_lt (by omega)]
  simp only [e]
  rw [get_at data _ (Nat.mod_lt _ (by omega)), R.bind_ok, get_at data k h, R.bind_ok]
  unfold lerp
  congr 1; ring

/-- **C101**: interp_by_index at an index in [k, k+1] with k an element and k + 1 an element is the point that fraction of the way from element k to element k + 1 ... -/
theorem C101_by_index (data : List ℚ) (hw : data.length ≤ 2 ^ 32) (x : ℚ) (k : Nat) (hk : (k : ℚ) ≤ x) (hk1 : x ≤ k + 1) (hk2 : k + 1 < data.length) :
    interpByIndex data x = .ok (lerp (at' data k) (at' data (k + 1)) (x - k)) ∧ Between (at' data k) (at' data (k + 1)) (lerp (at' data k) (at' data (k + 1)) (x - k)) := by
  refine ⟨?_, lerp_between _ _ _ (by linarith) (by linarith)⟩
  have main : ∀ j : Nat, (j : ℚ) ≤ x → x < j + 1 → j < data.length → interpByIndex data x = .ok (lerp (at' data j) (at' data ((j + 1) % data.length)) (x - j)) := by
    intro j hj hj1 hjl
    unfold interpByIndex
    rw [trunc_cell _ j x hj hj1 (by omega), R.bind_ok]
    exact blend_eq data j hjl _
  by_cases hlt : x < k + 1
  · rw [main k hk hlt (by omega), Nat.mod_eq_of_lt hk2]
  · have hx : x = ((k + 1 : Nat) : ℚ) := by push_cast; linarith
    rw [main (k + 1) (by rw [hx]) (by rw [hx]; push_cast; linarith) hk2]
    unfold lerp
    rw [hx]; push_cast
    congr 1; ring

example := C101_by_index [1, 5, 2] (by norm_num) (3 / 2) 1 (by norm_num) (by norm_num) (by decide)

/-- ... and exactly element k at index k, the last one included. -/
theorem C101_at_index (data : List ℚ) (hw : data.length ≤ 2 ^ 32) (k : Nat) (hk : k < data.length) : interpByIndex data k = .ok (at' data k) := by
  unfold interpByIndex
  rw [trunc_cell _ k k (le_refl _) (by linarith) (by omega), R.bind_ok, blend_eq data k hk]
  unfold lerp
  congr 1; ring

example := C101_at_index [1, 5, 2] (by norm_num) 2 (by decide)

/-- **C101**: interp(phase) for phase in [0, 1] never reads outside the table and is interp_by_index(phase * (Size - 1)): 0 gives the first element, 1 the last. -/
theorem C101_interp (data : List ℚ) (hw : data.length ≤ 2 ^ 32) (hne : data ≠ []) (p : ℚ) (h0 : 0 ≤ p) (h1 : p ≤ 1) :
    (∃ v, interp data p = .ok v) ∧ interp data p = interpByIndex data (p * ((data.length - 1 : Nat) : ℚ)) ∧ interp data 0 = .ok (at' data 0) ∧ interp data 1 = .ok (at' data (data.length - 1)) := by
  have hl : 0 < data.length := List.length_pos_iff.mpr hne
  refine ⟨?_, rfl, ?_, ?_⟩
  · have hn0 : (0 : ℚ) ≤ ((data.length - 1 : Nat) : ℚ) := Nat.cast_nonneg _
    have hx0 : 0 ≤ p * ((data.length - 1 : Nat) : ℚ) := by positivity
    have hx1 : p * ((data.length - 1 : Nat) : ℚ) ≤ ((data.length - 1 : Nat) : ℚ) := by nlinarith
    obtain ⟨j, hj, hj1⟩ := cell _ hx0
    have hjl : j < data.length := by
      have : (j : ℚ) ≤ ((data.length - 1 : Nat) : ℚ) := le_trans hj hx1
      have : j ≤ data.length - 1 := by exact_mod_cast this
      omega
    unfold interp interpByIndex
    rw [trunc_cell _ j _ hj hj1 (by omega), R.bind_ok]
    exact ⟨_, blend_eq data j hjl _⟩
  · unfold interp; rw [zero_mul]; exact_mod_cast C101_at_index data hw 0 hl
  · unfold interp; rw [one_mul]; exact C101_at_index data hw (data.length - 1) (by omega)

example := C101_interp [1, 5, 2] (by norm_num) (by decide) (1 / 3) (by norm_num) (by norm_num)

/-- **C101**: interp_by_index_wrap at any non-negative index (below 2^32) is the linear blend between cyclic neighbours ... -/
theorem C101_wrap_index (data : List ℚ) (hne : data ≠ []) (x : ℚ) (k : Nat) (hk : (k : ℚ) ≤ x) (hk1 : x < k + 1) (hk2 : k < 2 ^ 32) (a b : ℚ) (ha : a = at' data (k % data.length))
    (hb : b = at' data ((k + 1) % data.length)) : interpByIndexWrap data x = .ok (lerp a b (x - k)) ∧ Between a b (lerp a b (x - k)) := by
  have hl : 0 < data.length := List.length_pos_iff.mpr hne
  refine ⟨?_, lerp_between _ _ _ (by linarith) (by linarith)⟩
  unfold interpByIndexWrap
  rw [trunc_cell _ k x hk hk1 (by omega), R.bind_ok, wrapIdx_eq _ hl, blend_eq data _ (Nat.mod_lt _ hl), ha, hb, Nat.mod_add_mod]

/-- ... so interp_wrap is defined for every non-negative phase (with phase * Size below 2^32), is exactly element k at phase n + k / Size, and has period 1. -/
theorem C101_wrap_partial (data : List ℚ) (hne : data ≠ []) (p : ℚ) (h0 : 0 ≤ p) (n k : Nat) :
    (p * data.length < 2 ^ 32 → ∃ v, interpWrap data p = .ok v) ∧
    ((p + n) * data.length < 2 ^ 32 → interpWrap data (p + n) = interpWrap data p) ∧
    (k < data.length → ((n : ℚ) + k / data.length) * data.length < 2 ^ 32 → interpWrap data (n + k / data.length) = .ok (at' data k)) := by
  have hl : 0 < data.length := List.length_pos_iff.mpr hne
  have hlq : (0 : ℚ) < data.length := by exact_mod_cast hl
  have hx0 : 0 ≤ p * data.length := by positivity
  obtain ⟨j, hj, hj1⟩ := cell _ hx0
  have hjw : ∀ (j : Nat) (x : ℚ), (j : ℚ) ≤ x → x < 2 ^ 32 → j < 2 ^ 32 := by
    intro j x h1 h2
    have : (j : ℚ) < ((2 ^ 32 : Nat) : ℚ) := by push_cast; linarith
    exact_mod_cast this
  refine ⟨?_, ?_, ?_⟩
  · intro hlt
    exact ⟨_, (C101_wrap_index data hne _ j hj hj1 (hjw _ _ hj hlt) _ _ rfl rfl).1⟩
  · intro hlt
    have hnl : (0 : ℚ) ≤ (n : ℚ) * data.length := by positivity
    have e1 := (C101_wrap_index data hne _ j hj hj1 (hjw _ _ hj (by linarith)) _ _ rfl rfl).1
    have ej : (((j + n * data.length : Nat)) : ℚ) = j + n * data.length := by push_cast; ring
    have hj' : (((j + n * data.length : Nat)) : ℚ) ≤ (p + n) * data.length := by rw [ej]; linarith
    have hj1' : (p + n) * data.length < ((j + n * data.length : Nat) : ℚ) + 1 := by rw [ej]; linarith
    have e2 := (C101_wrap_index data hne _ (j + n * data.length) hj' hj1' (hjw _ _ hj' hlt) _ _ rfl rfl).1
    unfold interpWrap
    rw [e1, e2, Nat.add_mul_mod_self_right, show j + n * data.length + 1 = j + 1 + n * data.length by omega, Nat.add_mul_mod_self_right, ej]
    congr 2; ring
  · intro hk hlt
    have ex : ((n : ℚ) + k / data.length) * data.length = ((n * data.length + k : Nat) : ℚ) := by push_cast; field_simp
    have hw := hjw (n * data.length + k) (((n : ℚ) + k / data.length) * data.length) (by rw [ex]) hlt
    have e := (C101_wrap_index data hne (((n : ℚ) + k / data.length) * data.length) (n * data.length + k) (by rw [ex]) (by rw [ex]; linarith) hw _ _ rfl rfl).1
    unfold interpWrap
    rw [e, ex, Nat.mul_add_mod_self_right, Nat.mod_eq_of_lt hk]
    unfold lerp
    congr 1; ring

example := (C101_wrap_partial [1, 5, 2] (by decide) (7 / 3) (by norm_num) 4 1).2.1 (by norm_num)

/-- **C101 violated** for negative integer phases, although the comment promises the first element for "any integer": the negative product is converted to `unsigned int`, which is
undefined. -/
theorem C101_negative_phase_violated (data : List ℚ) (hne : data ≠ []) (n : Nat) (hn : 0 < n) : interpWrap data (-(n : ℚ)) = .ub := by
  have hl : 1 ≤ data.length := List.length_pos_iff.mpr hne
  have hlq : (1 : ℚ) ≤ data.length := by exact_mod_cast hl
  have hnq : (1 : ℚ) ≤ n := by exact_mod_cast hn
  unfold interpWrap interpByIndexWrap Color.trunc
  rw [if_neg (by intro h; nlinarith [h.1]), R.bind_ub]

/-- **C101**: closest_wrap and closest return the element at or below the position. -/
theorem C101_closest (data : List ℚ) (hw : data.length ≤ 2 ^ 32) (p : ℚ) (k : Nat) :
    ((k : ℚ) ≤ p * data.length → p * data.length < k + 1 → k < 2 ^ 32 → data ≠ [] → closestWrap data p = .ok (at' data (k % data.length))) ∧
    ((k : ℚ) ≤ p * ((data.length - 1 : Nat) : ℚ) → p * ((data.length - 1 : Nat) : ℚ) < k + 1 → k < data.length → closest data p = .ok (at' data k)) := by
  constructor
  · intro h1 h2 h3 hne
    have hl : 0 < data.length := List.length_pos_iff.mpr hne
    unfold closestWrap
    rw [trunc_cell _ k _ h1 h2 (by omega), R.bind_ok, wrapIdx_eq _ hl, get_at _ _ (Nat.mod_lt _ hl)]
  · intro h1 h2 h3
    unfold closest
    rw [trunc_cell _ k _ h1 h2 (by omega), R.bind_ok, get_at _ _ h3]

/-- **C101**: set then get. -/
theorem C101_set_get (data : List ℚ) (i : Nat) (hi : i < data.length) (v : ℚ) : ∃ d, set data i v = .ok d ∧ get d i = .ok v ∧ ∀ j, j ≠ i → get d j = get data j := by
  refine ⟨data.set i v, ?_, ?_, ?_⟩
  · unfold set arrSet; rw [if_pos hi]
  · unfold get; rw [arrGet_eq_ok]; simp [hi]
  · intro j hj
    unfold get arrGet
    rw [List.getElem?_set_ne (Ne.symm hj)]

example : interpWrap [1, 3, 8] (1/2) = .ok (11/2) := by
  have := (C101_wrap_index [1, 3, 8] (by simp) ((1/2 : ℚ) * (3 : Nat)) 1 (by norm_num) (by norm_num) (by norm_num) 3 8 rfl rfl).1
  unfold interpWrap
  rw [show (((([1, 3, 8] : List ℚ)).length : Nat) : ℚ) = ((3 : Nat) : ℚ) from rfl, this]
  unfold lerp; norm_num

end InterpArray

namespace LookupTable
open Interp Interp.Spec

/-- Position of `v` on the grid. -/
def pos (n : Nat) (min max v : ℚ) : ℚ := (v - min) / (max - min) * ((n - 1 : Nat) : ℚ)

theorem pos_grid (n : Nat) (min max : ℚ) (h : min < max) (v t : ℚ) (hn : 2 ≤ n) : pos n min max v = t ↔ v = min + t * ((max - min) / ((n - 1 : Nat) : ℚ)) := by
  have h1 : (0 : ℚ) < max - min := by linarith
  have h2 : (0 : ℚ) < ((n - 1 : Nat) : ℚ) := by exact_mod_cast (show 0 < n - 1 by omega)
  unfold pos
  constructor
  · intro e; rw [← e]; field_simp; ring
  · intro e; rw [e]; field_simp; ring

/-- The value in cell k. -/
theorem lookup_cell (points : List ℚ) (min max : ℚ) (h : min < max) (hw : points.length ≤ 2 ^ 32) (v : ℚ) (k : Nat) (hk : (k : ℚ) ≤ pos points.length min max v)
    (hk1 : pos points.length min max v ≤ k + 1) (hkl : k + 1 < points.length) :
    lookup points min max v = .ok (lerp (at' points k) (at' points (k + 1)) (pos points.length min max v - k)) := by
  have h1 : max - min ≠ 0 := by linarith
  obtain ⟨x, hx⟩ : ∃ x, pos points.length min max v = x := ⟨_, rfl⟩
  have hx' : (v - min) / (max - min) * ((points.length - 1 : Nat) : ℚ) = x := hx
  rw [hx] at hk hk1 ⊢
  unfold lookup
  rw [if_neg h1]
  simp only [hx']
  have hlast : ((k + 1 : Nat) : ℚ) ≤ ((points.length - 1 : Nat) : ℚ) := by exact_mod_cast (show k + 1 ≤ points.length - 1 by omega)
  have hk0 : (0 : ℚ) ≤ k := Nat.cast_nonneg _
  by_cases hz : x ≤ 0
  · have e1 : x = 0 := by linarith
    have e2 : k = 0 := by
      have : (k : ℚ) = 0 := by linarith
      exact_mod_cast this
    rw [if_pos hz, get_at _ _ (by omega), e1, e2]
    unfold lerp; simp
  · rw [if_neg hz]
    by_cases hg : x ≥ ((points.length - 1 : Nat) : ℚ)
    · rw [if_pos hg]
      push_cast at hlast
      have e1 : x = k + 1 := by linarith
      have e2 : points.length - 1 = k + 1 := by
        have : ((points.length - 1 : Nat) : ℚ) = ((k + 1 : Nat) : ℚ) := by push_cast; linarith
        exact_mod_cast this
      rw [e2, get_at _ _ hkl, e1]
      unfold lerp; congr 1; ring
    · rw [if_neg hg]
      by_cases hlt : x < k + 1
      · rw [trunc_cell _ k x hk hlt (by omega), R.bind_ok]
        rw [get_at _ _ (by omega), R.bind_ok, get_at _ _ hkl, R.bind_ok]
        unfold lerp; congr 1; ring
      · have e1 : x = ((k + 1 : Nat) : ℚ) := by push_cast; linarith
        have hlt2 : k + 1 < points.length - 1 := by
          have : ((k + 1 : Nat) : ℚ) < ((points.length - 1 : Nat) : ℚ) := by rw [← e1]; exact not_le.mp hg
          exact_mod_cast this
        rw [trunc_cell _ (k + 1) x (by rw [e1]) (by rw [e1]; linarith) (by omega), R.bind_ok]
        rw [get_at _ _ (by omega), R.bind_ok, get_at _ _ (by omega), R.bind_ok]
        unfold lerp; rw [e1]; push_cast; congr 1; ring

theorem find_cell (points : List ℚ) (min max : ℚ) (h : min < max) (h2 : 2 ≤ points.length) (v : ℚ) (hlo : min ≤ v) (hhi : v ≤ max) :
    ∃ k : Nat, (k : ℚ) ≤ pos points.length min max v ∧ pos points.length min max v ≤ k + 1 ∧ k + 1 < points.length ∧ (pos points.length min max v < k + 1 ∨ k + 2 = points.length) := by
  have h1 : (0 : ℚ) < max - min := by linarith
  have hn : (0 : ℚ) < ((points.length - 1 : Nat) : ℚ) := by exact_mod_cast (show 0 < points.length - 1 by omega)
  have p0 : 0 ≤ pos points.length min max v := by
    unfold pos
    have : 0 ≤ v - min := by linarith
    positivity
  have p1 : pos points.length min max v ≤ ((points.length - 1 : Nat) : ℚ) := by
    unfold pos
    have : (v - min) / (max - min) ≤ 1 := by rw [div_le_one h1]; linarith
    nlinarith
  obtain ⟨k, hk, hk1⟩ := cell _ p0
  by_cases hl : k + 1 < points.length
  · exact ⟨k, hk, le_of_lt hk1, hl, .inl hk1⟩
  · have hge : ((points.length - 1 : Nat) : ℚ) ≤ k := by exact_mod_cast (show points.length - 1 ≤ k by omega)
    have e : pos points.length min max v = ((points.length - 1 : Nat) : ℚ) := by linarith
    refine ⟨points.length - 2, ?_, ?_, by omega, .inr (by omega)⟩
    · rw [e]; exact_mod_cast (show points.length - 2 ≤ points.length - 1 by omega)
    · rw [e, show points.length - 1 = points.length - 2 + 1 by omega]; push_cast; linarith

/-- **C102**: below the range the first point, above it the last (at most 2^32 points, at least two, min < max). -/
theorem C102_clamps (points : List ℚ) (min max : ℚ) (h : min < max) (h2 : 2 ≤ points.length) (v : ℚ) :
    (v ≤ min → lookup points min max v = .ok (at' points 0)) ∧ (max ≤ v → lookup points min max v = .ok (at' points (points.length - 1))) := by
  have h1 : (0 : ℚ) < max - min := by linarith
  have hn : (0 : ℚ) < ((points.length - 1 : Nat) : ℚ) := by exact_mod_cast (show 0 < points.length - 1 by omega)
  constructor
  · intro hv
    unfold lookup
    rw [if_neg (ne_of_gt h1)]
    simp only
    have : (v - min) / (max - min) ≤ 0 := div_nonpos_of_nonpos_of_nonneg (by linarith) (le_of_lt h1)
    rw [if_pos (by nlinarith), get_at _ _ (by omega)]
  · intro hv
    unfold lookup
    rw [if_neg (ne_of_gt h1)]
    simp only
    have : 1 ≤ (v - min) / (max - min) := by rw [le_div_iff₀ h1]; linarith
    rw [if_neg (by intro h; nlinarith), if_pos (by nlinarith), get_at _ _ (by omega)]

example := C102_clamps [1, 5, 2] (-1) 1 (by norm_num) (by decide) (3 / 2)

/-- **C102**: at the i-th grid position exactly the i-th point; between grid positions k and k + 1 the linear blend of points k and k + 1, hence between them. -/
theorem C102_interpolates (points : List ℚ) (min max : ℚ) (h : min < max) (hw : points.length ≤ 2 ^ 32) (step : ℚ) (hs : step = (max - min) / ((points.length - 1 : Nat) : ℚ))
    (k : Nat) (hk : k + 1 < points.length) (t : ℚ) (h0 : 0 ≤ t) (h1 : t ≤ 1) :
    lookup points min max (min + (k + t) * step) = .ok (lerp (at' points k) (at' points (k + 1)) t) ∧ Between (at' points k) (at' points (k + 1)) (lerp (at' points k) (at' points (k + 1)) t) ∧
    lookup points min max (min + k * step) = .ok (at' points k) ∧ lookup points min max (min + (k + 1) * step) = .ok (at' points (k + 1)) := by
  have key : ∀ t : ℚ, 0 ≤ t → t ≤ 1 → lookup points min max (min + (k + t) * step) = .ok (lerp (at' points k) (at' points (k + 1)) t) := by
    intro t h0 h1
    have e : pos points.length min max (min + (k + t) * step) = k + t := by rw [pos_grid _ _ _ h _ _ (by omega), hs]
    rw [lookup_cell points min max h hw _ k (by rw [e]; linarith) (by rw [e]; linarith) hk, e]
    congr 2; ring
  refine ⟨key t h0 h1, lerp_between _ _ _ h0 h1, ?_, ?_⟩
  · have := key 0 (le_refl _) (by norm_num)
    rw [add_zero] at this
    rw [this]; unfold lerp; congr 1; ring
  · rw [key 1 (by norm_num) (le_refl _)]; unfold lerp; congr 1; ring

/-- **C102**: hence lookup is defined (reads only inside the table) for every argument. -/
theorem C102_defined (points : List ℚ) (min max : ℚ) (h : min < max) (h2 : 2 ≤ points.length) (hw : points.length ≤ 2 ^ 32) (v : ℚ) : ∃ r, lookup points min max v = .ok r := by
  by_cases hlo : v ≤ min
  · exact ⟨_, (C102_clamps points min max h h2 v).1 hlo⟩
  · by_cases hhi : max ≤ v
    · exact ⟨_, (C102_clamps points min max h h2 v).2 hhi⟩
    · obtain ⟨k, a, b, c, _⟩ := find_cell points min max h h2 v (by linarith) (by linarith)
      exact ⟨_, lookup_cell points min max h hw v k a b c⟩

/-- **C102**: lookup in a monotone table is monotone. -/
theorem C102_monotone (points : List ℚ) (hm : Monotone points) (min max : ℚ) (h : min < max) (h2 : 2 ≤ points.length) (hw : points.length ≤ 2 ^ 32) (u v : ℚ) (huv : u ≤ v) (a b : ℚ)
    (ha : lookup points min max u = .ok a) (hb : lookup points min max v = .ok b) : a ≤ b := by
  have hd : (0 : ℚ) < max - min := by linarith
  have hn : (0 : ℚ) < ((points.length - 1 : Nat) : ℚ) := by exact_mod_cast (show 0 < points.length - 1 by omega)
  -- reduce to arguments inside the range
  have inside : ∀ u v, min ≤ u → u ≤ v → v ≤ max → ∀ a b, lookup points min max u = .ok a → lookup points min max v = .ok b → a ≤ b := by
    intro u v hu huv hv a b ha hb
    obtain ⟨i, i1, i2, i3, i4⟩ := find_cell points min max h h2 u hu (by linarith)
    obtain ⟨j, j1, j2, j3, j4⟩ := find_cell points min max h h2 v (by linarith) hv
    rw [lookup_cell points min max h hw u i i1 i2 i3] at ha
    rw [lookup_cell points min max h hw v j j1 j2 j3] at hb
    injection ha with ha
    injection hb with hb
    have hpos : pos points.length min max u ≤ pos points.length min max v := by
      unfold pos
      apply mul_le_mul_of_nonneg_right _ (le_of_lt hn)
      exact div_le_div_of_nonneg_right (by linarith) (le_of_lt hd)
    have mi := hm i (i + 1) (by omega) i3
    have mj := hm j (j + 1) (by omega) j3
    obtain ⟨x, hx⟩ : ∃ x, pos points.length min max u = x := ⟨_, rfl⟩
    obtain ⟨y, hy⟩ : ∃ y, pos points.length min max v = y := ⟨_, rfl⟩
    rw [hx] at ha i1 i2 i4 hpos
    rw [hy] at hb j1 j2 j4 hpos
    rcases Nat.lt_trichotomy i j with hij | hij | hij
    · -- different cells: a ≤ upper of i ≤ lower of j ≤ b
      have h3 := hm (i + 1) j hij (by omega)
      have h4 : a ≤ at' points (i + 1) := by rw [← ha]; unfold lerp; nlinarith
      have h5 : at' points j ≤ b := by rw [← hb]; unfold lerp; nlinarith
      linarith
    · subst hij
      rw [← ha, ← hb]; unfold lerp; nlinarith
    · -- i > j: only possible at a common grid point
      exfalso
      have : (j : ℚ) + 1 ≤ i := by exact_mod_cast hij
      rcases j4 with j4 | j4
      · linarith
      · have : i + 1 < points.length := i3
        omega
  obtain ⟨first, hfirst⟩ : ∃ r, lookup points min max min = .ok r := ⟨_, (C102_clamps points min max h h2 min).1 (le_refl _)⟩
  obtain ⟨last, hlast⟩ : ∃ r, lookup points min max max = .ok r := ⟨_, (C102_clamps points min max h h2 max).2 (le_refl _)⟩
  -- clamp an argument into the range
  have clampEq : ∀ w, ∃ w', min ≤ w' ∧ w' ≤ max ∧ lookup points min max w = lookup points min max w' ∧ w' = Max.max min (Min.min max w) := by
    intro w
    by_cases h1 : w ≤ min
    · refine ⟨min, le_refl _, le_of_lt h, ?_, ?_⟩
      · rw [(C102_clamps points min max h h2 w).1 h1, (C102_clamps points min max h h2 min).1 (le_refl _)]
      · rw [min_eq_right (by linarith), max_eq_left h1]
    · by_cases h3 : max ≤ w
      · refine ⟨max, le_of_lt h, le_refl _, ?_, ?_⟩
        · rw [(C102_clamps points min max h h2 w).2 h3, (C102_clamps points min max h h2 max).2 (le_refl _)]
        · rw [min_eq_left h3, max_eq_right (le_of_lt h)]
      · refine ⟨w, by linarith, by linarith, rfl, ?_⟩
        rw [min_eq_right (by linarith), max_eq_right (by linarith)]
  obtain ⟨u', u1, u2, u3, u4⟩ := clampEq u
  obtain ⟨v', v1, v2, v3, v4⟩ := clampEq v
  rw [u3] at ha
  rw [v3] at hb
  refine inside u' v' u1 ?_ v2 a b ha hb
  rw [u4, v4]
  exact max_le_max (le_refl _) (min_le_min (le_refl _) huv)

/-- **C102**: a table generated from a function is exact at its grid points. -/
theorem C102_generate (n : Nat) (h2 : 2 ≤ n) (hw : n ≤ 2 ^ 32) (min max : ℚ) (h : min < max) (f : ℚ → ℚ) (i : Nat) (hi : i < n) (x : ℚ) (hx : x = min + i * (max - min) / ((n : ℚ) - 1)) :
    generateLookup n min max f x = .ok (f x) := by
  have hlen : (create n min max f).length = n := by simp [create]
  have hnq : ((n - 1 : Nat) : ℚ) = (n : ℚ) - 1 := by
    rw [Nat.cast_sub (by omega)]; norm_num
  have hat : ∀ j, j < n → at' (create n min max f) j = f (min + j * (max - min) / ((n : ℚ) - 1)) := by
    intro j hj
    unfold at' create
    rw [List.getD_eq_getElem?_getD, List.getElem?_map, List.getElem?_range hj]; rfl
  have hx' : ∀ j : Nat, min + (j : ℚ) * (max - min) / ((n : ℚ) - 1) = min + j * ((max - min) / (((create n min max f).length - 1 : Nat) : ℚ)) := by
    intro j; rw [hlen, hnq]; ring
  unfold generateLookup
  by_cases hl : i + 1 < n
  · have := (C102_interpolates (create n min max f) min max h (by rw [hlen]; exact hw) _ rfl i (by rw [hlen]; exact hl) 0 (le_refl _) (by norm_num)).2.2.1
    rw [hx, hx' i, this, hat i hi, ← hx' i]
  · have e : i = i - 1 + 1 := by omega
    have := (C102_interpolates (create n min max f) min max h (by rw [hlen]; exact hw) _ rfl (i - 1) (by rw [hlen]; omega) 0 (le_refl _) (by norm_num)).2.2.2
    have hc : ((i - 1 : Nat) : ℚ) + 1 = i := by
      have : ((i - 1 + 1 : Nat) : ℚ) = (i : ℚ) := by rw [← e]
      push_cast at this; exact this
    rw [hc, ← e] at this
    rw [hx, hx' i, this, hat i hi, ← hx' i]

example : lookup [4, 0, 4] (-2) 2 (-1) = .ok 2 ∧ Monotone [1, 2, 2] := by
  constructor
  · have := (C102_interpolates [4, 0, 4] (-2) 2 (by norm_num) (by norm_num) 2 (by norm_num) 0 (by norm_num) (1/2) (by norm_num) (by norm_num)).1
    have e : (-2 : ℚ) + (((0 : Nat) : ℚ) + 1 / 2) * 2 = -1 := by norm_num
    rw [e] at this
    rw [this]; unfold lerp at'; norm_num
  · intro i j hij hj
    have hj' : j < 3 := hj
    unfold at'
    have : ∀ i : Fin 3, ∀ j : Fin 3, i ≤ j → ([1, 2, 2] : List ℚ).getD i 0 ≤ ([1, 2, 2] : List ℚ).getD j 0 := by decide
    exact this ⟨i, by omega⟩ ⟨j, hj'⟩ hij

end LookupTable
