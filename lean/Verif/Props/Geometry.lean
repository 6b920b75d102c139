import Verif.Model.Geometry
import Mathlib.Tactic.Linarith
import Mathlib.Tactic.Ring
import Mathlib.Tactic.NormNum
/-! # Properties C111 and C112: geometry -/

namespace RectC

/-- A point lies in the closed rectangle. -/
def Contains (r : RectC) (x y : Int) : Prop := r.left ≤ x ∧ x ≤ r.right ∧ r.top ≤ y ∧ y ≤ r.bottom

/-- Not inverted. -/
def Valid (r : RectC) : Prop := r.left ≤ r.right ∧ r.top ≤ r.bottom

theorem share_iff (r o : RectC) (hr : r.Valid) (ho : o.Valid) :
    (∃ x y, r.Contains x y ∧ o.Contains x y) ↔ r.left ≤ o.right ∧ o.left ≤ r.right ∧ r.top ≤ o.bottom ∧ o.top ≤ r.bottom := by
  unfold Valid at *
  constructor
  · rintro ⟨x, y, h1, h2⟩
    unfold Contains at *
    omega
  · intro h
    refine ⟨max r.left o.left, max r.top o.top, ?_, ?_⟩ <;> unfold Contains <;> omega

/-- **C111** (partial). For non-inverted rectangles is_intersecting is exact unless `other` lies strictly inside this rectangle's horizontal extent; in the vertical direction it is always exact. -/
theorem C111_exact_partial (r o : RectC) (hr : r.Valid) (ho : o.Valid) (hx : ¬ (r.left < o.left ∧ o.right < r.right)) :
    r.isIntersecting o = true ↔ ∃ x y, r.Contains x y ∧ o.Contains x y := by
  rw [share_iff r o hr ho]
  unfold Valid at *
  unfold isIntersecting yIntersects xIntersects
  simp only [Bool.and_eq_true, Bool.or_eq_true, decide_eq_true_eq]
  omega

example := C111_exact_partial ⟨0, 0, 4, 4⟩ ⟨2, 3, 9, 9⟩ (by unfold RectC.Valid; decide) (by unfold RectC.Valid; decide) (by decide)

/-- **C111**: is_intersecting never holds for rectangles without a common point. -/
theorem C111_sound (r o : RectC) (hr : r.Valid) (ho : o.Valid) (h : r.isIntersecting o = true) : ∃ x y, r.Contains x y ∧ o.Contains x y := by
  rw [share_iff r o hr ho]
  unfold Valid at *
  unfold isIntersecting yIntersects xIntersects at h
  simp only [Bool.and_eq_true, Bool.or_eq_true, decide_eq_true_eq] at h
  omega

example := C111_sound ⟨0, 0, 4, 4⟩ ⟨2, 3, 9, 9⟩ (by unfold RectC.Valid; decide) (by unfold RectC.Valid; decide) (by decide)

/-- **C111**: y_intersects is exact and symmetric. -/
theorem C111_y (r o : RectC) (hr : r.Valid) (ho : o.Valid) : (r.yIntersects o = true ↔ ∃ y, (r.top ≤ y ∧ y ≤ r.bottom) ∧ o.top ≤ y ∧ y ≤ o.bottom) ∧ r.yIntersects o = o.yIntersects r := by
  unfold Valid at *
  constructor
  · unfold yIntersects
    simp only [Bool.and_eq_true, Bool.or_eq_true, decide_eq_true_eq]
    constructor
    · intro h; exact ⟨max r.top o.top, by omega, by omega⟩
    · rintro ⟨y, h⟩; omega
  · rw [Bool.eq_iff_iff]
    unfold yIntersects
    simp only [Bool.and_eq_true, Bool.or_eq_true, decide_eq_true_eq]
    omega

example := C111_y ⟨0, 0, 4, 4⟩ ⟨2, 3, 9, 9⟩ (by unfold RectC.Valid; decide) (by unfold RectC.Valid; decide)

/-- **C111** violated: whenever `other` lies strictly inside this rectangle's horizontal extent (so that they may well share points) the answer is no, while the other way round it is right. -/
theorem C111_contained_violated (r o : RectC) (ho : o.Valid) (hx : r.left < o.left ∧ o.right < r.right) : r.isIntersecting o = false ∧ o.xIntersects r = true := by
  unfold Valid at *
  constructor
  · have : ¬ r.xIntersects o = true := by
      unfold xIntersects
      simp only [Bool.and_eq_true, Bool.or_eq_true, decide_eq_true_eq]
      omega
    unfold isIntersecting
    simp [Bool.not_eq_true _ ▸ this]
  · unfold xIntersects
    simp only [Bool.and_eq_true, Bool.or_eq_true, decide_eq_true_eq]
    omega

/-- A concrete instance: the unit square inside a larger one; not symmetric. -/
theorem C111_asymmetric_violated : isIntersecting ⟨0, 0, 10, 10⟩ ⟨4, 4, 5, 5⟩ = false ∧ isIntersecting ⟨4, 4, 5, 5⟩ ⟨0, 0, 10, 10⟩ = true ∧ Contains ⟨0, 0, 10, 10⟩ 4 4 ∧ Contains ⟨4, 4, 5, 5⟩ 4 4 := by
  refine ⟨by decide, by decide, ?_, ?_⟩ <;> (unfold Contains; decide)

/-- **C111**: width, height and centre. -/
theorem C111_size (r : RectC) (hr : r.Valid) (h1 : r.right - r.left ≤ 2147483647) (h2 : r.bottom - r.top ≤ 2147483647) :
    r.width = .ok (r.right - r.left) ∧ r.height = .ok (r.bottom - r.top) ∧
    (∀ c, r.centerX = .ok c → r.left ≤ c ∧ c ≤ r.right ∧ -1 ≤ (c - r.left) - (r.right - c) ∧ (c - r.left) - (r.right - c) ≤ 1) ∧
    (∀ c, r.centerY = .ok c → r.top ≤ c ∧ c ≤ r.bottom ∧ -1 ≤ (c - r.top) - (r.bottom - c) ∧ (c - r.top) - (r.bottom - c) ≤ 1) := by
  unfold Valid at *
  have tdiv2 : ∀ s : Int, (s.tdiv 2) * 2 - 1 ≤ s ∧ s ≤ s.tdiv 2 * 2 + 1 ∧ (0 ≤ s → s.tdiv 2 * 2 ≤ s) ∧ (s ≤ 0 → s ≤ s.tdiv 2 * 2) := by
    intro s
    rcases le_total 0 s with h | h
    · rw [Int.tdiv_eq_ediv_of_nonneg h]; omega
    · obtain ⟨t, rfl⟩ : ∃ t, s = -t := ⟨-s, by omega⟩
      rw [Int.neg_tdiv, Int.tdiv_eq_ediv_of_nonneg (by omega)]; omega
  refine ⟨?_, ?_, ?_, ?_⟩
  · unfold width fit32; rw [if_pos (by omega)]
  · unfold height fit32; rw [if_pos (by omega)]
  · intro c hc
    unfold centerX fit32 at hc
    split at hc
    · simp only [R.bind_ok, R.ok.injEq] at hc
      have := tdiv2 (r.left + r.right)
      omega
    · cases hc
  · intro c hc
    unfold centerY fit32 at hc
    split at hc
    · simp only [R.bind_ok, R.ok.injEq] at hc
      have := tdiv2 (r.top + r.bottom)
      omega
    · cases hc

/-- **C111** (Rect): right and bottom, and the centre halfway. -/
theorem C111_rect (r : Rect) (hw : 0 ≤ r.width) (hh : 0 ≤ r.height) (hl : -2147483648 ≤ r.left) (ht : -2147483648 ≤ r.top) (h1 : r.left + r.width ≤ 2147483647) (h2 : r.top + r.height ≤ 2147483647) :
    r.right = .ok (r.left + r.width) ∧ r.bottom = .ok (r.top + r.height) ∧ r.centerX = .ok (r.left + r.width / 2) ∧ r.centerY = .ok (r.top + r.height / 2) := by
  unfold Rect.right Rect.bottom Rect.centerX Rect.centerY fit32
  rw [Int.tdiv_eq_ediv_of_nonneg hw, Int.tdiv_eq_ediv_of_nonneg hh]
  refine ⟨?_, ?_, ?_, ?_⟩ <;> rw [if_pos (by omega)]

/-- **C111**: width and height are undefined exactly if the difference does not fit `int32_t`. -/
theorem C111_overflow (r : RectC) : (r.width = .ub ↔ ¬ (-2 ^ 31 ≤ r.right - r.left ∧ r.right - r.left < 2 ^ 31)) ∧ (r.height = .ub ↔ ¬ (-2 ^ 31 ≤ r.bottom - r.top ∧ r.bottom - r.top < 2 ^ 31)) ∧
    (r.centerX = .ub ↔ ¬ (-2 ^ 31 ≤ r.left + r.right ∧ r.left + r.right < 2 ^ 31)) ∧ (r.centerY = .ub ↔ ¬ (-2 ^ 31 ≤ r.top + r.bottom ∧ r.top + r.bottom < 2 ^ 31)) := by
  unfold width height centerX centerY fit32
  refine ⟨?_, ?_, ?_, ?_⟩ <;> split <;> simp <;> omega

example : Valid ⟨0, 0, 10, 10⟩ ∧ isIntersecting ⟨0, 0, 10, 10⟩ ⟨10, 5, 20, 6⟩ = true ∧ isIntersecting ⟨0, 0, 10, 10⟩ ⟨11, 5, 20, 6⟩ = false := by
  unfold Valid; decide

end RectC

namespace Poly

/-- The i-th vertex, cyclically. -/
def at' (pts : List (Int × Int)) (i : Nat) : Int × Int := pts.getD (i % pts.length) (0, 0)

/-- The turn at vertices i, i+1, i+2. -/
def turn (pts : List (Int × Int)) (i : Nat) : Int := cross (at' pts i) (at' pts (i + 1)) (at' pts (i + 2))

theorem at'_get (pts : List (Int × Int)) (h : pts ≠ []) (i : Nat) : pts[i % pts.length]? = some (at' pts i) := by
  have : i % pts.length < pts.length := Nat.mod_lt _ (List.length_pos_iff.mpr h)
  unfold at'
  rw [List.getD_eq_getElem?_getD, List.getElem?_eq_getElem this]; rfl

theorem crosses_eq (pts : List (Int × Int)) (h : pts ≠ []) : crosses pts = (List.range pts.length).map (turn pts) := by
  unfold crosses
  rw [← List.filterMap_eq_map]
  apply List.filterMap_congr
  intro i hi
  have hi' : i % pts.length = i := Nat.mod_eq_of_lt (List.mem_range.mp hi)
  have e0 : pts[i]? = some (at' pts i) := by have := at'_get pts h i; rwa [hi'] at this
  rw [e0, at'_get pts h (i + 1), at'_get pts h (i + 2)]
  rfl

/-- The loop finds cross products of opposite sign. -/
theorem loop_iff (cs : List Int) : ∀ sign : Int, loop (fun c : Int => decide (c = 0)) (fun c => decide (c < 0)) (fun c => decide (c > 0)) id sign cs = true ↔
    (sign > 0 ∧ ∃ c ∈ cs, c < 0) ∨ (sign < 0 ∧ ∃ c ∈ cs, c > 0) ∨ (sign = 0 ∧ (∃ c ∈ cs, c < 0) ∧ ∃ c ∈ cs, c > 0) := by
  induction cs with
  | nil => intro sign; simp [loop]
  | cons c cs ih =>
    intro sign
    rw [loop]
    by_cases h0 : c = 0
    · rw [if_pos (by simp [h0]), ih]
      simp [h0]
    · rw [if_neg (by simp [h0])]
      simp only [decide_eq_true_eq, id]
      obtain ⟨s, hs⟩ : ∃ s, (if sign = 0 then c else sign) = s := ⟨_, rfl⟩
      rw [hs]
      simp only [List.mem_cons, exists_eq_or_imp]
      by_cases hc : (s > 0 ∧ c < 0) ∨ (s < 0 ∧ c > 0)
      · rw [if_pos hc]
        simp only [true_iff]
        split at hs
        · omega
        · rcases hc with hc | hc
          · left; exact ⟨by omega, .inl hc.2⟩
          · right; left; exact ⟨by omega, .inl hc.2⟩
      · rw [if_neg hc, ih s]
        split at hs
        · next hz =>
          subst hs
          have h1 : ¬ c = 0 := h0
          rcases lt_or_gt_of_ne h0 with hlt | hgt
          · simp [hz, hlt, show ¬ 0 < c by omega, h0]
          · simp [hz, hgt, show ¬ c < 0 by omega, h0]
        · next hz =>
          subst hs
          rcases lt_or_gt_of_ne hz with hlt | hgt
          · simp [hz, hlt, show ¬ 0 < sign by omega]; omega
          · simp [hz, hgt, show ¬ sign < 0 by omega]; omega

/-- The characterisation: at least three vertices, and a left turn as well as a right turn somewhere. -/
theorem C112_iff (pts : List (Int × Int)) : isConcave pts = true ↔ 3 ≤ pts.length ∧ (∃ i < pts.length, turn pts i < 0) ∧ ∃ i < pts.length, turn pts i > 0 := by
  unfold isConcave
  by_cases h : pts.length < 3
  · rw [if_pos h]; simp; omega
  · rw [if_neg h, loop_iff, crosses_eq pts (by rintro rfl; simp at h)]
    simp only [gt_iff_lt, lt_irrefl, false_and, false_or, true_and, List.mem_map, List.mem_range]
    constructor
    · rintro ⟨⟨_, ⟨i, hi, rfl⟩, h1⟩, ⟨_, ⟨j, hj, rfl⟩, h2⟩⟩
      exact ⟨by omega, ⟨i, hi, h1⟩, ⟨j, hj, h2⟩⟩
    · rintro ⟨_, ⟨i, hi, h1⟩, ⟨j, hj, h2⟩⟩
      exact ⟨⟨_, ⟨i, hi, rfl⟩, h1⟩, ⟨_, ⟨j, hj, rfl⟩, h2⟩⟩

theorem turn_mod (pts : List (Int × Int)) (i : Nat) : turn pts (i % pts.length) = turn pts i := by
  unfold turn at'
  rw [Nat.mod_mod, Nat.mod_add_mod, Nat.mod_add_mod]

/-- Reading `i < n` of a cyclic property as "some i". -/
theorem ex_turn (pts : List (Int × Int)) (h : 3 ≤ pts.length) (P : Int → Prop) : (∃ i < pts.length, P (turn pts i)) ↔ ∃ i, P (turn pts i) :=
  ⟨fun ⟨i, _, hp⟩ => ⟨i, hp⟩, fun ⟨i, hp⟩ => ⟨i % pts.length, Nat.mod_lt _ (by omega), by rw [turn_mod]; exact hp⟩⟩

/-- **C112**: the starting vertex does not matter. -/
theorem C112_rotate (pts : List (Int × Int)) (k : Nat) : isConcave (pts.drop (k % pts.length) ++ pts.take (k % pts.length)) = isConcave pts := by
  obtain ⟨q, hq⟩ : ∃ q, pts.drop (k % pts.length) ++ pts.take (k % pts.length) = q := ⟨_, rfl⟩
  rw [hq]
  have hlen : q.length = pts.length := by rw [← hq]; simp; by_cases h : pts.length = 0 <;> [simp [h]; (have := Nat.mod_lt k (Nat.pos_of_ne_zero h); omega)]
  rw [Bool.eq_iff_iff, C112_iff, C112_iff, hlen]
  by_cases h3 : 3 ≤ pts.length
  · have hat : ∀ i, at' q i = at' pts (i + k) := by
      intro i
      unfold at'
      rw [hlen]
      obtain ⟨r, hr⟩ : ∃ r, k % pts.length = r := ⟨_, rfl⟩
      have hrl : r < pts.length := by rw [← hr]; exact Nat.mod_lt _ (by omega)
      obtain ⟨j, hj⟩ : ∃ j, i % pts.length = j := ⟨_, rfl⟩
      have hjl : j < pts.length := by rw [← hj]; exact Nat.mod_lt _ (by omega)
      have hm : (i + k) % pts.length = (j + r) % pts.length := by rw [← hj, ← hr, ← Nat.add_mod]
      rw [hj, hm, ← hq, hr]
      simp only [List.getD_eq_getElem?_getD]
      congr 1
      by_cases hc : j < pts.length - r
      · rw [List.getElem?_append_left (by simp; omega), List.getElem?_drop, Nat.mod_eq_of_lt (by omega), Nat.add_comm]
      · rw [List.getElem?_append_right (by simp; omega), List.length_drop, List.getElem?_take_of_lt (by omega)]
        have : (j + r) % pts.length = j - (pts.length - r) := by
          rw [show j + r = (j - (pts.length - r)) + pts.length by omega, Nat.add_mod_right, Nat.mod_eq_of_lt (by omega)]
        rw [this]
    have ht : ∀ i, turn q i = turn pts (i + k) := by
      intro i
      unfold turn
      rw [hat, hat, hat]
      rw [show i + 1 + k = i + k + 1 by omega, show i + 2 + k = i + k + 2 by omega]
    have key : ∀ P : Int → Prop, (∃ i < pts.length, P (turn q i)) ↔ ∃ i < pts.length, P (turn pts i) := by
      intro P
      have e := ex_turn q (by omega) P
      rw [hlen] at e
      rw [e, ex_turn pts h3 P]
      constructor
      · rintro ⟨i, hi⟩; exact ⟨i + k, by rw [← ht]; exact hi⟩
      · rintro ⟨i, hi⟩
        refine ⟨i + (pts.length - k % pts.length), ?_⟩
        rw [ht, ← turn_mod]
        have : (i + (pts.length - k % pts.length) + k) % pts.length = i % pts.length := by
          have hk := Nat.mod_lt k (show 0 < pts.length by omega)
          have hd := Nat.div_add_mod k pts.length
          have : i + (pts.length - k % pts.length) + k = i + pts.length * (k / pts.length + 1) := by rw [Nat.mul_add, Nat.mul_one]; omega
          rw [this, Nat.add_mul_mod_self_left]
        rw [this, turn_mod]; exact hi
    rw [key (· < 0), key (· > 0)]
  · simp [h3]

theorem cross_reverse (o a b : Int × Int) : cross b a o = - cross o a b := by unfold cross; ring

/-- **C112**: the orientation does not matter. -/
theorem C112_reverse (pts : List (Int × Int)) : isConcave pts.reverse = isConcave pts := by
  rw [Bool.eq_iff_iff, C112_iff, C112_iff, List.length_reverse]
  by_cases h3 : 3 ≤ pts.length
  · -- position i of the reversed list is position n-1-i
    have hat : ∀ i, i < pts.length → at' pts.reverse i = at' pts (pts.length - 1 - i) := by
      intro i hi
      unfold at'
      rw [List.length_reverse, Nat.mod_eq_of_lt hi, Nat.mod_eq_of_lt (by omega)]
      simp only [List.getD_eq_getElem?_getD]
      rw [List.getElem?_reverse hi]
    have hatm : ∀ (l : List (Int × Int)) i, at' l (i % l.length) = at' l i := by intro l i; unfold at'; rw [Nat.mod_mod]
    have hat2 : ∀ i, at' pts.reverse i = at' pts (pts.length - 1 - i % pts.length) := by
      intro i
      rw [← hatm, List.length_reverse, hat _ (Nat.mod_lt _ (by omega))]
    have sub : ∀ i d, d ≤ 2 → at' pts (pts.length - 1 - (i + d) % pts.length) = at' pts ((pts.length - 1 - i % pts.length) + pts.length - d) := by
      intro i d hd
      obtain ⟨n, hn⟩ : ∃ n, pts.length = n := ⟨_, rfl⟩
      rw [hn] at h3 ⊢
      have hi := Nat.mod_lt i (show 0 < n by omega)
      have e : (i + d) % n = (i % n + d) % n := by rw [Nat.mod_add_mod]
      rw [e]
      obtain ⟨j, hj⟩ : ∃ j, i % n = j := ⟨_, rfl⟩
      rw [hj] at hi ⊢
      unfold at'
      rw [hn]
      congr 1
      by_cases hc : j + d < n
      · rw [Nat.mod_eq_of_lt hc, Nat.mod_eq_of_lt (by omega : n - 1 - (j + d) < n)]
        rw [show n - 1 - j + n - d = (n - 1 - (j + d)) + n by omega, Nat.add_mod_right, Nat.mod_eq_of_lt (by omega)]
      · have e2 : (j + d) % n = j + d - n := by rw [Nat.mod_eq_sub_mod (by omega), Nat.mod_eq_of_lt (by omega)]
        rw [e2, Nat.mod_eq_of_lt (by omega : n - 1 - (j + d - n) < n)]
        rw [Nat.mod_eq_of_lt (by omega)]; omega
    have ht : ∀ i, turn pts.reverse i = - turn pts ((pts.length - 1 - i % pts.length) + pts.length - 2) := by
      intro i
      unfold turn
      rw [hat2 i, hat2 (i + 1), hat2 (i + 2), sub i 1 (by omega), sub i 2 (by omega)]
      have e0 := sub i 0 (by omega)
      rw [Nat.add_zero, Nat.sub_zero] at e0
      rw [e0, cross_reverse]
      have hi := Nat.mod_lt i (show 0 < pts.length by omega)
      rw [show pts.length - 1 - i % pts.length + pts.length - 2 + 1 = pts.length - 1 - i % pts.length + pts.length - 1 by omega,
        show pts.length - 1 - i % pts.length + pts.length - 2 + 2 = pts.length - 1 - i % pts.length + pts.length by omega]
    have key : ∀ P Q : Int → Prop, (∀ x, P (-x) ↔ Q x) → ((∃ i < pts.length, P (turn pts.reverse i)) ↔ ∃ i < pts.length, Q (turn pts i)) := by
      intro P Q hPQ
      have e := ex_turn pts.reverse (by rw [List.length_reverse]; omega) P
      rw [List.length_reverse] at e
      rw [e, ex_turn pts h3 Q]
      constructor
      · rintro ⟨i, hi⟩; rw [ht] at hi; exact ⟨_, (hPQ _).mp hi⟩
      · rintro ⟨i, hi⟩
        -- choose the index whose image is i
        refine ⟨2 * pts.length - 3 - i % pts.length, ?_⟩
        rw [ht]
        apply (hPQ _).mpr
        have hm := Nat.mod_lt i (show 0 < pts.length by omega)
        rw [← turn_mod] at hi ⊢
        have : (pts.length - 1 - (2 * pts.length - 3 - i % pts.length) % pts.length + pts.length - 2) % pts.length = i % pts.length := by
          obtain ⟨n, hn⟩ : ∃ n, pts.length = n := ⟨_, rfl⟩
          obtain ⟨j, hj⟩ : ∃ j, i % n = j := ⟨_, rfl⟩
          rw [hn] at h3 hm ⊢
          rw [hj] at hm ⊢
          by_cases hc : 2 * n - 3 - j < n
          · rw [Nat.mod_eq_of_lt hc]
            by_cases hc2 : n - 1 - (2 * n - 3 - j) + n - 2 < n
            · rw [Nat.mod_eq_of_lt hc2]; omega
            · rw [Nat.mod_eq_sub_mod (by omega), Nat.mod_eq_of_lt (by omega)]; omega
          · have e : (2 * n - 3 - j) % n = 2 * n - 3 - j - n := by rw [Nat.mod_eq_sub_mod (by omega), Nat.mod_eq_of_lt (by omega)]
            rw [e]
            by_cases hc2 : n - 1 - (2 * n - 3 - j - n) + n - 2 < n
            · rw [Nat.mod_eq_of_lt hc2]; omega
            · rw [Nat.mod_eq_sub_mod (by omega), Nat.mod_eq_of_lt (by omega)]; omega
        rw [this]; exact hi
    rw [key (· < 0) (· > 0) (fun x => by omega), key (· > 0) (· < 0) (fun x => by omega)]
    simp only [h3, true_and]
    exact And.comm
  · simp [h3]

theorem turn_map (pts : List (Int × Int)) (f : Int × Int → Int × Int) (h : 3 ≤ pts.length) (i : Nat) :
    turn (pts.map f) i = cross (f (at' pts i)) (f (at' pts (i + 1))) (f (at' pts (i + 2))) := by
  have : ∀ j, at' (pts.map f) j = f (at' pts j) := by
    intro j
    have hj : j % pts.length < pts.length := Nat.mod_lt _ (by omega)
    unfold at'
    rw [List.length_map]
    simp [List.getD_eq_getElem?_getD, hj]
  unfold turn
  rw [this, this, this]

/-- **C112**: translation does not matter; neither does scaling by a positive integer. -/
theorem C112_translate (pts : List (Int × Int)) (d : Int × Int) (k : Int) (hk : 0 < k) : isConcave (pts.map fun p => (k * p.1 + d.1, k * p.2 + d.2)) = isConcave pts := by
  rw [Bool.eq_iff_iff, C112_iff, C112_iff, List.length_map]
  by_cases h3 : 3 ≤ pts.length
  · have ht : ∀ i, turn (pts.map fun p => (k * p.1 + d.1, k * p.2 + d.2)) i = k * k * turn pts i := by
      intro i
      rw [turn_map pts _ h3]
      unfold turn cross
      simp only
      ring
    have hkk : 0 < k * k := Int.mul_pos hk hk
    have hn : ∀ x : Int, k * k * x < 0 ↔ x < 0 := fun x => by constructor <;> intro h <;> nlinarith
    have hp : ∀ x : Int, k * k * x > 0 ↔ x > 0 := fun x => by constructor <;> intro h <;> nlinarith
    simp only [ht, hn, hp]
  · simp [h3]

example := C112_translate [(0, 0), (4, 0), (1, 1), (0, 4)] (-7, 3) 5 (by decide)

/-- Convex: all vertices lie on one (fixed) side of every edge line, or on it. -/
def Convex (pts : List (Int × Int)) : Prop :=
  (∀ i j, i < pts.length → j < pts.length → 0 ≤ cross (at' pts i) (at' pts (i + 1)) (at' pts j)) ∨ (∀ i j, i < pts.length → j < pts.length → cross (at' pts i) (at' pts (i + 1)) (at' pts j) ≤ 0)

/-- **C112**: is_poly_concave is false for every convex polygon. -/
theorem C112_convex (pts : List (Int × Int)) (h : Convex pts) : isConcave pts = false := by
  rw [← Bool.not_eq_true, C112_iff]
  rintro ⟨h3, ⟨i, hi, h1⟩, ⟨j, hj, h2⟩⟩
  have hat : ∀ i, at' pts (i % pts.length) = at' pts i := by intro i; unfold at'; rw [Nat.mod_mod]
  rcases h with h | h
  · have := h i ((i + 2) % pts.length) hi (Nat.mod_lt _ (by omega))
    rw [hat] at this
    unfold turn at h1; omega
  · have := h j ((j + 2) % pts.length) hj (Nat.mod_lt _ (by omega))
    rw [hat] at this
    unfold turn at h2; omega

example := C112_convex [(0, 0), (2, 0), (2, 2), (0, 2)] (by
  left
  have : ∀ i < 4, ∀ j < 4, 0 ≤ cross (at' [(0, 0), (2, 0), (2, 2), (0, 2)] i) (at' [(0, 0), (2, 0), (2, 2), (0, 2)] (i + 1)) (at' [(0, 0), (2, 0), (2, 2), (0, 2)] j) := by decide
  exact fun i j hi hj => this i hi j hj)

/-- **C112**: is_poly_concave is false for triangles, and for fewer points. -/
theorem C112_triangle (a b c : Int × Int) : isConcave [a, b, c] = false ∧ isConcave [a, b] = false ∧ isConcave [a] = false ∧ isConcave [] = false := by
  refine ⟨?_, rfl, rfl, rfl⟩
  rw [← Bool.not_eq_true, C112_iff]
  rintro ⟨_, ⟨i, hi, h1⟩, ⟨j, hj, h2⟩⟩
  have h : ∀ i < 3, turn [a, b, c] i = cross a b c := by
    intro i hi
    have : i = 0 ∨ i = 1 ∨ i = 2 := by omega
    rcases this with rfl | rfl | rfl <;> (simp [turn, at', cross]; try ring)
  rw [h i hi] at h1
  rw [h j hj] at h2
  omega

/-- Not for other coordinate types (violated): with floating-point coordinates a concave polygon of small size is not recognised, because the first turn is stored in an `int`. -/
theorem C112_float_violated : isConcaveF [(0, 0), (1/2, 0), (1/4, 1/8), (1/2, 1/2)] = false ∧ isConcave [(0, 0), (4, 0), (2, 1), (4, 4)] = true := by
  constructor
  · decide +kernel
  · decide

/-- Not for other coordinate types (violated): with `uint32_t` coordinates a clockwise triangle is called concave. -/
theorem C112_unsigned_violated : isConcaveU [(0, 0), (0, 1), (1, 0)] = true := by decide

/-! ### `int` arithmetic -/

theorem cross32_eq (o a b : Int × Int) (h1 : |a.1 - o.1| ≤ 32767) (h2 : |a.2 - o.2| ≤ 32767) (h3 : |b.1 - o.1| ≤ 32767) (h4 : |b.2 - o.2| ≤ 32767) : cross32 o a b = .ok (cross o a b) := by
  have m : ∀ x y : Int, |x| ≤ 32767 → |y| ≤ 32767 → |x * y| ≤ 32767 * 32767 := fun x y hx hy => by rw [abs_mul]; exact mul_le_mul hx hy (abs_nonneg _) (by norm_num)
  have e1 := m _ _ h1 h4
  have e2 := m _ _ h2 h3
  unfold cross32 cross RectC.fit32
  rw [abs_le] at h1 h2 h3 h4 e1 e2
  rw [if_pos (by omega)]
  simp only [R.bind_ok]
  rw [if_pos (by omega)]
  simp only [R.bind_ok]
  rw [if_pos (by omega)]
  simp only [R.bind_ok]
  rw [if_pos (by omega)]
  simp only [R.bind_ok]
  rw [if_pos (by omega)]
  simp only [R.bind_ok]
  rw [if_pos (by omega)]
  simp only [R.bind_ok]
  rw [if_pos (by omega)]

theorem loop32_eq (pts : List (Int × Int)) (h : ∀ p ∈ pts, ∀ q ∈ pts, |q.1 - p.1| ≤ 32767 ∧ |q.2 - p.2| ≤ 32767) (is : List Nat) : ∀ (_ : ∀ i ∈ is, i < pts.length) (sign : Int),
    loop32 pts sign is = .ok (loop (fun c : Int => decide (c = 0)) (fun c => decide (c < 0)) (fun c => decide (c > 0)) id sign (is.map (turn pts))) := by
  induction is with
  | nil => intro _ sign; rfl
  | cons i is ih =>
    intro hi sign
    have hil := hi i (by simp)
    have hne : pts ≠ [] := by rintro rfl; simp at hil
    have e0 : pts[i]? = some (at' pts i) := by have := at'_get pts hne i; rwa [Nat.mod_eq_of_lt hil] at this
    have e1 := at'_get pts hne (i + 1)
    have e2 := at'_get pts hne (i + 2)
    have m0 := List.mem_of_getElem? e0
    have m1 := List.mem_of_getElem? e1
    have m2 := List.mem_of_getElem? e2
    rw [loop32, arrGet_some e0, arrGet_some e1, arrGet_some e2]
    simp only [R.bind_ok, List.map_cons]
    rw [cross32_eq _ _ _ (h _ m0 _ m1).1 (h _ m0 _ m1).2 (h _ m0 _ m2).1 (h _ m0 _ m2).2, loop]
    have ih' := ih (fun j hj => hi j (by simp [hj]))
    change (if cross (at' pts i) (at' pts (i + 1)) (at' pts (i + 2)) = 0 then _ else _) = _
    rw [show cross (at' pts i) (at' pts (i + 1)) (at' pts (i + 2)) = turn pts i from rfl]
    simp only [decide_eq_true_eq, id, ih']
    split <;> [rfl; (split <;> split <;> rfl)]

/-- **C112**: for `uint8_t`, `int8_t` or any integer coordinates at most 32767 apart, the `int` arithmetic of is_poly_concave does not overflow and its answer is the exact one. -/
theorem C112_int (pts : List (Int × Int)) (h : ∀ p ∈ pts, ∀ q ∈ pts, |q.1 - p.1| ≤ 32767 ∧ |q.2 - p.2| ≤ 32767) : isConcave32 pts = .ok (isConcave pts) := by
  unfold isConcave32 isConcave
  split
  · rfl
  · next h3 => rw [loop32_eq pts h _ (fun i hi => List.mem_range.mp hi), crosses_eq pts (by rintro rfl; simp at h3)]

/-- Violated for larger coordinates: an `int16_t` square of full size overflows. -/
theorem C112_overflow_violated : isConcave32 [(-32768, -32768), (32767, -32768), (32767, 32767), (-32768, 32767)] = .ub := by decide +kernel

-- the points of the static_assert of geometry.hh:109-110
example : isConcave32 [(1, 1), (2, 1), (2, 0), (2, 2), (1, 2)] = .ok true := by decide +kernel

/-- **C112**: floating-point coordinates with integer values are judged like integers. -/
theorem C112_float_int (pts : List (Int × Int)) : isConcaveF (pts.map fun p => ((p.1 : ℚ), (p.2 : ℚ))) = isConcave pts := by
  have hc : crosses (pts.map fun p => ((p.1 : ℚ), (p.2 : ℚ))) = (crosses pts).map (fun c : Int => (c : ℚ)) := by
    unfold crosses
    rw [List.map_filterMap, List.length_map]
    apply List.filterMap_congr
    intro i _
    simp only [List.getElem?_map]
    cases pts[i]? <;> [rfl; skip]
    cases pts[(i + 1) % pts.length]? <;> [rfl; skip]
    cases pts[(i + 2) % pts.length]? <;> [rfl; skip]
    simp [cross]
  have hl : ∀ (cs : List Int) (sign : Int), loop (fun c : ℚ => decide (c = 0)) (fun c => decide (c < 0)) (fun c => decide (c > 0)) (fun c => if c ≥ 0 then ⌊c⌋ else ⌈c⌉) sign (cs.map fun c : Int => (c : ℚ)) =
      loop (fun c : Int => decide (c = 0)) (fun c => decide (c < 0)) (fun c => decide (c > 0)) id sign cs := by
    intro cs
    induction cs with
    | nil => intro sign; rfl
    | cons c cs ih =>
      intro sign
      rw [List.map_cons, loop, loop]
      have e : (if (c : ℚ) ≥ 0 then ⌊(c : ℚ)⌋ else ⌈(c : ℚ)⌉) = c := by split <;> simp
      simp only [e, decide_eq_true_eq, Int.cast_eq_zero, Int.cast_lt_zero, gt_iff_lt, Int.cast_pos, ih, id]
  unfold isConcaveF isConcave
  rw [List.length_map, hc, hl]

/-- **C112**: with `uint32_t` coordinates is_poly_concave only reports whether the first turn that is not straight (modulo 2^32) is negative as a 32-bit number. -/
theorem C112_unsigned_exact (pts : List (Int × Int)) (h3 : 3 ≤ pts.length) (k : Nat) (hk : k < pts.length) (hz : ∀ i < k, turn pts i % 2 ^ 32 = 0) (hn : turn pts k % 2 ^ 32 ≠ 0) :
    isConcaveU pts = true ↔ 2 ^ 31 ≤ turn pts k % 2 ^ 32 := by
  have hpos : ∀ (cs : List Int) (sign : Int), 0 < sign → (∀ c ∈ cs, 0 ≤ c) → loop (fun c : Int => decide (c = 0)) (fun c => decide (c < 0)) (fun c => decide (c > 0)) (fun c => if c < 2147483648 then c else c - 4294967296) sign cs = false := by
    intro cs
    induction cs with
    | nil => intro sign _ _; rfl
    | cons c cs ih =>
      intro sign hs hc
      have h0 := hc c (by simp)
      rw [loop]
      simp only [decide_eq_true_eq, if_neg (show sign ≠ 0 by omega), ih sign hs (fun c h => hc c (by simp [h]))]
      rw [if_neg (show ¬ ((sign > 0 ∧ c < 0) ∨ (sign < 0 ∧ c > 0)) by omega)]
      split <;> rfl
  have hfirst : ∀ (pre : List Int) (c : Int) (post : List Int), (∀ x ∈ pre, x = 0) → 0 < c → c < 2 ^ 32 → (∀ x ∈ post, 0 ≤ x) →
      (loop (fun c : Int => decide (c = 0)) (fun c => decide (c < 0)) (fun c => decide (c > 0)) (fun c => if c < 2147483648 then c else c - 4294967296) 0 (pre ++ c :: post) = true ↔ 2 ^ 31 ≤ c) := by
    intro pre
    induction pre with
    | nil =>
      intro c post _ h0 h1 hp
      rw [List.nil_append, loop]
      simp only [decide_eq_true_eq, if_neg (show c ≠ 0 by omega), if_true]
      by_cases hc : c < 2147483648
      · rw [if_pos hc, if_neg (by omega), hpos _ _ h0 hp]
        simp; omega
      · rw [if_neg hc, if_pos (by omega)]
        simp; omega
    | cons x pre ih =>
      intro c post hx h0 h1 hp
      rw [List.cons_append, loop, if_pos (by simp [hx x (by simp)])]
      exact ih c post (fun y hy => hx y (by simp [hy])) h0 h1 hp
  have hne : pts ≠ [] := by rintro rfl; simp at h3
  unfold isConcaveU
  rw [if_neg (by omega), crosses_eq pts hne, List.map_map]
  have split : List.range pts.length = List.range k ++ k :: (List.range (pts.length - k - 1)).map (k + 1 + ·) := by
    have e : pts.length = k + (1 + (pts.length - k - 1)) := by omega
    conv_lhs => rw [e, List.range_add, List.range_add]
    simp [List.range_one, List.map_map, Function.comp_def, Nat.add_assoc]
  rw [split, List.map_append, List.map_cons]
  have := hfirst ((List.range k).map ((fun x => x % 4294967296) ∘ turn pts)) (turn pts k % 4294967296) (((List.range (pts.length - k - 1)).map (k + 1 + ·)).map ((fun x => x % 4294967296) ∘ turn pts))
    (by
      intro x hx
      obtain ⟨i, hi, rfl⟩ := List.mem_map.mp hx
      exact hz i (List.mem_range.mp hi))
    (by
      have : turn pts k % 4294967296 ≠ 0 := hn
      omega)
    (by omega)
    (by
      intro x hx
      obtain ⟨i, _, rfl⟩ := List.mem_map.mp hx
      simp only [Function.comp]
      omega)
  exact this

example : (3 ≤ [((0 : Int), (0 : Int)), (0, 1), (1, 0)].length) ∧ turn [(0, 0), (0, 1), (1, 0)] 0 % 2 ^ 32 ≠ 0 := by decide

example : Convex [(0, 0), (2, 0), (2, 2), (0, 2)] := by
  left
  have : ∀ i < 4, ∀ j < 4, 0 ≤ cross (at' [(0, 0), (2, 0), (2, 2), (0, 2)] i) (at' [(0, 0), (2, 0), (2, 2), (0, 2)] (i + 1)) (at' [(0, 0), (2, 0), (2, 2), (0, 2)] j) := by decide
  exact fun i j hi hj => this i hi j hj
example : isConcave [(1, 1), (2, 1), (2, 0), (2, 2), (1, 2)] = true := by decide

end Poly
