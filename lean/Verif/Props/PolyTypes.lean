import Verif.Model.PolyTypes
import Verif.Props.Geometry
import Verif.FltEven
/-! # Property C242: is_poly_concave for wide and floating-point coordinates -/

namespace PolyTypes
open Poly (turn at')

/-- The vertices as values of the coordinate type. -/
def asQ (pts : List (Int × Int)) : List (ℚ × ℚ) := pts.map fun p => ((p.1 : ℚ), (p.2 : ℚ))

/-- The loop, for cross products `t i` that are all defined: `false` if no turn converts to a non-zero `int`; else the first that does decides the direction. -/
theorem loop_eq (A : Arith) (pts : List (ℚ × ℚ)) (t : Nat → ℚ)
    (ht : ∀ i < pts.length, ∃ o a b, arrGet pts i = .ok o ∧ arrGet pts ((i + 1) % pts.length) = .ok a ∧ arrGet pts ((i + 2) % pts.length) = .ok b ∧ xprod A o a b = .ok (t i)) (is : List Nat) :
    ∀ (_ : ∀ i ∈ is, i < pts.length) (sign : Int), sign ≠ 0 → loop A pts sign is = .ok (decide (∃ i ∈ is, (0 < sign ∧ t i < 0) ∨ (sign < 0 ∧ 0 < t i))) := by
  induction is with
  | nil => intro _ sign _; simp [loop]
  | cons i is ih =>
    intro hi sign hs
    obtain ⟨o, a, b, h1, h2, h3, h4⟩ := ht i (hi i (by simp))
    have ih' := ih (fun j hj => hi j (by simp [hj])) sign hs
    rw [loop, h1, R.bind_ok, h2, R.bind_ok, h3, R.bind_ok, h4, R.bind_ok]
    by_cases h0 : t i = 0
    · rw [if_pos h0, ih']
      congr 1
      simp [h0]
    · rw [if_neg h0, if_neg hs, R.bind_ok]
      beta_reduce
      by_cases hc : (sign > 0 ∧ t i < 0) ∨ (sign < 0 ∧ t i > 0)
      · rw [if_pos hc]
        congr 1
        symm
        rw [decide_eq_true_iff]
        exact ⟨i, by simp, hc⟩
      · rw [if_neg hc, ih']
        congr 1
        rw [decide_eq_decide]
        simp only [List.mem_cons, exists_eq_or_imp]
        constructor
        · intro h; exact .inr h
        · rintro (h | h)
          · exact absurd h hc
          · exact h

/-- The same from the start, up to index `k`. -/
theorem loop_start (A : Arith) (pts : List (ℚ × ℚ)) (t : Nat → ℚ)
    (ht : ∀ i < pts.length, ∃ o a b, arrGet pts i = .ok o ∧ arrGet pts ((i + 1) % pts.length) = .ok a ∧ arrGet pts ((i + 2) % pts.length) = .ok b ∧ xprod A o a b = .ok (t i)) (is : List Nat) (rest : List Nat) :
    (∀ i ∈ is, i < pts.length) → (∀ i ∈ is, t i = 0 ∨ A.toInt (t i) = .ok 0) → loop A pts 0 (is ++ rest) = loop A pts 0 rest := by
  induction is with
  | nil => intro _ _; rfl
  | cons i is ih =>
    intro hi hz
    obtain ⟨o, a, b, h1, h2, h3, h4⟩ := ht i (hi i (by simp))
    have ih' := ih (fun j hj => hi j (by simp [hj])) (fun j hj => hz j (by simp [hj]))
    rw [List.cons_append, loop, h1, R.bind_ok, h2, R.bind_ok, h3, R.bind_ok, h4, R.bind_ok]
    split
    · exact ih'
    · next h0 =>
      rw [if_pos rfl, (hz i (by simp)).resolve_left h0, R.bind_ok]
      beta_reduce
      rw [if_neg (by simp)]
      exact ih'

theorem range_split {n k : Nat} (hk : k < n) : List.range n = List.range k ++ k :: (List.range (n - k - 1)).map (k + 1 + ·) := by
  have e : n = k + (1 + (n - k - 1)) := by omega
  conv_lhs => rw [e, List.range_add, List.range_add]
  simp [List.range_one, List.map_map, Function.comp_def, Nat.add_assoc]

/-- What the loop makes of the turns. -/
theorem concave_eq (A : Arith) (pts : List (ℚ × ℚ)) (h3 : 3 ≤ pts.length) (t : Nat → ℚ)
    (ht : ∀ i < pts.length, ∃ o a b, arrGet pts i = .ok o ∧ arrGet pts ((i + 1) % pts.length) = .ok a ∧ arrGet pts ((i + 2) % pts.length) = .ok b ∧ xprod A o a b = .ok (t i)) :
    ((∀ i < pts.length, t i = 0 ∨ A.toInt (t i) = .ok 0) ∧ isConcave A pts = .ok false) ∨
    ∃ k < pts.length, (∀ i < k, t i = 0 ∨ A.toInt (t i) = .ok 0) ∧ t k ≠ 0 ∧
      ((A.toInt (t k) = .ub ∧ isConcave A pts = .ub) ∨
       ∃ s, A.toInt (t k) = .ok s ∧ s ≠ 0 ∧ isConcave A pts = .ok (decide (∃ i < pts.length, k ≤ i ∧ ((0 < s ∧ t i < 0) ∨ (s < 0 ∧ 0 < t i))))) := by
  unfold isConcave
  rw [if_neg (by omega)]
  by_cases hall : ∀ i < pts.length, t i = 0 ∨ A.toInt (t i) = .ok 0
  · left
    refine ⟨hall, ?_⟩
    have := loop_start A pts t ht (List.range pts.length) [] (fun i hi => List.mem_range.mp hi) (fun i hi => hall i (List.mem_range.mp hi))
    rw [List.append_nil] at this
    rw [this, loop]
  · right
    push Not at hall
    obtain ⟨k, ⟨hk, hk0, hk1⟩, hmin⟩ : ∃ k, (k < pts.length ∧ t k ≠ 0 ∧ A.toInt (t k) ≠ .ok 0) ∧ ∀ i < k, ¬ (i < pts.length ∧ t i ≠ 0 ∧ A.toInt (t i) ≠ .ok 0) := by
      classical
      exact ⟨Nat.find hall, Nat.find_spec hall, fun i hi => Nat.find_min hall hi⟩
    have hpre : ∀ i < k, t i = 0 ∨ A.toInt (t i) = .ok 0 := by
      intro i hi
      by_contra hcon
      rw [not_or] at hcon
      exact hmin i hi ⟨by omega, hcon⟩
    refine ⟨k, hk, hpre, hk0, ?_⟩
    rw [range_split hk, loop_start A pts t ht _ _ (fun i hi => by have := List.mem_range.mp hi; omega) (fun i hi => hpre i (List.mem_range.mp hi))]
    obtain ⟨o, a, b, h1, h2, h3, h4⟩ := ht k hk
    rw [loop, h1, R.bind_ok, h2, R.bind_ok, h3, R.bind_ok, h4, R.bind_ok, if_neg hk0, if_pos rfl]
    cases hA : A.toInt (t k) with
    | ub => left; exact ⟨rfl, rfl⟩
    | ok s =>
      right
      have hs : s ≠ 0 := by rintro rfl; exact hk1 hA
      refine ⟨s, rfl, hs, ?_⟩
      rw [R.bind_ok]
      beta_reduce
      by_cases hc : (s > 0 ∧ t k < 0) ∨ (s < 0 ∧ t k > 0)
      · rw [if_pos hc]
        congr 1; symm
        rw [decide_eq_true_iff]
        exact ⟨k, hk, le_refl _, hc⟩
      · rw [if_neg hc, loop_eq A pts t ht _ (by intro i hi; obtain ⟨j, hj, rfl⟩ := List.mem_map.mp hi; have := List.mem_range.mp hj; omega) s hs]
        congr 1
        rw [decide_eq_decide]
        constructor
        · rintro ⟨i, hi, h⟩
          obtain ⟨j, hj, rfl⟩ := List.mem_map.mp hi
          have := List.mem_range.mp hj
          exact ⟨_, by omega, by omega, h⟩
        · rintro ⟨i, hi, hki, h⟩
          have : k ≠ i := by rintro rfl; exact hc h
          exact ⟨i, List.mem_map.mpr ⟨i - (k + 1), List.mem_range.mpr (by omega), by omega⟩, h⟩

theorem asQ_get (pts : List (Int × Int)) (h : pts ≠ []) (i : Nat) : arrGet (asQ pts) (i % pts.length) = .ok (((at' pts i).1 : ℚ), ((at' pts i).2 : ℚ)) := by
  apply arrGet_some
  rw [asQ, List.getElem?_map, Poly.at'_get pts h i]; rfl

theorem asQ_length (pts : List (Int × Int)) : (asQ pts).length = pts.length := by simp [asQ]

theorem at'_mem (pts : List (Int × Int)) (h : pts ≠ []) (i : Nat) : at' pts i ∈ pts := List.mem_of_getElem? (Poly.at'_get pts h i)

/-- If the arithmetic is exact on the differences, products and results that occur, the turns are those of the polygon. -/
theorem turns_exact (A : Arith) (pts : List (Int × Int)) (D : Int) (hD : 0 ≤ D) (h3 : 3 ≤ pts.length) (h : ∀ p ∈ pts, ∀ q ∈ pts, |q.1 - p.1| ≤ D ∧ |q.2 - p.2| ≤ D)
    (hs : ∀ x y : Int, |x - y| ≤ max D (2 * (D * D)) → A.sub x y = .ok ((x - y : Int) : ℚ)) (hm : ∀ x y : Int, |x| ≤ D → |y| ≤ D → A.mul x y = .ok ((x * y : Int) : ℚ)) :
    ∀ i < (asQ pts).length, ∃ o a b, arrGet (asQ pts) i = .ok o ∧ arrGet (asQ pts) ((i + 1) % (asQ pts).length) = .ok a ∧ arrGet (asQ pts) ((i + 2) % (asQ pts).length) = .ok b ∧ xprod A o a b = .ok ((turn pts i : Int) : ℚ) := by
  have hne : pts ≠ [] := by rintro rfl; simp at h3
  intro i hi
  rw [asQ_length] at hi ⊢
  have e0 := asQ_get pts hne i
  rw [Nat.mod_eq_of_lt hi] at e0
  refine ⟨_, _, _, e0, asQ_get pts hne (i + 1), asQ_get pts hne (i + 2), ?_⟩
  have m0 := at'_mem pts hne i
  have m1 := at'_mem pts hne (i + 1)
  have m2 := at'_mem pts hne (i + 2)
  have b1 := h _ m0 _ m1
  have b2 := h _ m0 _ m2
  have ms : ∀ x y : Int, |x| ≤ D → |y| ≤ D → |x * y| ≤ D * D := fun x y hx hy => by rw [abs_mul]; exact mul_le_mul hx hy (abs_nonneg _) hD
  have e1 := ms _ _ b1.1 b2.2
  have e2 := ms _ _ b1.2 b2.1
  unfold xprod
  simp only
  rw [hs _ _ (le_trans b1.1 (le_max_left _ _)), R.bind_ok, hs _ _ (le_trans b2.2 (le_max_left _ _)), R.bind_ok, hm _ _ b1.1 b2.2, R.bind_ok,
    hs _ _ (le_trans b1.2 (le_max_left _ _)), R.bind_ok, hs _ _ (le_trans b2.1 (le_max_left _ _)), R.bind_ok, hm _ _ b1.2 b2.1, R.bind_ok, hs _ _ ?_]
  · rfl
  · refine le_trans ?_ (le_max_right _ _)
    rw [abs_le] at e1 e2 ⊢
    constructor <;> linarith [e1.1, e1.2, e2.1, e2.2]

/-- The turns of a polygon in `int64_t` arithmetic. -/
theorem long_turns (pts : List (Int × Int)) (h3 : 3 ≤ pts.length) (h : ∀ p ∈ pts, ∀ q ∈ pts, |q.1 - p.1| ≤ 2 ^ 31 - 1 ∧ |q.2 - p.2| ≤ 2 ^ 31 - 1) :
    ∀ i < (asQ pts).length, ∃ o a b, arrGet (asQ pts) i = .ok o ∧ arrGet (asQ pts) ((i + 1) % (asQ pts).length) = .ok a ∧ arrGet (asQ pts) ((i + 2) % (asQ pts).length) = .ok b ∧ xprod long o a b = .ok ((turn pts i : Int) : ℚ) := by
  have fit : ∀ z : Int, |z| < 2 ^ 63 → fit64 (z : ℚ) = .ok (z : ℚ) := by
    intro z hz
    rw [abs_lt] at hz
    unfold fit64
    rw [if_pos]
    constructor
    · have := hz.1.le; exact_mod_cast this
    · exact_mod_cast hz.2
  refine turns_exact long pts (2 ^ 31 - 1) (by norm_num) h3 h ?_ ?_
  · intro x y hxy
    have := fit (x - y) (lt_of_le_of_lt hxy (by norm_num))
    simp only [long]
    rw [← this]; push_cast; rfl
  · intro x y hx hy
    have hb : |x * y| < 2 ^ 63 := by
      rw [abs_mul]
      exact lt_of_le_of_lt (mul_le_mul hx hy (abs_nonneg _) (by norm_num)) (by norm_num)
    have := fit (x * y) hb
    simp only [long]
    rw [← this]; push_cast; rfl

/-- **C242** (exact, `int64_t` coordinates less than 2^31 apart). is_poly_concave is defined; it says true exactly if, from the first turn on whose low 32 bits are not zero, some turn goes against the sign which those 32 bits have as an `int`. -/
theorem C242_long_exact (pts : List (Int × Int)) (h3 : 3 ≤ pts.length) (h : ∀ p ∈ pts, ∀ q ∈ pts, |q.1 - p.1| ≤ 2 ^ 31 - 1 ∧ |q.2 - p.2| ≤ 2 ^ 31 - 1) :
    ∃ r, isConcave long (asQ pts) = .ok r ∧ (r = true ↔ ∃ k < pts.length, (∀ i < k, low32 (turn pts i) = 0) ∧ ∃ j < pts.length, k ≤ j ∧ ((0 < low32 (turn pts k) ∧ turn pts j < 0) ∨ (low32 (turn pts k) < 0 ∧ 0 < turn pts j))) := by
  have ht := long_turns pts h3 h
  have hti : ∀ i, long.toInt ((turn pts i : Int) : ℚ) = .ok (low32 (turn pts i)) := fun i => by simp [long]
  have hz : ∀ i, (((turn pts i : Int) : ℚ) = 0 ∨ long.toInt ((turn pts i : Int) : ℚ) = .ok 0) ↔ low32 (turn pts i) = 0 := by
    intro i
    rw [hti, R.ok.injEq]
    constructor
    · rintro (h | h)
      · have : turn pts i = 0 := by exact_mod_cast h
        rw [this]; decide
      · exact h
    · exact .inr
  rcases concave_eq long (asQ pts) (by rw [asQ_length]; exact h3) (fun i => ((turn pts i : Int) : ℚ)) ht with ⟨h0, h1⟩ | ⟨k, hk, hpre, hk0, h1⟩
  · refine ⟨_, h1, ?_⟩
    simp only [Bool.false_eq_true, false_iff]
    rintro ⟨k, hk, -, j, hj, hkj, h2⟩
    have := (hz k).1 (h0 k (by rw [asQ_length]; exact hk))
    omega
  · rcases h1 with ⟨h1, -⟩ | ⟨s, h1, h2, h3'⟩
    · rw [hti] at h1; cases h1
    · refine ⟨_, h3', ?_⟩
      rw [hti, R.ok.injEq] at h1
      rw [asQ_length] at hk
      rw [decide_eq_true_iff, asQ_length]
      simp only [Int.cast_lt_zero, Int.cast_pos]
      constructor
      · rintro ⟨i, hi, hki, h4⟩
        exact ⟨k, hk, fun i hi => (hz i).1 (hpre i hi), i, hi, hki, by rw [h1]; exact h4⟩
      · rintro ⟨k', hk', hpre', j, hj, hkj, h4⟩
        have he : k' = k := by
          rcases Nat.lt_trichotomy k' k with h | h | h
          · have := (hz k').1 (hpre k' h); omega
          · exact h
          · have := hpre' k h; omega
        subst he
        rw [h1] at h4
        exact ⟨j, hj, hkj, h4⟩

/-- **C242** (partial: `int64_t` coordinates whose turns fit into 32 bits). is_poly_concave says exactly whether the polygon turns both ways. -/
theorem C242_long_partial (pts : List (Int × Int)) (h : ∀ p ∈ pts, ∀ q ∈ pts, |q.1 - p.1| ≤ 2 ^ 31 - 1 ∧ |q.2 - p.2| ≤ 2 ^ 31 - 1) (ht : ∀ i < pts.length, |turn pts i| < 2 ^ 31) :
    isConcave long (asQ pts) = .ok (Poly.isConcave pts) := by
  by_cases h3 : pts.length < 3
  · rw [isConcave, asQ_length, if_pos h3, Poly.isConcave, if_pos h3]
  · obtain ⟨r, h1, h2⟩ := C242_long_exact pts (by omega) h
    rw [h1]
    congr 1
    rw [Bool.eq_iff_iff, h2, Poly.C112_iff]
    have hl : ∀ i < pts.length, low32 (turn pts i) = turn pts i := by
      intro i hi
      have := ht i hi
      rw [abs_lt] at this
      unfold low32; omega
    constructor
    · rintro ⟨k, hk, -, j, hj, -, h4⟩
      rw [hl k hk] at h4
      rcases h4 with ⟨h4, h5⟩ | ⟨h4, h5⟩
      · exact ⟨by omega, ⟨j, hj, h5⟩, k, hk, h4⟩
      · exact ⟨by omega, ⟨k, hk, h4⟩, j, hj, h5⟩
    · rintro ⟨-, ⟨i, hi, hi'⟩, j, hj, hj'⟩
      have hex : ∃ k, k < pts.length ∧ turn pts k ≠ 0 := ⟨i, hi, by omega⟩
      obtain ⟨k, ⟨hk, hk0⟩, hmin⟩ : ∃ k, (k < pts.length ∧ turn pts k ≠ 0) ∧ ∀ i < k, ¬ (i < pts.length ∧ turn pts i ≠ 0) := by
        classical
        exact ⟨Nat.find hex, Nat.find_spec hex, fun i hi => Nat.find_min hex hi⟩
      have hki : k ≤ i := by by_contra hc; exact hmin i (by omega) ⟨hi, by omega⟩
      have hkj : k ≤ j := by by_contra hc; exact hmin j (by omega) ⟨hj, by omega⟩
      refine ⟨k, hk, ?_, ?_⟩
      · intro m hm
        rw [hl m (by omega)]
        by_contra hc
        exact hmin m hm ⟨by omega, hc⟩
      · rw [hl k hk]
        rcases lt_or_gt_of_ne hk0 with hlt | hgt
        · exact ⟨j, hj, hkj, .inr ⟨hlt, hj'⟩⟩
        · exact ⟨i, hi, hki, .inl ⟨hgt, hi'⟩⟩

/-- A square of side 46341. -/
def bigSquare : List (Int × Int) := [(0, 0), (46341, 0), (46341, 46341), (0, 46341)]
/-- An arrowhead, and the same 65536 times as large. -/
def arrow : List (Int × Int) := [(0, 0), (4, 0), (2, 1), (4, 4)]
def bigArrow : List (Int × Int) := arrow.map fun p => (65536 * p.1, 65536 * p.2)

/-- **C242** violated: with `int64_t` coordinates a square is called concave, and a concave polygon, large enough, convex. -/
theorem C242_long_violated : isConcave long (asQ bigSquare) = .ok true ∧ Poly.isConcave bigSquare = false ∧ isConcave long (asQ bigArrow) = .ok false ∧ isConcave long (asQ arrow) = .ok true := by
  refine ⟨by decide +kernel, by decide, by decide +kernel, by decide +kernel⟩

/-! ### Floating point -/

/-- The turn at the i-th vertex as float arithmetic sees it. -/
def fturn (rnd : ℚ → ℚ) (pts : List (ℚ × ℚ)) (i : Nat) : ℚ :=
  let o := pts.getD (i % pts.length) 0
  let a := pts.getD ((i + 1) % pts.length) 0
  let b := pts.getD ((i + 2) % pts.length) 0
  rnd (rnd (rnd (a.1 - o.1) * rnd (b.2 - o.2)) - rnd (rnd (a.2 - o.2) * rnd (b.1 - o.1)))

theorem float_turns (rnd : ℚ → ℚ) (pts : List (ℚ × ℚ)) (h3 : 3 ≤ pts.length) :
    ∀ i < pts.length, ∃ o a b, arrGet pts i = .ok o ∧ arrGet pts ((i + 1) % pts.length) = .ok a ∧ arrGet pts ((i + 2) % pts.length) = .ok b ∧ xprod (float rnd) o a b = .ok (fturn rnd pts i) := by
  have g : ∀ i, i < pts.length → arrGet pts i = .ok (pts.getD i 0) := by
    intro i hi
    apply arrGet_some
    rw [List.getD_eq_getElem?_getD, List.getElem?_eq_getElem hi]; rfl
  intro i hi
  refine ⟨_, _, _, g i hi, g _ (Nat.mod_lt _ (by omega)), g _ (Nat.mod_lt _ (by omega)), ?_⟩
  unfold fturn
  rw [Nat.mod_eq_of_lt hi]
  rfl

theorem truncInt_zero (x : ℚ) : (x = 0 ∨ truncInt x = .ok 0) ↔ |x| < 1 := by
  unfold truncInt
  constructor
  · rintro (rfl | h)
    · norm_num
    · split at h
      · rw [R.ok.injEq] at h
        split at h
        · next h0 => rw [abs_of_nonneg h0]; have := Int.lt_floor_add_one x; rw [h] at this; simpa using this
        · next h0 =>
          rw [abs_of_neg (by linarith)]
          have := Int.ceil_lt_add_one x
          have h2 := Int.le_ceil x
          rw [Int.ceil_eq_iff] at h
          have := h.1
          push_cast at this
          linarith
      · cases h
  · intro h
    right
    rw [abs_lt] at h
    rw [if_pos ⟨by linarith [h.1], by linarith [h.2]⟩]
    congr 1
    split
    · next h0 => rw [Int.floor_eq_zero_iff]; exact ⟨h0, h.2⟩
    · next h0 => rw [Int.ceil_eq_iff]; push_cast; constructor <;> linarith [h.1, h.2]

theorem truncInt_ok {x : ℚ} (h1 : 1 ≤ |x|) : (truncInt x = .ub ↔ x ≤ -2 ^ 31 - 1 ∨ 2 ^ 31 ≤ x) ∧ ∀ s, truncInt x = .ok s → (0 < s ↔ 0 < x) ∧ (s < 0 ↔ x < 0) := by
  unfold truncInt
  constructor
  · split
    · next h => simp; exact ⟨h.1, h.2⟩
    · next h =>
      simp only [true_iff]
      by_contra hc
      rw [not_or] at hc
      exact h ⟨by linarith [not_le.mp hc.1], not_le.mp hc.2⟩
  · intro s hs
    split at hs
    · rw [R.ok.injEq] at hs
      subst hs
      split
      · next h0 =>
        rw [abs_of_nonneg h0] at h1
        have : 1 ≤ ⌊x⌋ := Int.le_floor.mpr (by exact_mod_cast h1)
        exact ⟨⟨fun _ => by linarith, fun _ => by omega⟩, ⟨fun _ => by omega, fun _ => by linarith⟩⟩
      · next h0 =>
        rw [abs_of_neg (by linarith)] at h1
        have : ⌈x⌉ ≤ -1 := Int.ceil_le.mpr (by push_cast; linarith)
        exact ⟨⟨fun _ => by omega, fun _ => by linarith⟩, ⟨fun _ => by linarith, fun _ => by omega⟩⟩
    · cases hs

/-- **C242** (exact, `float` coordinates, any rounding). Only the turns from the first one of size 1 on count: undefined exactly if that turn does not fit into an `int`; else true exactly if a later turn goes the other way, however small. -/
theorem C242_float_exact (rnd : ℚ → ℚ) (pts : List (ℚ × ℚ)) (h3 : 3 ≤ pts.length) :
    (isConcave (float rnd) pts = .ub ↔ ∃ k < pts.length, (∀ i < k, |fturn rnd pts i| < 1) ∧ (fturn rnd pts k ≤ -2 ^ 31 - 1 ∨ 2 ^ 31 ≤ fturn rnd pts k)) ∧
    (isConcave (float rnd) pts = .ok true ↔ ∃ k < pts.length, (∀ i < k, |fturn rnd pts i| < 1) ∧ 1 ≤ |fturn rnd pts k| ∧ -2 ^ 31 - 1 < fturn rnd pts k ∧ fturn rnd pts k < 2 ^ 31 ∧
      ∃ j < pts.length, k ≤ j ∧ fturn rnd pts k * fturn rnd pts j < 0) := by
  have hz : ∀ i, (fturn rnd pts i = 0 ∨ (float rnd).toInt (fturn rnd pts i) = .ok 0) ↔ |fturn rnd pts i| < 1 := fun i => truncInt_zero _
  have big : ∀ x : ℚ, x ≤ -2 ^ 31 - 1 ∨ 2 ^ 31 ≤ x → ¬ |x| < 1 := by
    intro x hx hc
    rw [abs_lt] at hc
    rcases hx with h | h <;> linarith [hc.1, hc.2]
  rcases concave_eq (float rnd) pts h3 (fturn rnd pts) (float_turns rnd pts h3) with ⟨h0, h1⟩ | ⟨k, hk, hpre, hk0, h1⟩
  · rw [h1]
    constructor
    · simp only [reduceCtorEq, false_iff]
      rintro ⟨k, hk, -, h2⟩
      exact big _ h2 ((hz k).1 (h0 k hk))
    · simp only [R.ok.injEq, Bool.false_eq_true, false_iff]
      rintro ⟨k, hk, -, h2, -⟩
      have := (hz k).1 (h0 k hk)
      linarith
  · have hfirst : ∀ k' < pts.length, (∀ i < k', |fturn rnd pts i| < 1) → 1 ≤ |fturn rnd pts k'| → 1 ≤ |fturn rnd pts k| → k' = k := by
      intro k' hk' hp h1 h2
      rcases Nat.lt_trichotomy k' k with h | h | h
      · have := (hz k').1 (hpre k' h); linarith
      · exact h
      · have := hp k h; linarith
    have hpre' : ∀ i < k, |fturn rnd pts i| < 1 := fun i hi => (hz i).1 (hpre i hi)
    have hkbig : (∀ s, (float rnd).toInt (fturn rnd pts k) = .ok s → s ≠ 0) → 1 ≤ |fturn rnd pts k| := by
      intro h
      by_contra hc
      rcases (hz k).2 (not_le.mp hc) with h2 | h2
      · exact hk0 h2
      · exact h 0 h2 rfl
    rcases h1 with ⟨h1, h2⟩ | ⟨s, h1, h2, h3'⟩
    · have hb := hkbig (by rw [h1]; intro s hs; cases hs)
      have hout := ((truncInt_ok hb).1).1 h1
      rw [h2]
      constructor
      · simp only [true_iff]
        exact ⟨k, hk, hpre', hout⟩
      · simp only [reduceCtorEq, false_iff]
        rintro ⟨k', hk', hp, h4, h5, h6, -⟩
        have := hfirst k' hk' hp h4 hb
        subst this
        rcases hout with h | h <;> linarith
    · have hb := hkbig (by rw [h1]; intro s' hs; cases hs; exact h2)
      have hin : ¬ (fturn rnd pts k ≤ -2 ^ 31 - 1 ∨ 2 ^ 31 ≤ fturn rnd pts k) := by
        rw [← (truncInt_ok hb).1]
        intro hc
        rw [show truncInt (fturn rnd pts k) = .ok s from h1] at hc
        cases hc
      obtain ⟨hp, hn⟩ := (truncInt_ok hb).2 s h1
      rw [h3']
      constructor
      · simp only [reduceCtorEq, false_iff]
        rintro ⟨k', hk', hp', h4⟩
        have := hfirst k' hk' hp' (not_lt.mp (big _ h4)) hb
        subst this
        exact hin h4
      · rw [R.ok.injEq, decide_eq_true_iff]
        rw [not_or, not_le, not_le] at hin
        constructor
        · rintro ⟨i, hi, hki, h4⟩
          refine ⟨k, hk, hpre', hb, hin.1, hin.2, i, hi, hki, ?_⟩
          rcases h4 with ⟨h5, h6⟩ | ⟨h5, h6⟩
          · exact mul_neg_of_pos_of_neg (hp.1 h5) h6
          · exact mul_neg_of_neg_of_pos (hn.1 h5) h6
        · rintro ⟨k', hk', hp', h4, -, -, j, hj, hkj, h5⟩
          have := hfirst k' hk' hp' h4 hb
          subst this
          refine ⟨j, hj, hkj, ?_⟩
          rcases mul_neg_iff.mp h5 with ⟨h6, h7⟩ | ⟨h6, h7⟩
          · exact .inl ⟨hp.2 h6, h7⟩
          · exact .inr ⟨hn.2 h6, h7⟩

/-- **C242** (partial: whole-numbered binary32 coordinates at most 2896 apart). is_poly_concave says exactly whether the polygon turns both ways. -/
theorem C242_float_partial (rnd : ℚ → ℚ) (hr : Flt.Nearest rnd) (pts : List (Int × Int)) (h : ∀ p ∈ pts, ∀ q ∈ pts, |q.1 - p.1| ≤ 2896 ∧ |q.2 - p.2| ≤ 2896) :
    isConcave (float rnd) (asQ pts) = .ok (Poly.isConcave pts) := by
  by_cases h3 : pts.length < 3
  · rw [isConcave, asQ_length, if_pos h3, Poly.isConcave, if_pos h3]
  · have fix : ∀ z : Int, |z| < 2 ^ 24 → rnd (z : ℚ) = z := fun z hz => hr.fix (Flt.f32_int z hz)
    have ht := turns_exact (float rnd) pts 2896 (by norm_num) (by omega) h
      (by intro x y hxy; simp only [float]; rw [← fix (x - y) (lt_of_le_of_lt hxy (by norm_num))]; push_cast; rfl)
      (by
        intro x y hx hy
        have hb : |x * y| < 2 ^ 24 := by rw [abs_mul]; exact lt_of_le_of_lt (mul_le_mul hx hy (abs_nonneg _) (by norm_num)) (by norm_num)
        simp only [float]; rw [← fix (x * y) hb]; push_cast; rfl)
    have hl : 3 ≤ (asQ pts).length := by rw [asQ_length]; omega
    have hft : ∀ i < pts.length, fturn rnd (asQ pts) i = ((turn pts i : Int) : ℚ) := by
      intro i hi
      obtain ⟨o, a, b, h1, h2, h3, h4⟩ := ht i (by rw [asQ_length]; exact hi)
      obtain ⟨o', a', b', h1', h2', h3', h4'⟩ := float_turns rnd (asQ pts) hl i (by rw [asQ_length]; exact hi)
      rw [h1, R.ok.injEq] at h1'; subst h1'
      rw [h2, R.ok.injEq] at h2'; subst h2'
      rw [h3, R.ok.injEq] at h3'; subst h3'
      rw [h4, R.ok.injEq] at h4'
      exact h4'.symm
    have hsmall : ∀ i < pts.length, |turn pts i| ≤ 2 * (2896 * 2896) := by
      intro i hi
      have hne : pts ≠ [] := by rintro rfl; simp at hi
      have b1 := h _ (at'_mem pts hne i) _ (at'_mem pts hne (i + 1))
      have b2 := h _ (at'_mem pts hne i) _ (at'_mem pts hne (i + 2))
      have ms : ∀ x y : Int, |x| ≤ 2896 → |y| ≤ 2896 → |x * y| ≤ 2896 * 2896 := fun x y hx hy => by rw [abs_mul]; exact mul_le_mul hx hy (abs_nonneg _) (by norm_num)
      have e1 := ms _ _ b1.1 b2.2
      have e2 := ms _ _ b1.2 b2.1
      unfold turn Poly.cross
      rw [abs_le] at e1 e2 ⊢
      constructor <;> linarith [e1.1, e1.2, e2.1, e2.2]
    obtain ⟨hub, htrue⟩ := C242_float_exact rnd (asQ pts) hl
    rw [asQ_length] at hub htrue
    have hnub : isConcave (float rnd) (asQ pts) ≠ .ub := by
      rw [Ne, hub]
      rintro ⟨k, hk, -, h4⟩
      rw [hft k hk] at h4
      have := hsmall k hk
      rw [abs_le] at this
      rcases h4 with h4 | h4
      · have : turn pts k ≤ -2 ^ 31 - 1 := by exact_mod_cast h4
        omega
      · have : 2 ^ 31 ≤ turn pts k := by exact_mod_cast h4
        omega
    have hkey : isConcave (float rnd) (asQ pts) = .ok true ↔ Poly.isConcave pts = true := by
      rw [htrue, Poly.C112_iff]
      constructor
      · rintro ⟨k, hk, -, -, -, -, j, hj, -, h4⟩
        rw [hft k hk, hft j hj] at h4
        have h4' : turn pts k * turn pts j < 0 := by exact_mod_cast h4
        rcases mul_neg_iff.mp h4' with ⟨h5, h6⟩ | ⟨h5, h6⟩
        · exact ⟨by omega, ⟨j, hj, h6⟩, k, hk, h5⟩
        · exact ⟨by omega, ⟨k, hk, h5⟩, j, hj, h6⟩
      · rintro ⟨-, ⟨i, hi, hi'⟩, j, hj, hj'⟩
        have hex : ∃ k, k < pts.length ∧ turn pts k ≠ 0 := ⟨i, hi, by omega⟩
        obtain ⟨k, ⟨hk, hk0⟩, hmin⟩ : ∃ k, (k < pts.length ∧ turn pts k ≠ 0) ∧ ∀ i < k, ¬ (i < pts.length ∧ turn pts i ≠ 0) := by
          classical
          exact ⟨Nat.find hex, Nat.find_spec hex, fun i hi => Nat.find_min hex hi⟩
        have hki : k ≤ i := by by_contra hc; exact hmin i (by omega) ⟨hi, by omega⟩
        have hkj : k ≤ j := by by_contra hc; exact hmin j (by omega) ⟨hj, by omega⟩
        have hs := hsmall k hk
        rw [abs_le] at hs
        refine ⟨k, hk, ?_, ?_, ?_, ?_, ?_⟩
        · intro m hm
          rw [hft m (by omega)]
          have : turn pts m = 0 := by by_contra hc; exact hmin m hm ⟨by omega, hc⟩
          rw [this]; norm_num
        · rw [hft k hk]
          have : 1 ≤ |turn pts k| := Int.one_le_abs hk0
          exact_mod_cast this
        · rw [hft k hk]
          have : -2 ^ 31 - 1 < turn pts k := by omega
          exact_mod_cast this
        · rw [hft k hk]
          have : turn pts k < 2 ^ 31 := by omega
          exact_mod_cast this
        · rcases lt_or_gt_of_ne hk0 with hlt | hgt
          · refine ⟨j, hj, hkj, ?_⟩
            rw [hft k hk, hft j hj]
            have := mul_neg_of_neg_of_pos hlt hj'
            exact_mod_cast this
          · refine ⟨i, hi, hki, ?_⟩
            rw [hft k hk, hft i hi]
            have := mul_neg_of_pos_of_neg hgt hi'
            exact_mod_cast this
    cases hr' : isConcave (float rnd) (asQ pts) with
    | ub => exact absurd hr' hnub
    | ok r =>
      rw [hr', R.ok.injEq] at hkey
      congr 1
      rw [Bool.eq_iff_iff, hkey]

/-- **C242** violated: with binary32 coordinates a square of side 65536 is undefined, and an arrowhead smaller than 1 is called convex. -/
theorem C242_float_violated : isConcave (float Flt.rne) [(0, 0), (65536, 0), (65536, 65536), (0, 65536)] = .ub ∧
    isConcave (float Flt.rne) [(0, 0), (1/2, 0), (1/4, 1/8), (1/2, 1/2)] = .ok false ∧ isConcave (float Flt.rne) [(0, 0), (4, 0), (2, 1), (4, 4)] = .ok true := by
  refine ⟨by decide +kernel, by decide +kernel, by decide +kernel⟩

example : 3 ≤ bigSquare.length ∧ ∀ p ∈ bigSquare, ∀ q ∈ bigSquare, |q.1 - p.1| ≤ 2 ^ 31 - 1 ∧ |q.2 - p.2| ≤ 2 ^ 31 - 1 := by decide
example : (∀ p ∈ arrow, ∀ q ∈ arrow, |q.1 - p.1| ≤ 2896 ∧ |q.2 - p.2| ≤ 2896) ∧ ∀ i < arrow.length, |turn arrow i| < 2 ^ 31 := by decide
example := C242_float_partial Flt.rne Flt.rne_nearest arrow (by decide)

end PolyTypes
