import Verif.Model.VecLoops
import Verif.Spec.VecLoops
import Verif.Props.FixedVector
/-! # C259: loops that change the FixedVector they run over -/
namespace VecLoops
open FixedVector VecLoops.Spec
variable {T : Type}

theorem rel_of (s : St T) (h : s.back ≤ s.data.length) : Rel s.data.length s (toList s) := by
  refine ⟨rfl, by unfold toList; rw [List.length_take]; omega, by unfold toList; rw [List.length_take]; omega, fun i hi => ?_⟩
  unfold toList at hi ⊢
  rw [List.length_take] at hi
  rw [List.getElem?_take, if_pos (by omega)]

theorem rel_erase {M : Nat} {s : St T} {q : List T} (h : Rel M s q) (i : Nat) :
    ∃ s', erase false s i = .ok s' ∧ Rel M s' (q.take i ++ q.drop (i + 1)) := by
  cases hs : s.data with
  | nil =>
    have h1 := h.len; have h2 := h.qlen; have h3 := h.back
    rw [hs] at h1
    have hq : q = [] := List.eq_nil_of_length_eq_zero (by simp at h1; omega)
    subst hq
    refine ⟨s, ?_, by simpa using h⟩
    unfold erase
    rw [if_pos (.inl (by simpa using h3))]
    rfl
  | cons d _ =>
    obtain ⟨s', h1, h2⟩ := h.step d (.erase i) rfl
    refine ⟨s', ?_, h2⟩
    simp only [step] at h1
    cases he : erase false s i with
    | ub => rw [he] at h1; cases h1
    | ok s'' => rw [he] at h1; cases h1; rfl

theorem rel_insert {M : Nat} {s : St T} {q : List T} (h : Rel M s q) (i : Nat) (x : T) :
    ∃ s', insert false s i x = .ok s' ∧ Rel M s' (if q.length < M ∧ i ≤ q.length then q.take i ++ x :: q.drop i else q) := by
  obtain ⟨s', h1, h2⟩ := h.step x (.insert i x) rfl
  refine ⟨s', ?_, h2⟩
  simp only [step] at h1
  cases he : insert false s i x with
  | ub => rw [he] at h1; cases h1
  | ok s'' => rw [he] at h1; cases h1; rfl

theorem rel_at {M : Nat} {s : St T} {q : List T} (h : Rel M s q) (i : Nat) (hi : i < q.length) : at' s i = .ok q[i] := by
  have h1 := h.len; have h2 := h.qlen
  have := h.el i hi
  rw [List.getElem?_eq_getElem hi, List.getElem?_eq_getElem (by omega)] at this
  unfold at'
  rw [arrGet_lt (by omega)]
  simp only [Option.some.injEq] at this
  rw [this]

/-- erasing while counting up only over what is kept -/
theorem eraseIf_rel {M : Nat} (p : T → Bool) : ∀ (fuel : Nat) (rest pre : List T) (s : St T), rest.length ≤ fuel → Rel M s (pre ++ rest) →
    ∃ s', eraseIf p fuel s pre.length = .ok s' ∧ Rel M s' (pre ++ rest.filter (fun x => !p x)) := by
  intro fuel
  induction fuel with
  | zero =>
    intro rest pre s hf h
    have : rest = [] := List.eq_nil_of_length_eq_zero (by omega)
    subst this
    exact ⟨s, rfl, h⟩
  | succ fuel ih =>
    intro rest pre s hf h
    unfold eraseIf
    have hb : size s = pre.length + rest.length := by rw [size, h.back, List.length_append]
    cases rest with
    | nil =>
      rw [if_neg (by simp at hb; omega)]
      exact ⟨s, rfl, h⟩
    | cons a rest =>
      rw [List.length_cons] at hb hf
      rw [if_pos (by omega), rel_at h pre.length (by simp)]
      simp only [R.bind_ok]
      have ha : (pre ++ a :: rest)[pre.length]'(by simp) = a := by simp
      rw [ha]
      by_cases hp : p a = true
      · rw [if_pos hp]
        obtain ⟨s', h1, h2⟩ := rel_erase h pre.length
        rw [h1]
        simp only [R.bind_ok]
        rw [List.take_left, show pre.length + 1 = (pre ++ [a]).length by simp, show pre ++ a :: rest = (pre ++ [a]) ++ rest by simp,
          List.drop_left] at h2
        obtain ⟨s2, h3, h4⟩ := ih rest pre s' (by omega) h2
        exact ⟨s2, h3, by rw [List.filter_cons_of_neg (by simp [hp])]; exact h4⟩
      · rw [if_neg hp]
        obtain ⟨s2, h3, h4⟩ := ih rest (pre ++ [a]) s (by omega) (by simpa using h)
        rw [List.length_append, List.length_singleton] at h3
        exact ⟨s2, h3, by rw [List.filter_cons_of_pos (by simpa using hp)]; simpa using h4⟩

/-- **C259**: the loop that erases without advancing leaves exactly the elements that do not satisfy the condition, in order, after at
most `size()` rounds. -/
theorem C259_erase_if (p : T → Bool) (s : St T) (h : s.back ≤ s.data.length) (fuel : Nat) (hf : size s ≤ fuel) :
    ∃ s', eraseIf p fuel s 0 = .ok s' ∧ toList s' = (toList s).filter (fun x => !p x) ∧ maxSize s' = maxSize s := by
  have hr : Rel s.data.length s ([] ++ toList s) := rel_of s h
  have hl : (toList s).length = size s := by unfold toList size; rw [List.length_take]; omega
  obtain ⟨s', h1, h2⟩ := eraseIf_rel p fuel (toList s) [] s (by omega) hr
  exact ⟨s', h1, h2.toList, h2.len⟩

example : (⟨[3, 4, 6, 7, 0], 4⟩ : St Nat).back ≤ (⟨[3, 4, 6, 7, 0], 4⟩ : St Nat).data.length ∧ size (⟨[3, 4, 6, 7, 0], 4⟩ : St Nat) ≤ 4 ∧
    (eraseIf (fun x => x % 2 == 0) 4 (⟨[3, 4, 6, 7, 0], 4⟩ : St Nat) 0 >>= fun s => .ok (toList s)) = .ok [3, 7] := by decide +kernel

/-- erasing while always counting up -/
theorem eraseIfInc_rel {M : Nat} (p : T → Bool) : ∀ (fuel : Nat) (rest pre : List T) (s : St T), rest.length ≤ fuel → Rel M s (pre ++ rest) →
    ∃ s', eraseIfInc p fuel s pre.length = .ok s' ∧ Rel M s' (pre ++ skipping p rest) := by
  intro fuel
  induction fuel with
  | zero =>
    intro rest pre s hf h
    have : rest = [] := List.eq_nil_of_length_eq_zero (by omega)
    subst this
    exact ⟨s, rfl, h⟩
  | succ fuel ih =>
    intro rest pre s hf h
    unfold eraseIfInc
    have hb : size s = pre.length + rest.length := by rw [size, h.back, List.length_append]
    cases rest with
    | nil =>
      rw [if_neg (by simp at hb; omega)]
      exact ⟨s, rfl, h⟩
    | cons a rest =>
      rw [List.length_cons] at hb hf
      rw [if_pos (by omega), rel_at h pre.length (by simp)]
      simp only [R.bind_ok]
      have ha : (pre ++ a :: rest)[pre.length]'(by simp) = a := by simp
      rw [ha]
      by_cases hp : p a = true
      · rw [if_pos hp]
        obtain ⟨s', h1, h2⟩ := rel_erase h pre.length
        rw [h1]
        simp only [R.bind_ok]
        rw [List.take_left, show pre.length + 1 = (pre ++ [a]).length by simp, show pre ++ a :: rest = (pre ++ [a]) ++ rest by simp,
          List.drop_left] at h2
        cases rest with
        | nil =>
          rw [List.append_nil] at h2
          have he : ∀ k, eraseIfInc p k s' (pre.length + 1) = .ok s' := by
            intro k
            cases k with
            | zero => rfl
            | succ k => unfold eraseIfInc; rw [if_neg (by rw [size, h2.back]; omega)]
          refine ⟨s', he fuel, ?_⟩
          rw [skipping, if_pos hp, List.append_nil]
          exact h2
        | cons b rest =>
          obtain ⟨s2, h3, h4⟩ := ih rest (pre ++ [b]) s' (by simp at hf; omega) (by simpa using h2)
          rw [List.length_append, List.length_singleton] at h3
          exact ⟨s2, h3, by rw [skipping, if_pos hp]; simpa using h4⟩
      · rw [if_neg hp]
        obtain ⟨s2, h3, h4⟩ := ih rest (pre ++ [a]) s (by omega) (by simpa using h)
        rw [List.length_append, List.length_singleton] at h3
        refine ⟨s2, h3, ?_⟩
        have : skipping p (a :: rest) = a :: skipping p rest := by
          cases rest with
          | nil => simp [skipping, hp]
          | cons b rest => rw [skipping, if_neg hp]
        rw [this]
        simpa using h4

/-- **C259**, exactly what the loop that always advances leaves: also the element right after each one it removed. -/
theorem C259_erase_advancing_exact (p : T → Bool) (s : St T) (h : s.back ≤ s.data.length) (fuel : Nat) (hf : size s ≤ fuel) :
    ∃ s', eraseIfInc p fuel s 0 = .ok s' ∧ toList s' = skipping p (toList s) := by
  have hr : Rel s.data.length s ([] ++ toList s) := rel_of s h
  have hl : (toList s).length = size s := by unfold toList size; rw [List.length_take]; omega
  obtain ⟨s', h1, h2⟩ := eraseIfInc_rel p fuel (toList s) [] s (by omega) hr
  exact ⟨s', h1, h2.toList⟩

/-- 6, right after the 4 it removes, is kept although it is even -/
example : (⟨[3, 4, 6, 7, 0], 4⟩ : St Nat).back ≤ (⟨[3, 4, 6, 7, 0], 4⟩ : St Nat).data.length ∧ size (⟨[3, 4, 6, 7, 0], 4⟩ : St Nat) ≤ 4 ∧
    ((eraseIfInc (fun x => x % 2 == 0) 4 (⟨[3, 4, 6, 7, 0], 4⟩ : St Nat) 0) >>= fun s => .ok (toList s)) = .ok [3, 6, 7] := by decide +kernel

theorem eraseIfDown_rel {M : Nat} (p : T → Bool) : ∀ (i : Nat) (s : St T) (q : List T), i ≤ q.length → Rel M s q →
    ∃ s', eraseIfDown p i s = .ok s' ∧ Rel M s' ((q.take i).filter (fun x => !p x) ++ q.drop i) := by
  intro i
  induction i with
  | zero => intro s q _ h; exact ⟨s, rfl, by simpa using h⟩
  | succ i ih =>
    intro s q hi h
    unfold eraseIfDown
    rw [rel_at h i (by omega)]
    simp only [R.bind_ok]
    have ht : q.take (i + 1) = q.take i ++ [q[i]] := by rw [List.take_add_one, List.getElem?_eq_getElem (by omega)]; rfl
    by_cases hp : p q[i] = true
    · rw [if_pos hp]
      obtain ⟨s', h1, h2⟩ := rel_erase h i
      rw [h1]
      simp only [R.bind_ok]
      obtain ⟨s2, h3, h4⟩ := ih s' _ (by simp; omega) h2
      refine ⟨s2, h3, ?_⟩
      have e1 : (q.take i ++ q.drop (i + 1)).take i = q.take i := by
        rw [List.take_append_of_le_length (by simp; omega), List.take_take, Nat.min_self]
      have e2 : (q.take i ++ q.drop (i + 1)).drop i = q.drop (i + 1) := by
        rw [List.drop_append_of_le_length (by simp; omega), List.drop_take]; simp
      rw [e1, e2] at h4
      rw [ht, List.filter_append, List.filter_cons_of_neg (by simp [hp]), List.filter_nil, List.append_nil]
      exact h4
    · rw [if_neg hp]
      obtain ⟨s2, h3, h4⟩ := ih s q (by omega) h
      refine ⟨s2, h3, ?_⟩
      rw [ht, List.filter_append, List.filter_cons_of_pos (by simpa using hp), List.filter_nil, List.append_assoc, List.singleton_append,
        List.getElem_cons_drop]
      exact h4

/-- **C259**: the loop from the last element down leaves exactly the elements that do not satisfy the condition. -/
theorem C259_erase_downward (p : T → Bool) (s : St T) (h : s.back ≤ s.data.length) :
    ∃ s', eraseIfDown p (size s) s = .ok s' ∧ toList s' = (toList s).filter (fun x => !p x) := by
  have hr := rel_of s h
  have hl : (toList s).length = size s := by unfold toList size; rw [List.length_take]; omega
  obtain ⟨s', h1, h2⟩ := eraseIfDown_rel p (size s) s (toList s) (by omega) hr
  rw [← hl, List.take_length, List.drop_length, List.append_nil] at h2
  exact ⟨s', h1, h2.toList⟩

example : (⟨[3, 4, 6, 7, 0], 4⟩ : St Nat).back ≤ (⟨[3, 4, 6, 7, 0], 4⟩ : St Nat).data.length ∧ ((eraseIfDown (fun x => x % 2 == 0) 4 (⟨[3, 4, 6, 7, 0], 4⟩ : St Nat)) >>= fun s => .ok (toList s)) = .ok [3, 7] := by decide +kernel

theorem appendAll_rel {M : Nat} (f : T → T) : ∀ (k : Nat) (s : St T) (i : Nat) (q l : List T), Rel M s q → l.length = k → (∀ j, j < k → q[i + j]? = l[j]?) →
    ∃ s', appendAll f s i k = .ok s' ∧ Rel M s' (q ++ (l.map f).take (M - q.length)) := by
  intro k
  induction k with
  | zero =>
    intro s i q l h hl _
    have : l = [] := List.eq_nil_of_length_eq_zero hl
    subst this
    exact ⟨s, rfl, by simpa using h⟩
  | succ k ih =>
    intro s i q l h hl hq
    cases l with
    | nil => simp at hl
    | cons a l =>
      rw [List.length_cons] at hl
      have h0 := hq 0 (by omega)
      rw [Nat.add_zero, List.getElem?_cons_zero] at h0
      have hi : i < q.length := (List.getElem?_eq_some_iff.mp h0).1
      have ha : q[i] = a := (List.getElem?_eq_some_iff.mp h0).2
      unfold appendAll
      have := rel_at h i hi
      unfold at' at this
      rw [this]
      simp only [R.bind_ok]
      obtain ⟨s', h1, h2⟩ := h.push (f q[i])
      rw [h1]
      simp only [R.bind_ok]
      by_cases hc : q.length < M
      · rw [if_pos hc, ha] at h2
        obtain ⟨s2, h3, h4⟩ := ih s' (i + 1) _ l h2 (by omega) (by
          intro j hj
          have := hq (j + 1) (by omega)
          rw [List.getElem?_cons_succ, show i + (j + 1) = i + 1 + j by omega] at this
          have hl2 : i + 1 + j < q.length := by
            rcases Nat.lt_or_ge (i + 1 + j) q.length with h5 | h5
            · exact h5
            · rw [List.getElem?_eq_none h5, List.getElem?_eq_getElem (by omega)] at this; cases this
          rw [List.getElem?_append_left hl2, this])
        refine ⟨s2, h3, ?_⟩
        obtain ⟨m, hm⟩ : ∃ m, M - q.length = m + 1 := ⟨M - q.length - 1, by omega⟩
        rw [List.length_append, List.length_singleton, show M - (q.length + 1) = m by omega] at h4
        rw [hm, List.map_cons, List.take_succ_cons]
        simpa using h4
      · rw [if_neg hc] at h2
        obtain ⟨s2, h3, h4⟩ := ih s' (i + 1) q l h2 (by omega) (by
          intro j hj
          have := hq (j + 1) (by omega)
          rw [List.getElem?_cons_succ, show i + (j + 1) = i + 1 + j by omega] at this
          exact this)
        refine ⟨s2, h3, ?_⟩
        rw [show M - q.length = 0 by omega, List.take_zero] at h4 ⊢
        exact h4

/-- **C259**: appending inside a range-for over the vector itself: every original element is visited once, in order; what fits of the
results follows them. -/
theorem C259_append (f : T → T) (s : St T) (h : s.back ≤ s.data.length) :
    ∃ s', append f s = .ok s' ∧ toList s' = (toList s ++ (toList s).map f).take (maxSize s) := by
  have hr := rel_of s h
  have hl : (toList s).length = size s := by unfold toList size; rw [List.length_take]; omega
  obtain ⟨s', h1, h2⟩ := appendAll_rel f (size s) s 0 (toList s) (toList s) hr hl (fun j _ => by rw [Nat.zero_add])
  refine ⟨s', h1, ?_⟩
  have hm : maxSize s = s.data.length := rfl
  rw [h2.toList, hm, List.take_append, List.take_of_length_le (l := toList s) (by rw [hl]; exact h)]

/-- one place free: one result fits -/
example : (⟨[3, 4, 6, 7, 0], 4⟩ : St Nat).back ≤ (⟨[3, 4, 6, 7, 0], 4⟩ : St Nat).data.length ∧ ((append (· + 10) (⟨[3, 4, 6, 7, 0], 4⟩ : St Nat)) >>= fun s => .ok (toList s)) = .ok [3, 4, 6, 7, 13] := by decide +kernel

/-- where `place` stops -/
theorem place_rel {M : Nat} (lt : T → T → Bool) (x : T) {s : St T} : ∀ (fuel : Nat) (rest pre : List T), rest.length ≤ fuel →
    Rel M s (pre ++ rest) → ∃ i, place lt s x fuel pre.length = .ok i ∧ i ≤ (pre ++ rest).length ∧
      (pre ++ rest).take i ++ x :: (pre ++ rest).drop i = pre ++ insertAt lt x rest := by
  intro fuel
  induction fuel with
  | zero =>
    intro rest pre hf _
    have : rest = [] := List.eq_nil_of_length_eq_zero (by omega)
    subst this
    exact ⟨pre.length, rfl, by simp, by simp [insertAt]⟩
  | succ fuel ih =>
    intro rest pre hf h
    unfold place
    have hb : size s = pre.length + rest.length := by rw [size, h.back, List.length_append]
    cases rest with
    | nil =>
      rw [if_neg (by simp at hb; omega)]
      exact ⟨pre.length, rfl, by simp, by simp [insertAt]⟩
    | cons a rest =>
      rw [List.length_cons] at hb hf
      rw [if_pos (by omega), rel_at h pre.length (by simp)]
      simp only [R.bind_ok]
      have ha : (pre ++ a :: rest)[pre.length]'(by simp) = a := by simp
      rw [ha, insertAt]
      by_cases hp : lt x a = true
      · rw [if_pos hp, if_pos hp]
        exact ⟨pre.length, rfl, by simp, by simp⟩
      · rw [if_neg hp, if_neg hp]
        obtain ⟨i, h1, h2, h3⟩ := ih rest (pre ++ [a]) (by omega) (by simpa using h)
        rw [List.length_append, List.length_singleton] at h1
        refine ⟨i, h1, by simpa using h2, ?_⟩
        simpa using h3

theorem insertAt_length (lt : T → T → Bool) (x : T) (l : List T) : (insertAt lt x l).length = l.length + 1 := by
  induction l with
  | nil => rfl
  | cons y l ih =>
    rw [insertAt]
    split
    · simp
    · simp [ih]

theorem insertAt_perm (lt : T → T → Bool) (x : T) (l : List T) : (insertAt lt x l).Perm (x :: l) := by
  induction l with
  | nil => exact List.Perm.refl _
  | cons y l ih =>
    rw [insertAt]
    split
    · exact List.Perm.refl _
    · exact (ih.cons y).trans (List.Perm.swap x y l)

theorem insertAt_sorted (lt : T → T → Bool) (hirr : ∀ a b, lt a b = true → lt b a = false)
    (htr : ∀ a b c, lt b a = false → lt c b = false → lt c a = false) (x : T) (l : List T) (h : Sorted lt l) : Sorted lt (insertAt lt x l) := by
  induction l with
  | nil => exact List.pairwise_singleton _ _
  | cons y l ih =>
    unfold Sorted at h ih ⊢
    rw [List.pairwise_cons] at h
    rw [insertAt]
    by_cases hp : lt x y = true
    · rw [if_pos hp, List.pairwise_cons]
      refine ⟨fun z hz => ?_, List.pairwise_cons.mpr h⟩
      rcases List.mem_cons.mp hz with rfl | hz
      · exact hirr _ _ hp
      · exact htr x y z (hirr _ _ hp) (h.1 z hz)
    · rw [if_neg hp, List.pairwise_cons]
      refine ⟨fun z hz => ?_, ih h.2⟩
      have := (insertAt_perm lt x l).mem_iff.mp hz
      rcases List.mem_cons.mp this with rfl | hz
      · simpa using hp
      · exact h.1 z hz

/-- **C259**: values inserted each at its place, for every strict weak order: a sorted vector stays sorted and gains exactly the first
values, as many as there is room for. -/
theorem C259_insert_sorted (lt : T → T → Bool) (hirr : ∀ a b, lt a b = true → lt b a = false)
    (htr : ∀ a b c, lt b a = false → lt c b = false → lt c a = false) (xs : List T) : ∀ (s : St T), s.back ≤ s.data.length → Sorted lt (toList s) →
    ∃ s', insertSorted lt xs s = .ok s' ∧ Sorted lt (toList s') ∧ (toList s').Perm (toList s ++ xs.take (available s)) := by
  induction xs with
  | nil => intro s _ hs; exact ⟨s, rfl, hs, by simp⟩
  | cons x xs ih =>
    intro s h hs
    have hr : Rel s.data.length s ([] ++ toList s) := rel_of s h
    have hl : (toList s).length = size s := by unfold toList size; rw [List.length_take]; omega
    unfold insertSorted
    obtain ⟨i, h1, h2, h3⟩ := place_rel lt x (size s) (toList s) [] (by omega) hr
    rw [List.length_nil] at h1
    rw [h1]
    simp only [R.bind_ok]
    obtain ⟨s1, h4, h5⟩ := rel_insert hr i x
    rw [h4]
    simp only [R.bind_ok]
    simp only [List.nil_append] at h2 h3 h5
    rw [h3] at h5
    by_cases hc : (toList s).length < s.data.length
    · rw [if_pos ⟨hc, h2⟩] at h5
      obtain ⟨s', h6, h7, h8⟩ := ih s1 (by rw [h5.back, h5.len]; exact h5.qlen) (by rw [h5.toList]; exact insertAt_sorted lt hirr htr x _ hs)
      refine ⟨s', h6, h7, h8.trans ?_⟩
      rw [h5.toList]
      obtain ⟨m, hm⟩ : ∃ m, available s = m + 1 := ⟨available s - 1, by unfold available maxSize; omega⟩
      have hm1 : available s1 = m := by
        unfold available maxSize size at hm ⊢
        rw [h5.len, h5.back, insertAt_length, hl, size]
        omega
      rw [hm, hm1, List.take_succ_cons]
      exact ((insertAt_perm lt x (toList s)).append_right _).trans (List.perm_middle.symm)
    · rw [if_neg (by omega)] at h5
      obtain ⟨s', h6, h7, h8⟩ := ih s1 (by rw [h5.back, h5.len]; exact h5.qlen) (by rw [h5.toList]; exact hs)
      refine ⟨s', h6, h7, ?_⟩
      have h0 : available s = 0 := by unfold available maxSize; omega
      have h01 : available s1 = 0 := by
        unfold available maxSize size
        rw [h5.len, h5.back]
        omega
      rw [h5.toList, h01] at h8
      rw [h0]
      simpa using h8

/-- the order of the natural numbers; one place free -/
example : (⟨[3, 4, 6, 7, 0], 4⟩ : St Nat).back ≤ (⟨[3, 4, 6, 7, 0], 4⟩ : St Nat).data.length ∧ Sorted (fun a b => decide (a < b)) (toList (⟨[3, 4, 6, 7, 0], 4⟩ : St Nat)) ∧
    ((insertSorted (fun a b => decide (a < b)) [5, 1] (⟨[3, 4, 6, 7, 0], 4⟩ : St Nat)) >>= fun s => .ok (toList s)) = .ok [3, 4, 5, 6, 7] := by
  refine ⟨by decide, by unfold Sorted; decide, by decide +kernel⟩

example : (∀ a b : Nat, decide (a < b) = true → decide (b < a) = false) ∧
    (∀ a b c : Nat, decide (b < a) = false → decide (c < b) = false → decide (c < a) = false) := by
  refine ⟨fun a b => ?_, fun a b c => ?_⟩ <;> simp <;> omega

end VecLoops
