import Verif.Model.Partition
import Verif.Spec.Partition
/-! # Properties C61 and C62: Partition -/
namespace Partition
open Spec

theorem fill_eq (M : Nat) : ∀ (vals : List Nat) (o : List (Nat × Nat)),
    fill M vals o = o ++ (List.range (min vals.length (M - o.length))).map (fun i => (vals.getD i 0, o.length + i)) := by
  intro vals
  induction vals with
  | nil => intro o; simp [fill]
  | cons v vals ih =>
    intro o
    rw [fill]
    by_cases h : o.length < M
    · rw [if_pos h, ih]
      have e : min (v :: vals).length (M - o.length) = min vals.length (M - (o ++ [(v, o.length)]).length) + 1 := by
        simp only [List.length_cons, List.length_append, List.length_nil]; omega
      rw [e, List.range_succ_eq_map, List.map_cons, List.map_map, List.append_assoc]
      congr 1
      simp only [List.length_append, List.length_cons, List.length_nil, List.singleton_append, List.getD_cons_zero, Nat.add_zero]
      congr 1
      apply List.map_congr_left
      intro i _
      simp only [Function.comp, List.getD_cons_succ]
      congr 1; omega
    · rw [if_neg h, ih]
      have e1 : min vals.length (M - o.length) = 0 := by omega
      have e2 : min (v :: vals).length (M - o.length) = 0 := by omega
      rw [e1, e2]; rfl

theorem fill_length (M : Nat) (vals : List Nat) : (fill M vals []).length = min vals.length M := by
  rw [fill_eq]; simp

theorem minGo_spec (s : List Nat) : ∀ (l : List Nat) (i best bv : Nat), s.drop i = l → s[best]? = some bv → (∀ (j x : Nat), j < i → s[j]? = some x → bv ≤ x) →
    ∃ v, s[minGo l i best bv]? = some v ∧ ∀ x ∈ s, v ≤ x := by
  intro l
  induction l with
  | nil =>
    intro i best bv hd hb h
    refine ⟨bv, hb, ?_⟩
    intro x hx
    obtain ⟨j, hj, rfl⟩ := List.mem_iff_getElem.mp hx
    have : s.length ≤ i := by simpa using hd
    exact h j _ (by omega) (List.getElem?_eq_getElem hj)
  | cons y l ih =>
    intro i best bv hd hb h
    have hi : s[i]? = some y := by
      have := congrArg (·[0]?) hd
      simpa using this
    have hd' : s.drop (i + 1) = l := by
      rw [← List.drop_drop, hd]; rfl
    rw [minGo]
    split
    · next hlt =>
      apply ih (i + 1) i y hd' hi
      intro j x hj hx
      rcases Nat.lt_or_eq_of_le (Nat.le_of_lt_succ hj) with h1 | h1
      · have := h j x h1 hx; omega
      · rw [h1, hi] at hx; cases hx; omega
    · next hlt =>
      apply ih (i + 1) best bv hd' hb
      intro j x hj hx
      rcases Nat.lt_or_eq_of_le (Nat.le_of_lt_succ hj) with h1 | h1
      · exact h j x h1 hx
      · rw [h1, hi] at hx; cases hx; omega

theorem minElement_spec (s : List Nat) (hs : s ≠ []) : ∃ v, s[minElement s]? = some v ∧ ∀ x ∈ s, v ≤ x := by
  cases s with
  | nil => exact absurd rfl hs
  | cons x l =>
    apply minGo_spec (x :: l) l 1 0 x rfl rfl
    intro j y hj hy
    have : j = 0 := by omega
    subst this
    simp at hy; omega

theorem flatten_set (l : List (List Nat)) : ∀ (k : Nat) (p : List Nat) (i : Nat), l[k]? = some p → (l.set k (p ++ [i])).flatten.Perm (l.flatten ++ [i]) := by
  induction l with
  | nil => intro k p i h; simp at h
  | cons a l ih =>
    intro k p i h
    cases k with
    | zero =>
      simp only [List.getElem?_cons_zero, Option.some.injEq] at h
      subst h
      simp only [List.set_cons_zero, List.flatten_cons, List.append_assoc]
      exact List.Perm.append_left a List.perm_append_comm
    | succ k =>
      simp only [List.getElem?_cons_succ] at h
      simp only [List.set_cons_succ, List.flatten_cons, List.append_assoc]
      exact List.Perm.append_left a (ih k p i h)

theorem sum_set (l : List Nat) : ∀ (k s v : Nat), l[k]? = some s → (l.set k (s + v)).sum = l.sum + v := by
  induction l with
  | nil => intro k s v h; simp at h
  | cons a l ih =>
    intro k s v h
    cases k with
    | zero => simp only [List.getElem?_cons_zero, Option.some.injEq] at h; subst h; simp; omega
    | succ k => simp only [List.getElem?_cons_succ] at h; simp [ih k s v h]; omega

theorem le_sum_of_get (l : List Nat) : ∀ (k s : Nat), l[k]? = some s → s ≤ l.sum := by
  induction l with
  | nil => intro k s h; simp at h
  | cons a l ih =>
    intro k s h
    cases k with
    | zero => simp only [List.getElem?_cons_zero, Option.some.injEq] at h; subst h; simp
    | succ k => simp only [List.getElem?_cons_succ] at h; have := ih k s h; simp; omega

/-- The state after some elements `dn` have been placed. -/
structure Inv (N : Nat) (vals init : List Nat) (dn : List (Nat × Nat)) (B : Nat) (st : List Nat × List (List Nat)) : Prop where
  size1 : st.1.length = N
  size2 : st.2.length = N
  sums : ∀ (p s : Nat) (part : List Nat), st.1[p]? = some s → st.2[p]? = some part → s = init.getD p 0 + sumOf vals part
  sum : st.1.sum = init.sum + (dn.map (·.1)).sum
  perm : st.2.flatten.Perm (dn.map (·.2))
  bal : ∀ (p q s t : Nat), st.1[p]? = some s → st.1[q]? = some t → s ≤ t + B

theorem place_inv (W N M : Nat) (vals init : List Nat) (dn : List (Nat × Nat)) (B : Nat) (st : List Nat × List (List Nat)) (e : Nat × Nat)
    (hN : 0 < N) (hI : Inv N vals init dn B st) (hM : dn.length < M) (he : vals.getD e.2 0 = e.1)
    (hW : init.sum + (dn.map (·.1)).sum + e.1 < W) (hB : e.1 ≤ B) :
    ∃ st', place W M st e = .ok st' ∧ Inv N vals init (dn ++ [e]) B st' ∧
      (∀ (p : Nat) (part : List Nat), st'.2[p]? = some part → st.2[p]? = some part ∨ ∃ old, st.2[p]? = some old ∧ part = old ++ [e.2]) := by
  obtain ⟨h1, h2, h3, h4, h5, h6⟩ := hI
  have hne : st.1 ≠ [] := by
    intro h
    have := congrArg List.length h
    simp at this
    rw [this] at h1; simp at h1; omega
  obtain ⟨v, hv, hmin⟩ := minElement_spec _ hne
  obtain ⟨idx, hidx⟩ : ∃ idx, minElement st.1 = idx := ⟨_, rfl⟩
  rw [hidx] at hv
  have hv' : st.1[idx]? = some v := by simpa using hv
  have hlt : idx < N := by
    have := (List.getElem?_eq_some_iff.mp hv').1; omega
  have hp : st.2[idx]? = some (st.2[idx]'(by omega)) := List.getElem?_eq_getElem (by omega)
  obtain ⟨p, hpe⟩ : ∃ p, st.2[idx]'(by omega) = p := ⟨_, rfl⟩
  rw [hpe] at hp
  have hplen : p.length ≤ dn.length := by
    have hmem : p ∈ st.2 := List.mem_of_getElem? (by simpa using hp)
    have h7 := h5.length_eq
    have h8 := (List.sublist_flatten_of_mem hmem).length_le
    simp at h7 h8
    omega
  have hvW : v + e.1 < W := by
    have := le_sum_of_get _ _ _ hv
    rw [h4] at this; omega
  refine ⟨(st.1.set idx (v + e.1), st.2.set idx (p ++ [e.2])), ?_, ⟨?_, ?_, ?_, ?_, ?_, ?_⟩, ?_⟩
  · rw [place]
    simp only [hidx]
    rw [arrGet_some hv', R.bind_ok, arrSet_lt (by omega), R.bind_ok, arrGet_some hp, R.bind_ok, arrSet_lt (by omega), R.bind_ok,
      if_pos (show p.length < M by omega), Nat.mod_eq_of_lt hvW]
  · simpa using h1
  · simpa using h2
  · intro q s part hs hpart
    simp only [List.getElem?_set] at hs hpart
    by_cases hq : idx = q
    · subst hq
      rw [if_pos rfl, if_pos (by omega)] at hs hpart
      cases hs; cases hpart
      have := h3 idx v p hv' hp
      simp only [sumOf, List.map_append, List.sum_append, List.map_cons, List.map_nil, List.sum_cons, List.sum_nil] at this ⊢
      rw [he, this]; omega
    · rw [if_neg hq] at hs hpart
      exact h3 q s part hs hpart
  · rw [sum_set _ _ _ _ hv, h4]; simp; omega
  · refine (flatten_set _ idx p e.2 (by simpa using hp)).trans ?_
    rw [List.map_append]
    exact List.Perm.append_right _ h5
  · intro a b s t hs ht
    simp only [List.getElem?_set] at hs ht
    have hle : ∀ (c u : Nat), st.1[c]? = some u → v ≤ u := fun c u hc => hmin u (List.mem_of_getElem? (i := c) (by simpa using hc))
    by_cases ha : idx = a <;> by_cases hb : idx = b
    · subst ha; subst hb
      rw [if_pos rfl, if_pos (by omega)] at hs ht
      cases hs; cases ht; omega
    · subst ha
      rw [if_pos rfl, if_pos (by omega)] at hs
      rw [if_neg hb] at ht
      cases hs
      have := hle b t ht; omega
    · subst hb
      rw [if_pos rfl, if_pos (by omega)] at ht
      rw [if_neg ha] at hs
      cases ht
      have := h6 a idx s v hs hv'; omega
    · rw [if_neg ha] at hs
      rw [if_neg hb] at ht
      exact h6 a b s t hs ht
  · intro q part hq
    simp only [List.getElem?_set] at hq
    by_cases hc : idx = q
    · subst hc
      rw [if_pos rfl, if_pos (by omega)] at hq
      cases hq
      exact Or.inr ⟨p, hp, rfl⟩
    · rw [if_neg hc] at hq
      exact Or.inl hq

theorem placeAll_inv (W N M : Nat) (vals init : List Nat) (B : Nat) (hN : 0 < N) :
    ∀ (l dn : List (Nat × Nat)) (st : List Nat × List (List Nat)), Inv N vals init dn B st → dn.length + l.length ≤ M →
      (∀ e ∈ l, vals.getD e.2 0 = e.1 ∧ e.1 ≤ B) → init.sum + ((dn ++ l).map (·.1)).sum < W →
      (∀ (p : Nat) (part : List Nat), st.2[p]? = some part → part.Sublist (dn.map (·.2))) →
      ∃ st', placeAll W M l st = .ok st' ∧ Inv N vals init (dn ++ l) B st' ∧
        (∀ (p : Nat) (part : List Nat), st'.2[p]? = some part → part.Sublist ((dn ++ l).map (·.2))) := by
  intro l
  induction l with
  | nil => intro dn st hI _ _ _ hs; exact ⟨st, rfl, by simpa using hI, by simpa using hs⟩
  | cons e l ih =>
    intro dn st hI hM he hW hs
    simp only [List.map_append, List.map_cons, List.sum_append, List.sum_cons] at hW
    simp only [List.length_cons] at hM
    obtain ⟨st1, h1, h2, h3⟩ := place_inv W N M vals init dn B st e hN hI (by omega) (he e (by simp)).1 (by omega) (he e (by simp)).2
    obtain ⟨st2, g1, g2, g3⟩ := ih (dn ++ [e]) st1 h2 (by simp; omega) (fun x hx => he x (by simp [hx]))
      (by simp only [List.map_append, List.map_cons, List.map_nil, List.sum_append, List.sum_cons, List.sum_nil]; omega)
      (by
        intro p part hp
        rw [List.map_append]
        rcases h3 p part hp with h | ⟨old, h, rfl⟩
        · exact (hs p part h).trans (List.sublist_append_left _ _)
        · exact (hs p old h).append (List.Sublist.refl _))
    refine ⟨st2, by rw [placeAll, h1, R.bind_ok, g1], ?_, ?_⟩
    · simpa using g2
    · simpa using g3

theorem initSums_spec (N : Nat) : ∀ (l : List Nat) (i : Nat) (sums : List Nat), sums.length = N → i + l.length ≤ N →
    (∀ (p s : Nat), i ≤ p → sums[p]? = some s → s = 0) →
    ∃ s', initSums l i sums = .ok s' ∧ s'.length = N ∧ (∀ (p : Nat), p < i → s'[p]? = sums[p]?) ∧
      (∀ (p s : Nat), i ≤ p → s'[p]? = some s → s = l.getD (p - i) 0) := by
  intro l
  induction l with
  | nil => intro i sums h1 h2 h3; exact ⟨sums, rfl, h1, fun _ _ => rfl, fun p s hp hs => by simpa using h3 p s hp hs⟩
  | cons v l ih =>
    intro i sums h1 h2 h3
    simp only [List.length_cons] at h2
    have h4 : ∀ (p s : Nat), i + 1 ≤ p → (sums.set i v)[p]? = some s → s = 0 := by
      intro p s hp hs
      rw [List.getElem?_set, if_neg (by omega)] at hs
      exact h3 p s (by omega) hs
    obtain ⟨s', g1, g2, g3, g4⟩ := ih (i + 1) (sums.set i v) (by simpa using h1) (by omega) h4
    refine ⟨s', by rw [initSums, arrSet_lt (by omega), R.bind_ok, g1], g2, ?_, ?_⟩
    · intro p hp
      rw [g3 p (by omega), List.getElem?_set, if_neg (by omega)]
    · intro p s hp hs
      by_cases hpi : p = i
      · subst hpi
        rw [g3 p (by omega), List.getElem?_set, if_pos rfl, if_pos (by omega)] at hs
        cases hs; simp
      · rw [g4 p s (by omega) hs, show p - i = (p - (i + 1)) + 1 by omega, List.getD_cons_succ]

theorem initSums_list (N : Nat) (init : List Nat) (h : init.length ≤ N) :
    ∃ s, initSums init 0 (List.replicate N 0) = .ok s ∧ s.length = N ∧ (∀ (p x : Nat), s[p]? = some x → x = init.getD p 0) ∧ s.sum = init.sum := by
  obtain ⟨s, h1, h2, _, h4⟩ := initSums_spec N init 0 (List.replicate N 0) (by simp) (by omega)
    (by intro p x _ hx; simp [List.getElem?_replicate] at hx; exact hx.2.symm)
  refine ⟨s, h1, h2, fun p x hx => by simpa using h4 p x (by omega) hx, ?_⟩
  have : s = init ++ List.replicate (N - init.length) 0 := by
    apply List.ext_getElem?
    intro p
    by_cases hp : p < N
    · have hs : s[p]? = some (s[p]'(by omega)) := List.getElem?_eq_getElem (by omega)
      have := h4 p _ (by omega) hs
      rw [hs, this, Nat.sub_zero]
      by_cases hi : p < init.length
      · rw [List.getElem?_append_left hi, List.getD_eq_getElem?_getD, List.getElem?_eq_getElem hi]; rfl
      · rw [List.getElem?_append_right (by omega), List.getElem?_replicate, if_pos (by omega), List.getD_eq_getElem?_getD,
          List.getElem?_eq_none (by omega)]; rfl
    · rw [List.getElem?_eq_none (by omega), List.getElem?_eq_none (by simp; omega)]
  rw [this]; simp

theorem ids (M : Nat) (vals : List Nat) : (fill M vals []).map (·.2) = List.range (min vals.length M) := by
  rw [fill_eq]
  simp [Function.comp_def]

theorem fill_mem (M : Nat) (vals : List Nat) : ∀ e ∈ fill M vals [], vals.getD e.2 0 = e.1 ∧ e.2 < vals.length := by
  intro e he
  rw [fill_eq] at he
  simp only [List.nil_append, List.mem_map, List.mem_range] at he
  obtain ⟨i, hi, rfl⟩ := he
  simp only [List.length_nil, Nat.zero_add]
  exact ⟨trivial, by omega⟩

theorem fill_sum (M : Nat) (vals : List Nat) : ((fill M vals []).map (·.1)).sum ≤ vals.sum := by
  have : (fill M vals []).map (·.1) = vals.take M := by
    rw [fill_eq]
    apply List.ext_getElem?
    intro i
    by_cases h : i < min vals.length M
    · have hi : i < vals.length := by omega
      rw [List.getElem?_take_of_lt (by omega), List.getElem?_eq_getElem hi]
      simp only [List.nil_append, List.map_map, List.getElem?_map, List.length_nil, Nat.sub_zero, List.getElem?_range h, Option.map_some,
        Function.comp, List.getD_eq_getElem?_getD, List.getElem?_eq_getElem hi, Option.getD_some]
    · rw [List.getElem?_eq_none (by simp; omega), List.getElem?_eq_none (by simp; omega)]
  rw [this]
  have := congrArg List.sum (List.take_append_drop M vals)
  rw [List.sum_append] at this
  omega

/-- What `calcParts` gives, in one statement. -/
theorem calcParts_spec (W N M : Nat) (vals init : List Nat) (ordered : List (Nat × Nat)) (B : Nat) (hN : 0 < N) (hinit : init.length ≤ N)
    (hsort : SortResult (fill M vals []) ordered) (hW : init.sum + vals.sum < W) (hB : ∀ v ∈ vals, v ≤ B)
    (hspread : ∀ (p q : Nat), p < N → q < N → init.getD p 0 ≤ init.getD q 0 + B) :
    ∃ parts, calcParts W N M ordered init = .ok parts ∧ parts.length = N ∧ parts.flatten.Perm (List.range (min vals.length M)) ∧
      (∀ p q, p < N → q < N → total vals init parts p ≤ total vals init parts q + B) ∧
      (∀ (p : Nat) (part : List Nat), parts[p]? = some part → part.Pairwise (fun i j => vals.getD j 0 ≤ vals.getD i 0)) := by
  obtain ⟨s0, h1, h2, h3, h4⟩ := initSums_list N init hinit
  have hI : Inv N vals init [] B (s0, List.replicate N []) := by
    refine ⟨h2, by simp, ?_, by simpa using h4, by simp, ?_⟩
    · intro p s part hs hp
      simp [List.getElem?_replicate] at hp
      rw [hp.2]; simpa [sumOf] using h3 p s hs
    · intro p q s t hs ht
      have hp := (List.getElem?_eq_some_iff.mp hs).1
      have hq := (List.getElem?_eq_some_iff.mp ht).1
      simp only at hp hq
      rw [h3 p s hs, h3 q t ht]
      exact hspread p q (by omega) (by omega)
  have hmem : ∀ e ∈ ordered, vals.getD e.2 0 = e.1 ∧ e.1 ≤ B := by
    intro e he
    have := fill_mem M vals e (hsort.1.mem_iff.mp he)
    refine ⟨this.1, hB _ ?_⟩
    rw [← this.1, List.getD_eq_getElem?_getD, List.getElem?_eq_getElem this.2]
    exact List.getElem_mem _
  have hlen : ordered.length ≤ M := by rw [hsort.1.length_eq, fill_length]; omega
  have hsum : (ordered.map (·.1)).sum ≤ vals.sum := by
    rw [(hsort.1.map (·.1)).sum_nat]; exact fill_sum M vals
  obtain ⟨st, g1, g2, g3⟩ := placeAll_inv W N M vals init B hN ordered [] _ hI (by simpa using hlen) hmem (by simp; omega)
    (by intro p part hp; simp [List.getElem?_replicate] at hp; rw [hp.2]; simp)
  rw [List.nil_append] at g2 g3
  refine ⟨st.2, by rw [calcParts, h1, R.bind_ok, g1, R.bind_ok], g2.size2, ?_, ?_, ?_⟩
  · rw [← ids M vals]; exact g2.perm.trans (hsort.1.map _)
  · intro p q hp hq
    have e : ∀ p, p < N → ∃ s, st.1[p]? = some s ∧ s = total vals init st.2 p := by
      intro p hp
      have a1 : st.1[p]? = some (st.1[p]'(by have := g2.size1; omega)) := List.getElem?_eq_getElem _
      have a2 : st.2[p]? = some (st.2[p]'(by have := g2.size2; omega)) := List.getElem?_eq_getElem _
      refine ⟨_, a1, ?_⟩
      rw [g2.sums p _ _ a1 a2, total, show st.2.getD p [] = st.2[p]'(by have := g2.size2; omega) by rw [List.getD_eq_getElem?_getD, a2]; rfl]
    obtain ⟨s, s1, s2⟩ := e p hp
    obtain ⟨t, t1, t2⟩ := e q hq
    rw [← s2, ← t2]
    exact g2.bal p q s t s1 t1
  · intro p part hp
    have hsub := g3 p part hp
    have : (ordered.map (·.2)).Pairwise (fun i j => vals.getD j 0 ≤ vals.getD i 0) := by
      rw [List.pairwise_map]
      refine hsort.2.imp_of_mem ?_
      intro a b ha hb hab
      rw [(hmem a ha).1, (hmem b hb).1]; exact hab
    exact this.sublist hsub

theorem place_perm (W N M : Nat) (dn : List (Nat × Nat)) (st : List Nat × List (List Nat)) (e : Nat × Nat) (hN : 0 < N)
    (h1 : st.1.length = N) (h2 : st.2.length = N) (h5 : st.2.flatten.Perm (dn.map (·.2))) (hM : dn.length < M) :
    ∃ st', place W M st e = .ok st' ∧ st'.1.length = N ∧ st'.2.length = N ∧ st'.2.flatten.Perm ((dn ++ [e]).map (·.2)) := by
  have hne : st.1 ≠ [] := by
    intro h
    rw [h] at h1; simp at h1; omega
  obtain ⟨v, hv, _⟩ := minElement_spec _ hne
  obtain ⟨idx, hidx⟩ : ∃ idx, minElement st.1 = idx := ⟨_, rfl⟩
  rw [hidx] at hv
  have hlt : idx < N := by
    have := (List.getElem?_eq_some_iff.mp hv).1; omega
  have hp : st.2[idx]? = some (st.2[idx]'(by omega)) := List.getElem?_eq_getElem (by omega)
  obtain ⟨p, hpe⟩ : ∃ p, st.2[idx]'(by omega) = p := ⟨_, rfl⟩
  rw [hpe] at hp
  have hplen : p.length ≤ dn.length := by
    have hmem : p ∈ st.2 := List.mem_of_getElem? hp
    have h7 := h5.length_eq
    have h8 := (List.sublist_flatten_of_mem hmem).length_le
    simp at h7 h8
    omega
  refine ⟨(st.1.set idx ((v + e.1) % W), st.2.set idx (p ++ [e.2])), ?_, by simpa using h1, by simpa using h2, ?_⟩
  · rw [place]
    simp only [hidx]
    rw [arrGet_some hv, R.bind_ok, arrSet_lt (by omega), R.bind_ok, arrGet_some hp, R.bind_ok, arrSet_lt (by omega), R.bind_ok,
      if_pos (show p.length < M by omega)]
  · refine (flatten_set _ idx p e.2 hp).trans ?_
    rw [List.map_append]
    exact List.Perm.append_right _ h5

theorem placeAll_perm (W N M : Nat) (hN : 0 < N) : ∀ (l dn : List (Nat × Nat)) (st : List Nat × List (List Nat)),
    st.1.length = N → st.2.length = N → st.2.flatten.Perm (dn.map (·.2)) → dn.length + l.length ≤ M →
    ∃ st', placeAll W M l st = .ok st' ∧ st'.2.length = N ∧ st'.2.flatten.Perm ((dn ++ l).map (·.2)) := by
  intro l
  induction l with
  | nil => intro dn st _ h2 h3 _; exact ⟨st, rfl, h2, by simpa using h3⟩
  | cons e l ih =>
    intro dn st h1 h2 h3 hM
    simp only [List.length_cons] at hM
    obtain ⟨st1, g1, g2, g3, g4⟩ := place_perm W N M dn st e hN h1 h2 h3 (by omega)
    obtain ⟨st2, k1, k2, k3⟩ := ih (dn ++ [e]) st1 g2 g3 g4 (by simp; omega)
    exact ⟨st2, by rw [placeAll, g1, R.bind_ok, k1], k2, by simpa using k3⟩

theorem calcParts_perm (W N M : Nat) (vals init : List Nat) (ordered : List (Nat × Nat)) (hN : 0 < N) (hinit : init.length ≤ N)
    (hsort : SortResult (fill M vals []) ordered) :
    ∃ parts, calcParts W N M ordered init = .ok parts ∧ parts.length = N ∧ parts.flatten.Perm (List.range (min vals.length M)) := by
  obtain ⟨s0, h1, h2, _, _⟩ := initSums_list N init hinit
  have hlen : ordered.length ≤ M := by rw [hsort.1.length_eq, fill_length]; omega
  obtain ⟨st, g1, g2, g3⟩ := placeAll_perm W N M hN ordered [] (s0, List.replicate N []) h2 (by simp) (by simp) (by simpa using hlen)
  refine ⟨st.2, by rw [calcParts, h1, R.bind_ok, g1, R.bind_ok], g2, ?_⟩
  rw [← ids M vals]; exact g3.trans (hsort.1.map _)

/-- **C61**: with at most MaxElements values, whatever the sort does with ties: each index is in exactly one part, once, and no
other index is in any part. -/
theorem C61_each_once (W N M : Nat) (vals init : List Nat) (ordered : List (Nat × Nat)) (hN : 0 < N) (hinit : init.length ≤ N)
    (hsort : SortResult (fill M vals []) ordered) (hM : vals.length ≤ M) :
    ∃ parts, calcParts W N M ordered init = .ok parts ∧ parts.length = N ∧
      ∀ i : Nat, ((parts.map (·.count i)).sum = if i < vals.length then 1 else 0) := by
  obtain ⟨parts, h1, h2, h3⟩ := calcParts_perm W N M vals init ordered hN hinit hsort
  refine ⟨parts, h1, h2, ?_⟩
  intro i
  rw [Nat.min_eq_left hM] at h3
  rw [← List.count_flatten, h3.count_eq, List.count_range]

/-- **C61**: with more values than MaxElements, the first MaxElements are assigned and the rest are left out. -/
theorem C61_too_many (W N M : Nat) (vals init : List Nat) (ordered : List (Nat × Nat)) (hN : 0 < N) (hinit : init.length ≤ N)
    (hsort : SortResult (fill M vals []) ordered) (hM : M ≤ vals.length) :
    ∃ parts, calcParts W N M ordered init = .ok parts ∧ parts.flatten.Perm (List.range M) := by
  obtain ⟨parts, h1, _, h3⟩ := calcParts_perm W N M vals init ordered hN hinit hsort
  exact ⟨parts, h1, by rwa [Nat.min_eq_right hM] at h3⟩

/-- **C61**: more initial values than parts are written outside the array of sums. -/
theorem C61_too_many_initial (W N M : Nat) (init : List Nat) (ordered : List (Nat × Nat)) (h : N < init.length) :
    calcParts W N M ordered init = .ub := by
  have key : ∀ (l : List Nat) (i : Nat) (s : List Nat), s.length = N → i ≤ N → N < i + l.length → initSums l i s = .ub := by
    intro l
    induction l with
    | nil => intro i s _ _ h; simp at h; omega
    | cons v l ih =>
      intro i s h1 h2 h3
      simp only [List.length_cons] at h3
      rw [initSums]
      by_cases hi : i < N
      · rw [arrSet_lt (by omega), R.bind_ok]
        exact ih (i + 1) _ (by simpa using h1) (by omega) (by omega)
      · rw [show arrSet s i v = .ub by unfold arrSet; rw [if_neg (by omega)]]
        rfl
  rw [calcParts, key init 0 _ (by simp) (by omega) (by omega)]; rfl

/-- **C62**: the sums of any two parts differ by at most the largest element or the initial spread, whichever is larger;
and every part lists its elements from largest to smallest. -/
theorem C62_balanced (W N M : Nat) (vals init : List Nat) (ordered : List (Nat × Nat)) (big spread : Nat) (hN : 0 < N) (hinit : init.length ≤ N)
    (hsort : SortResult (fill M vals []) ordered) (hW : init.sum + vals.sum < W) (hbig : ∀ v ∈ vals, v ≤ big)
    (hspread : ∀ p q, p < N → q < N → init.getD p 0 ≤ init.getD q 0 + spread) :
    ∃ parts, calcParts W N M ordered init = .ok parts ∧ (∀ p q, p < N → q < N → total vals init parts p ≤ total vals init parts q + max big spread) ∧
      (∀ (p : Nat) (part : List Nat), parts[p]? = some part → part.Pairwise (fun i j => vals.getD j 0 ≤ vals.getD i 0)) := by
  obtain ⟨parts, h1, _, _, h4, h5⟩ := calcParts_spec W N M vals init ordered (max big spread) hN hinit hsort hW
    (fun v hv => by have := hbig v hv; omega) (fun p q hp hq => by have := hspread p q hp hq; omega)
  exact ⟨parts, h1, h4, h5⟩

/-- three parts of [3, 1, 4, 1, 5] -/
example : SortResult (fill 8 [3, 1, 4, 1, 5] []) [(5, 4), (4, 2), (3, 0), (1, 3), (1, 1)] ∧
    calcParts 4294967296 3 8 [(5, 4), (4, 2), (3, 0), (1, 3), (1, 1)] [] = .ok [[4], [2, 1], [0, 3]] := by
  refine ⟨⟨by decide, by decide⟩, by decide⟩

/-- Without the bound on the sum the claim is false: with an 8-bit `T`, [200, 200, 20] and initial sums 100 and 0, the first part
wraps to a small sum and gets one element too many. -/
theorem C62_overflow_violated : SortResult (fill 4 [200, 200, 20] []) [(200, 0), (200, 1), (20, 2)] ∧
    calcParts 256 2 4 [(200, 0), (200, 1), (20, 2)] [100, 0] = .ok [[1, 2], [0]] ∧
    total [200, 200, 20] [100, 0] [[1, 2], [0]] 0 = total [200, 200, 20] [100, 0] [[1, 2], [0]] 1 + 120 := by
  refine ⟨⟨by decide, by decide⟩, by decide, by decide⟩

end Partition
