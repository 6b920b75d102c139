import Verif.Model.PartitionNum
import Verif.Spec.PartitionNum
import Verif.Lemmas.FltErr
import Mathlib.Algebra.BigOperators.Group.List.Basic
import Mathlib.Algebra.Order.BigOperators.Group.List
/-! # Property C187: Partition of signed and float values -/
namespace PartitionNum
open Spec

theorem fill_eq (M : Nat) : ∀ (vals : List ℚ) (o : List (ℚ × Nat)),
    fill M vals o = o ++ (List.range (min vals.length (M - o.length))).map (fun i => (vals.getD i 0, o.length + i)) := by
  intro vals
  induction vals with
  | nil => intro o; simp [fill]
  | cons v vals ih =>
    intro o
    rw [fill]
    by_cases h : o.length < M
    · rw [if_pos h, ih]
      have e : min (v :: vals).length (M - o.length) = min vals.length (M - (o ++ [(v, o.length)]).length) + 1 := by
        simp only [List.length_cons, List.length_append, List.length_nil]; omega
      rw [e, List.range_succ_eq_map, List.map_cons, List.map_map, List.append_assoc]
      congr 1
      simp only [List.length_append, List.length_cons, List.length_nil, List.singleton_append, List.getD_cons_zero, Nat.add_zero]
      congr 1
      apply List.map_congr_left
      intro i _
      simp only [Function.comp, List.getD_cons_succ]
      congr 1; omega
    · rw [if_neg h, ih]
      have e1 : min vals.length (M - o.length) = 0 := by omega
      have e2 : min (v :: vals).length (M - o.length) = 0 := by omega
      rw [e1, e2]; rfl

theorem fill_length (M : Nat) (vals : List ℚ) : (fill M vals []).length = min vals.length M := by
  rw [fill_eq]; simp

theorem minGo_spec (s : List ℚ) : ∀ (l : List ℚ) (i best : Nat) (bv : ℚ), s.drop i = l → s[best]? = some bv → (∀ (j : Nat) (x : ℚ), j < i → s[j]? = some x → bv ≤ x) →
    ∃ v, s[minGo l i best bv]? = some v ∧ ∀ x ∈ s, v ≤ x := by
  intro l
  induction l with
  | nil =>
    intro i best bv hd hb h
    refine ⟨bv, hb, ?_⟩
    intro x hx
    obtain ⟨j, hj, rfl⟩ := List.mem_iff_getElem.mp hx
    have : s.length ≤ i := by simpa using hd
    exact h j _ (by omega) (List.getElem?_eq_getElem hj)
  | cons y l ih =>
    intro i best bv hd hb h
    have hi : s[i]? = some y := by
      have := congrArg (·[0]?) hd
      simpa using this
    have hd' : s.drop (i + 1) = l := by
      rw [← List.drop_drop, hd]; rfl
    rw [minGo]
    split
    · next hlt =>
      apply ih (i + 1) i y hd' hi
      intro j x hj hx
      rcases Nat.lt_or_eq_of_le (Nat.le_of_lt_succ hj) with h1 | h1
      · exact le_of_lt (lt_of_lt_of_le hlt (h j x h1 hx))
      · rw [h1, hi] at hx; cases hx; exact le_refl _
    · next hlt =>
      apply ih (i + 1) best bv hd' hb
      intro j x hj hx
      rcases Nat.lt_or_eq_of_le (Nat.le_of_lt_succ hj) with h1 | h1
      · exact h j x h1 hx
      · rw [h1, hi] at hx; cases hx; exact not_lt.mp hlt

theorem minElement_spec (s : List ℚ) (hs : s ≠ []) : ∃ v, s[minElement s]? = some v ∧ ∀ x ∈ s, v ≤ x := by
  cases s with
  | nil => exact absurd rfl hs
  | cons x l =>
    apply minGo_spec (x :: l) l 1 0 x rfl rfl
    intro j y hj hy
    have : j = 0 := by omega
    subst this
    simp at hy; exact le_of_eq hy

theorem flatten_set (l : List (List Nat)) : ∀ (k : Nat) (p : List Nat) (i : Nat), l[k]? = some p → (l.set k (p ++ [i])).flatten.Perm (l.flatten ++ [i]) := by
  induction l with
  | nil => intro k p i h; simp at h
  | cons a l ih =>
    intro k p i h
    cases k with
    | zero =>
      simp only [List.getElem?_cons_zero, Option.some.injEq] at h
      subst h
      simp only [List.set_cons_zero, List.flatten_cons, List.append_assoc]
      exact List.Perm.append_left a List.perm_append_comm
    | succ k =>
      simp only [List.getElem?_cons_succ] at h
      simp only [List.set_cons_succ, List.flatten_cons, List.append_assoc]
      exact List.Perm.append_left a (ih k p i h)


theorem get_le_sum (l : List ℚ) (h0 : ∀ x ∈ l, 0 ≤ x) (k : Nat) (s : ℚ) (h : l[k]? = some s) : s ≤ l.sum := by
  induction l generalizing k with
  | nil => simp at h
  | cons a l ih =>
    have hl : 0 ≤ l.sum := List.sum_nonneg (fun x hx => h0 x (List.mem_cons_of_mem _ hx))
    have ha := h0 a (List.mem_cons_self)
    cases k with
    | zero => simp only [List.getElem?_cons_zero, Option.some.injEq] at h; subst h; simp; exact hl
    | succ k =>
      simp only [List.getElem?_cons_succ] at h
      have := ih (fun x hx => h0 x (List.mem_cons_of_mem _ hx)) k h
      simp only [List.sum_cons]; linarith

/-- A successful run of the last loop puts every index once. -/
theorem placeAll_perm (add : ℚ → ℚ → R ℚ) (N M : Nat) (hN : 0 < N) : ∀ (l dn : List (ℚ × Nat)) (st st' : List ℚ × List (List Nat)),
    st.1.length = N → st.2.length = N → st.2.flatten.Perm (dn.map (·.2)) → dn.length + l.length ≤ M → placeAll add M l st = .ok st' →
    st'.2.length = N ∧ st'.2.flatten.Perm ((dn ++ l).map (·.2)) := by
  intro l
  induction l with
  | nil => intro dn st st' _ h2 h3 _ h; cases h; exact ⟨h2, by simpa using h3⟩
  | cons e l ih =>
    intro dn st st' h1 h2 h5 hM h
    simp only [List.length_cons] at hM
    have hne : st.1 ≠ [] := by intro h; rw [h] at h1; simp at h1; omega
    obtain ⟨v, hv, _⟩ := minElement_spec _ hne
    obtain ⟨idx, hidx⟩ : ∃ idx, minElement st.1 = idx := ⟨_, rfl⟩
    rw [hidx] at hv
    have hlt : idx < N := by have := (List.getElem?_eq_some_iff.mp hv).1; omega
    have hp : st.2[idx]? = some (st.2[idx]'(by omega)) := List.getElem?_eq_getElem (by omega)
    obtain ⟨p, hpe⟩ : ∃ p, st.2[idx]'(by omega) = p := ⟨_, rfl⟩
    rw [hpe] at hp
    have hplen : p.length ≤ dn.length := by
      have hmem : p ∈ st.2 := List.mem_of_getElem? hp
      have h7 := h5.length_eq
      have h8 := (List.sublist_flatten_of_mem hmem).length_le
      simp at h7 h8
      omega
    cases ha : add v e.1 with
    | ub =>
      have : place add M st e = .ub := by
        rw [place]; simp only [hidx]; rw [arrGet_some hv, R.bind_ok, ha, R.bind_ub]
      rw [placeAll, this] at h
      cases h
    | ok s' =>
      have : place add M st e = .ok (st.1.set idx s', st.2.set idx (p ++ [e.2])) := by
        rw [place]; simp only [hidx]
        rw [arrGet_some hv, R.bind_ok, ha, R.bind_ok, arrSet_lt (by omega), R.bind_ok, arrGet_some hp, R.bind_ok, arrSet_lt (by omega), R.bind_ok,
          if_pos (show p.length < M by omega)]
      rw [placeAll, this, R.bind_ok] at h
      have := ih (dn ++ [e]) _ st' (by simpa using h1) (by simpa using h2) (by
        refine (flatten_set _ idx p e.2 hp).trans ?_
        rw [List.map_append]
        exact List.Perm.append_right _ h5) (by simp; omega) h
      exact ⟨this.1, by simpa using this.2⟩

theorem initSums_length (N : Nat) : ∀ (l : List ℚ) (i : Nat) (sums s : List ℚ), sums.length = N → initSums l i sums = .ok s → s.length = N := by
  intro l
  induction l with
  | nil => intro i sums s h1 h; cases h; exact h1
  | cons v l ih =>
    intro i sums s h1 h
    rw [initSums] at h
    by_cases hi : i < sums.length
    · rw [arrSet_lt hi, R.bind_ok] at h
      exact ih _ _ _ (by simpa using h1) h
    · rw [show arrSet sums i v = .ub by unfold arrSet; rw [if_neg hi]] at h
      cases h

theorem ids (M : Nat) (vals : List ℚ) : (fill M vals []).map (·.2) = List.range (min vals.length M) := by
  rw [fill_eq]
  simp [Function.comp_def]

/-- **C187**: for every arithmetic type: if all additions are defined, each of the (at most MaxElements) indices is in exactly one part, once, and no other index is in any part. -/
theorem C187_each_once (add : ℚ → ℚ → R ℚ) (N M : Nat) (vals init : List ℚ) (ordered : List (ℚ × Nat)) (hN : 0 < N)
    (hsort : SortResult (fill M vals []) ordered) (hM : vals.length ≤ M) (parts : List (List Nat)) (h : calcParts add N M ordered init = .ok parts) :
    parts.length = N ∧ ∀ i : Nat, ((parts.map (·.count i)).sum = if i < vals.length then 1 else 0) := by
  unfold calcParts at h
  cases h0 : initSums init 0 (List.replicate N 0) with
  | ub => rw [h0] at h; cases h
  | ok s0 =>
    rw [h0, R.bind_ok] at h
    cases h1 : placeAll add M ordered (s0, List.replicate N []) with
    | ub => rw [h1] at h; cases h
    | ok st =>
      rw [h1, R.bind_ok] at h
      cases h
      have hlen : ordered.length ≤ M := by rw [hsort.1.length_eq, fill_length]; omega
      obtain ⟨g1, g2⟩ := placeAll_perm add N M hN ordered [] _ st (initSums_length N _ _ _ _ (by simp) h0) (by simp) (by simp) (by simpa using hlen) h1
      refine ⟨g1, fun i => ?_⟩
      have g3 : st.2.flatten.Perm (List.range vals.length) := by
        rw [← Nat.min_eq_left hM, ← ids M vals]
        exact g2.trans (by simpa using hsort.1.map (·.2))
      rw [← List.count_flatten, g3.count_eq, List.count_range]

example := C187_each_once (addInt 32) 3 8 [3, 1, 4, 1, 5] [] [(5, 4), (4, 2), (3, 0), (1, 3), (1, 1)] (by decide) ⟨by decide +kernel, by decide +kernel⟩ (by decide) [[4], [2, 1], [0, 3]] (by decide +kernel)

/-- What is asked of the addition on non-negative values: `P` are the values of the type, `f` the rounding, `eps` its relative error, `U` the largest sum that must be defined. -/
structure Adds (add : ℚ → ℚ → R ℚ) (P : ℚ → Prop) (f : ℚ → ℚ) (eps U : ℚ) : Prop where
  eps0 : 0 ≤ eps
  zero : P 0
  ok : ∀ a b, P a → P b → 0 ≤ a → 0 ≤ b → a + b ≤ U → add a b = .ok (f (a + b))
  val : ∀ a b, P a → P b → P (f (a + b))
  mono : ∀ a b, a ≤ b → f a ≤ f b
  fix : ∀ a, P a → f a = a
  err : ∀ a b, P a → P b → |f (a + b) - (a + b)| ≤ eps * |a + b|

/-- The state after some elements `dn` have been placed; `S` is the sum of everything. -/
structure Inv (P : ℚ → Prop) (f : ℚ → ℚ) (eps S : ℚ) (N : Nat) (vals init : List ℚ) (dn : List (ℚ × Nat)) (B : ℚ) (st : List ℚ × List (List Nat)) : Prop where
  size1 : st.1.length = N
  size2 : st.2.length = N
  pos : ∀ (p : Nat) (s : ℚ), st.1[p]? = some s → 0 ≤ s ∧ P s
  sums : ∀ (p : Nat) (s : ℚ) (part : List Nat), st.1[p]? = some s → st.2[p]? = some part → |s - (init.getD p 0 + sumOf vals part)| ≤ part.length * (2 * S * eps)
  tot : ∀ (p : Nat) (part : List Nat), st.2[p]? = some part → init.getD p 0 + sumOf vals part ≤ init.sum + (dn.map (·.1)).sum
  perm : st.2.flatten.Perm (dn.map (·.2))
  bal : ∀ (p q : Nat) (s t : ℚ), st.1[p]? = some s → st.1[q]? = some t → s ≤ f (t + B)

theorem place_inv {add : ℚ → ℚ → R ℚ} {P : ℚ → Prop} {f : ℚ → ℚ} {eps U S : ℚ} (hA : Adds add P f eps U) (N M : Nat) (vals init : List ℚ) (dn : List (ℚ × Nat)) (B : ℚ)
    (st : List ℚ × List (List Nat)) (e : ℚ × Nat) (hN : 0 < N) (hI : Inv P f eps S N vals init dn B st) (hM : dn.length < M) (he : vals.getD e.2 0 = e.1)
    (he0 : 0 ≤ e.1) (heP : P e.1) (hS : init.sum + (dn.map (·.1)).sum + e.1 ≤ S) (hS0 : 0 ≤ S) (hn : 2 * M * eps ≤ 1) (hU : S + 2 * M * S * eps ≤ U) (hB : e.1 ≤ B) :
    ∃ st', place add M st e = .ok st' ∧ Inv P f eps S N vals init (dn ++ [e]) B st' := by
  obtain ⟨h1, h2, h8, h3, h4, h5, h6⟩ := hI
  have hB0 : 0 ≤ B := le_trans he0 hB
  have hne : st.1 ≠ [] := by intro h; rw [h] at h1; simp at h1; omega
  obtain ⟨v, hv, hmin⟩ := minElement_spec _ hne
  obtain ⟨idx, hidx⟩ : ∃ idx, minElement st.1 = idx := ⟨_, rfl⟩
  rw [hidx] at hv
  have hlt : idx < N := by have := (List.getElem?_eq_some_iff.mp hv).1; omega
  have hp : st.2[idx]? = some (st.2[idx]'(by omega)) := List.getElem?_eq_getElem (by omega)
  obtain ⟨p, hpe⟩ : ∃ p, st.2[idx]'(by omega) = p := ⟨_, rfl⟩
  rw [hpe] at hp
  have hplen : p.length ≤ dn.length := by
    have hmem : p ∈ st.2 := List.mem_of_getElem? hp
    have h7 := h5.length_eq
    have h8 := (List.sublist_flatten_of_mem hmem).length_le
    simp at h7 h8
    omega
  obtain ⟨v0, vP⟩ := h8 idx v hv
  have e3 := h3 idx v p hv hp
  have e4 := h4 idx p hp
  have heps := hA.eps0
  have hpM : (p.length : ℚ) ≤ M := by exact_mod_cast (show p.length ≤ M by omega)
  have hSe : 0 ≤ 2 * S * eps := by positivity
  have e5 : (p.length : ℚ) * (2 * S * eps) ≤ M * (2 * S * eps) := mul_le_mul_of_nonneg_right hpM hSe
  have e6 : v + e.1 ≤ S + 2 * M * S * eps := by
    have := (abs_le.mp e3).2
    have : M * (2 * S * eps) = 2 * M * S * eps := by ring
    linarith
  have e7 : v + e.1 ≤ 2 * S := by
    have : 2 * M * S * eps = 2 * M * eps * S := by ring
    have := mul_le_mul_of_nonneg_right hn hS0
    linarith
  obtain ⟨w, hw⟩ : ∃ w, w = f (v + e.1) := ⟨_, rfl⟩
  have hadd : add v e.1 = .ok w := by rw [hw]; exact hA.ok v e.1 vP heP v0 he0 (by linarith)
  have wP : P w := by rw [hw]; exact hA.val v e.1 vP heP
  have wv : v ≤ w := by
    have := hA.mono v (v + e.1) (by linarith)
    rwa [hA.fix v vP, ← hw] at this
  have werr : |w - (v + e.1)| ≤ 2 * S * eps := by
    have := hA.err v e.1 vP heP
    rw [← hw, abs_of_nonneg (show 0 ≤ v + e.1 by linarith)] at this
    have := mul_le_mul_of_nonneg_left e7 heps
    linarith
  refine ⟨(st.1.set idx w, st.2.set idx (p ++ [e.2])), ?_, ⟨by simpa using h1, by simpa using h2, ?_, ?_, ?_, ?_, ?_⟩⟩
  · rw [place]
    simp only [hidx]
    rw [arrGet_some hv, R.bind_ok, hadd, R.bind_ok, arrSet_lt (by omega), R.bind_ok, arrGet_some hp, R.bind_ok, arrSet_lt (by omega), R.bind_ok,
      if_pos (show p.length < M by omega)]
  · intro q s hs
    simp only [List.getElem?_set] at hs
    by_cases hq : idx = q
    · rw [if_pos hq, if_pos (by omega)] at hs
      cases hs
      exact ⟨by linarith, wP⟩
    · rw [if_neg hq] at hs
      exact h8 q s hs
  · intro q s part hs hpart
    simp only [List.getElem?_set] at hs hpart
    by_cases hq : idx = q
    · subst hq
      rw [if_pos rfl, if_pos (by omega)] at hs hpart
      cases hs; cases hpart
      have ex : sumOf vals (p ++ [e.2]) = sumOf vals p + e.1 := by simp only [sumOf, List.map_append, List.sum_append, List.map_cons, List.map_nil, List.sum_cons, List.sum_nil, he, add_zero]
      rw [ex, List.length_append, List.length_singleton]
      have tri : |w - (init.getD idx 0 + (sumOf vals p + e.1))| ≤ |w - (v + e.1)| + |(v + e.1) - (init.getD idx 0 + (sumOf vals p + e.1))| := abs_sub_le _ _ _
      have ey : (v + e.1) - (init.getD idx 0 + (sumOf vals p + e.1)) = v - (init.getD idx 0 + sumOf vals p) := by ring
      rw [ey] at tri
      push_cast
      have : ((p.length : ℚ) + 1) * (2 * S * eps) = p.length * (2 * S * eps) + 2 * S * eps := by ring
      linarith
    · rw [if_neg hq] at hs hpart
      exact h3 q s part hs hpart
  · intro q part hpart
    simp only [List.getElem?_set] at hpart
    rw [List.map_append, List.sum_append]
    simp only [List.map_cons, List.map_nil, List.sum_cons, List.sum_nil, add_zero]
    by_cases hq : idx = q
    · subst hq
      rw [if_pos rfl, if_pos (by omega)] at hpart
      cases hpart
      have ex : sumOf vals (p ++ [e.2]) = sumOf vals p + e.1 := by simp only [sumOf, List.map_append, List.sum_append, List.map_cons, List.map_nil, List.sum_cons, List.sum_nil, he, add_zero]
      rw [ex]; linarith
    · rw [if_neg hq] at hpart
      have := h4 q part hpart
      linarith
  · refine (flatten_set _ idx p e.2 hp).trans ?_
    rw [List.map_append]
    exact List.Perm.append_right _ h5
  · intro a b s t hs ht
    simp only [List.getElem?_set] at hs ht
    have hle : ∀ (c : Nat) (u : ℚ), st.1[c]? = some u → v ≤ u := fun c u hc => hmin u (List.mem_of_getElem? hc)
    by_cases ha : idx = a <;> by_cases hb : idx = b
    · subst ha; subst hb
      rw [if_pos rfl, if_pos (by omega)] at hs ht
      cases hs; cases ht
      have := hA.mono w (w + B) (by linarith)
      rwa [hA.fix w wP] at this
    · subst ha
      rw [if_pos rfl, if_pos (by omega)] at hs
      rw [if_neg hb] at ht
      cases hs
      rw [hw]
      exact hA.mono _ _ (by have := hle b t ht; linarith)
    · subst hb
      rw [if_pos rfl, if_pos (by omega)] at ht
      rw [if_neg ha] at hs
      cases ht
      exact le_trans (h6 a idx s v hs hv) (hA.mono _ _ (by linarith))
    · rw [if_neg ha] at hs
      rw [if_neg hb] at ht
      exact h6 a b s t hs ht

theorem placeAll_inv {add : ℚ → ℚ → R ℚ} {P : ℚ → Prop} {f : ℚ → ℚ} {eps U S : ℚ} (hA : Adds add P f eps U) (N M : Nat) (vals init : List ℚ) (B : ℚ) (hN : 0 < N)
    (hS0 : 0 ≤ S) (hn : 2 * M * eps ≤ 1) (hU : S + 2 * M * S * eps ≤ U) :
    ∀ (l dn : List (ℚ × Nat)) (st : List ℚ × List (List Nat)), Inv P f eps S N vals init dn B st → dn.length + l.length ≤ M →
      (∀ e ∈ l, vals.getD e.2 0 = e.1 ∧ e.1 ≤ B ∧ 0 ≤ e.1 ∧ P e.1) → init.sum + ((dn ++ l).map (·.1)).sum ≤ S →
      ∃ st', placeAll add M l st = .ok st' ∧ Inv P f eps S N vals init (dn ++ l) B st' := by
  intro l
  induction l with
  | nil => intro dn st hI _ _ _; exact ⟨st, rfl, by simpa using hI⟩
  | cons e l ih =>
    intro dn st hI hM he hS
    simp only [List.map_append, List.map_cons, List.sum_append, List.sum_cons] at hS
    simp only [List.length_cons] at hM
    have hl0 : 0 ≤ (l.map (·.1)).sum := List.sum_nonneg (by
      intro x hx
      obtain ⟨y, hy, rfl⟩ := List.mem_map.mp hx
      exact (he y (by simp [hy])).2.2.1)
    obtain ⟨a1, a2, a3, a4⟩ := he e (by simp)
    obtain ⟨st1, b1, b2⟩ := place_inv hA N M vals init dn B st e hN hI (by omega) a1 a3 a4 (by linarith) hS0 hn hU a2
    obtain ⟨st2, g1, g2⟩ := ih (dn ++ [e]) st1 b2 (by simp; omega) (fun x hx => he x (by simp [hx]))
      (by simp only [List.map_append, List.map_cons, List.map_nil, List.sum_append, List.sum_cons, List.sum_nil]; linarith)
    exact ⟨st2, by rw [placeAll, b1, R.bind_ok, g1], by simpa using g2⟩

theorem initSums_spec (N : Nat) : ∀ (l : List ℚ) (i : Nat) (sums : List ℚ), sums.length = N → i + l.length ≤ N →
    (∀ (p : Nat) (s : ℚ), i ≤ p → sums[p]? = some s → s = 0) →
    ∃ s', initSums l i sums = .ok s' ∧ s'.length = N ∧ (∀ (p : Nat), p < i → s'[p]? = sums[p]?) ∧
      (∀ (p : Nat) (s : ℚ), i ≤ p → s'[p]? = some s → s = l.getD (p - i) 0) := by
  intro l
  induction l with
  | nil => intro i sums h1 h2 h3; exact ⟨sums, rfl, h1, fun _ _ => rfl, fun p s hp hs => by simpa using h3 p s hp hs⟩
  | cons v l ih =>
    intro i sums h1 h2 h3
    simp only [List.length_cons] at h2
    have h4 : ∀ (p : Nat) (s : ℚ), i + 1 ≤ p → (sums.set i v)[p]? = some s → s = 0 := by
      intro p s hp hs
      rw [List.getElem?_set, if_neg (by omega)] at hs
      exact h3 p s (by omega) hs
    obtain ⟨s', g1, g2, g3, g4⟩ := ih (i + 1) (sums.set i v) (by simpa using h1) (by omega) h4
    refine ⟨s', by rw [initSums, arrSet_lt (by omega), R.bind_ok, g1], g2, ?_, ?_⟩
    · intro p hp
      rw [g3 p (by omega), List.getElem?_set, if_neg (by omega)]
    · intro p s hp hs
      by_cases hpi : p = i
      · subst hpi
        rw [g3 p (by omega), List.getElem?_set, if_pos rfl, if_pos (by omega)] at hs
        cases hs; simp
      · rw [g4 p s (by omega) hs, show p - i = (p - (i + 1)) + 1 by omega, List.getD_cons_succ]


theorem fill_mem (M : Nat) (vals : List ℚ) : ∀ e ∈ fill M vals [], vals.getD e.2 0 = e.1 ∧ e.2 < vals.length := by
  intro e he
  rw [fill_eq] at he
  simp only [List.nil_append, List.mem_map, List.mem_range] at he
  obtain ⟨i, hi, rfl⟩ := he
  simp only [List.length_nil, Nat.zero_add]
  exact ⟨trivial, by omega⟩

theorem fill_sum (M : Nat) (vals : List ℚ) (h0 : ∀ v ∈ vals, 0 ≤ v) : ((fill M vals []).map (·.1)).sum ≤ vals.sum := by
  have : (fill M vals []).map (·.1) = vals.take M := by
    rw [fill_eq]
    apply List.ext_getElem?
    intro i
    by_cases h : i < min vals.length M
    · have hi : i < vals.length := by omega
      rw [List.getElem?_take_of_lt (by omega), List.getElem?_eq_getElem hi]
      simp only [List.nil_append, List.map_map, List.getElem?_map, List.length_nil, Nat.sub_zero, List.getElem?_range h, Option.map_some,
        Function.comp, List.getD_eq_getElem?_getD, List.getElem?_eq_getElem hi, Option.getD_some]
    · rw [List.getElem?_eq_none (by simp; omega), List.getElem?_eq_none (by simp; omega)]
  rw [this]
  have := congrArg List.sum (List.take_append_drop M vals)
  rw [List.sum_append] at this
  have h2 : 0 ≤ (vals.drop M).sum := List.sum_nonneg (fun x hx => h0 x (List.mem_of_mem_drop hx))
  linarith

theorem getD_cases (l : List ℚ) (p : Nat) : l.getD p 0 = 0 ∨ l.getD p 0 ∈ l := by
  rw [List.getD_eq_getElem?_getD]
  cases h : l[p]? with
  | none => exact Or.inl rfl
  | some x => exact Or.inr (List.mem_of_getElem? h)

/-- Balance, for any addition as described by `Adds`. -/
theorem balanced {add : ℚ → ℚ → R ℚ} {P : ℚ → Prop} {f : ℚ → ℚ} {eps U : ℚ} (hA : Adds add P f eps U) (N M : Nat) (vals init : List ℚ) (ordered : List (ℚ × Nat)) (B S : ℚ) (hN : 0 < N)
    (hinit : init.length ≤ N) (hsort : SortResult (fill M vals []) ordered) (hS : S = init.sum + vals.sum) (hn : 2 * M * eps ≤ 1) (hU : S + 2 * M * S * eps ≤ U)
    (hv : ∀ v ∈ vals, 0 ≤ v ∧ v ≤ B ∧ P v) (hi : ∀ v ∈ init, 0 ≤ v ∧ P v) (hBP : P B) (hB0 : 0 ≤ B) (hspread : ∀ (p q : Nat), p < N → q < N → init.getD p 0 ≤ init.getD q 0 + B) :
    ∃ parts, calcParts add N M ordered init = .ok parts ∧ ∀ p q, p < N → q < N → total vals init parts p ≤ total vals init parts q + B + eps * (4 * M * S + 2 * S + B) := by
  obtain ⟨s0, h1, h2, _, h4⟩ := initSums_spec N init 0 (List.replicate N 0) (by simp) (by omega)
    (by intro p x _ hx; simp [List.getElem?_replicate] at hx; exact hx.2.symm)
  have h4' : ∀ (p : Nat) (x : ℚ), s0[p]? = some x → x = init.getD p 0 := fun p x hx => by simpa using h4 p x (by omega) hx
  have hgi : ∀ p, 0 ≤ init.getD p 0 ∧ P (init.getD p 0) := by
    intro p
    rcases getD_cases init p with h | h
    · rw [h]; exact ⟨le_refl _, hA.zero⟩
    · exact hi _ h
  have hi0 : 0 ≤ init.sum := List.sum_nonneg (fun x hx => (hi x hx).1)
  have hv0 : 0 ≤ vals.sum := List.sum_nonneg (fun x hx => (hv x hx).1)
  have hS0 : 0 ≤ S := by rw [hS]; linarith
  have heps := hA.eps0
  have hI : Inv P f eps S N vals init [] B (s0, List.replicate N []) := by
    refine ⟨h2, by simp, ?_, ?_, ?_, by simp, ?_⟩
    · intro p s hs
      rw [h4' p s hs]; exact hgi p
    · intro p s part hs hp
      simp [List.getElem?_replicate] at hp
      rw [hp.2, h4' p s hs]; simp [sumOf]
    · intro p part hp
      simp [List.getElem?_replicate] at hp
      rw [hp.2]
      simp only [sumOf, List.map_nil, List.sum_nil, add_zero]
      rcases getD_cases init p with h | h
      · rw [h]; exact hi0
      · obtain ⟨k, hk⟩ := List.mem_iff_getElem?.mp h
        exact get_le_sum init (fun x hx => (hi x hx).1) k _ hk
    · intro p q s t hs ht
      have hp := (List.getElem?_eq_some_iff.mp hs).1
      have hq := (List.getElem?_eq_some_iff.mp ht).1
      simp only at hp hq
      have e1 := h4' p s hs
      have e2 := h4' q t ht
      have := hA.mono s (t + B) (by rw [e1, e2]; exact hspread p q (by omega) (by omega))
      rwa [hA.fix s (by rw [e1]; exact (hgi p).2)] at this
  have hmem : ∀ e ∈ ordered, vals.getD e.2 0 = e.1 ∧ e.1 ≤ B ∧ 0 ≤ e.1 ∧ P e.1 := by
    intro e he
    have := fill_mem M vals e (hsort.1.mem_iff.mp he)
    have hm : e.1 ∈ vals := by
      rw [← this.1, List.getD_eq_getElem?_getD, List.getElem?_eq_getElem this.2]
      exact List.getElem_mem _
    obtain ⟨a, b, c⟩ := hv e.1 hm
    exact ⟨this.1, b, a, c⟩
  have hlen : ordered.length ≤ M := by rw [hsort.1.length_eq, fill_length]; omega
  have hsum : (ordered.map (·.1)).sum ≤ vals.sum := by
    rw [(hsort.1.map (·.1)).sum_eq]; exact fill_sum M vals (fun v h => (hv v h).1)
  obtain ⟨st, g1, g2⟩ := placeAll_inv hA N M vals init B hN hS0 hn hU ordered [] _ hI (by simpa using hlen) hmem (by simp; linarith)
  rw [List.nil_append] at g2
  refine ⟨st.2, by rw [calcParts, h1, R.bind_ok, g1, R.bind_ok], ?_⟩
  have hpl : ∀ (p : Nat) (part : List Nat), st.2[p]? = some part → (part.length : ℚ) ≤ M := by
    intro p part hp
    have hm : part ∈ st.2 := List.mem_of_getElem? hp
    have h7 := g2.perm.length_eq
    have h8 := (List.sublist_flatten_of_mem hm).length_le
    simp at h7 h8
    exact_mod_cast (show part.length ≤ M by omega)
  have e : ∀ p, p < N → ∃ s, st.1[p]? = some s ∧ |s - total vals init st.2 p| ≤ M * (2 * S * eps) ∧ total vals init st.2 p ≤ S := by
    intro p hp
    have a1 : st.1[p]? = some (st.1[p]'(by have := g2.size1; omega)) := List.getElem?_eq_getElem _
    have a2 : st.2[p]? = some (st.2[p]'(by have := g2.size2; omega)) := List.getElem?_eq_getElem _
    have et : total vals init st.2 p = init.getD p 0 + sumOf vals (st.2[p]'(by have := g2.size2; omega)) := by
      rw [total, show st.2.getD p [] = st.2[p]'(by have := g2.size2; omega) by rw [List.getD_eq_getElem?_getD, a2]; rfl]
    refine ⟨_, a1, ?_, ?_⟩
    · rw [et]
      exact le_trans (g2.sums p _ _ a1 a2) (mul_le_mul_of_nonneg_right (hpl p _ a2) (by positivity))
    · rw [et]
      have := g2.tot p _ a2
      linarith
  intro p q hp hq
  obtain ⟨s, s1, s2, s3⟩ := e p hp
  obtain ⟨t, t1, t2, t3⟩ := e q hq
  have b := g2.bal p q s t s1 t1
  obtain ⟨t0, tP⟩ := g2.pos q t t1
  have r := hA.err t B tP hBP
  rw [abs_of_nonneg (show 0 ≤ t + B by linarith)] at r
  have r2 := (abs_le.mp r).2
  have s4 := (abs_le.mp s2).1
  have t4 := (abs_le.mp t2).2
  have hM2 : M * (2 * S * eps) ≤ S := by
    have := mul_le_mul_of_nonneg_right hn hS0
    linarith
  have t5 : t + B ≤ 2 * S + B := by linarith
  have r3 := mul_le_mul_of_nonneg_left t5 heps
  have : eps * (4 * M * S + 2 * S + B) = M * (2 * S * eps) + M * (2 * S * eps) + eps * (2 * S + B) := by ring
  linarith

theorem adds_int (w : Nat) : Adds (addInt w) (fun x => ∃ n : ℤ, x = n) id 0 (2 ^ (w - 1) - 1) where
  eps0 := le_refl _
  zero := ⟨0, by simp⟩
  ok := by
    intro a b _ _ ha hb h
    unfold addInt
    have : (0 : ℚ) < 2 ^ (w - 1) := by positivity
    rw [if_pos ⟨by linarith, by linarith⟩]; rfl
  val := by rintro _ _ ⟨m, rfl⟩ ⟨n, rfl⟩; exact ⟨m + n, by simp⟩
  mono := fun _ _ h => h
  fix := fun _ _ => rfl
  err := by intro a b _ _; simp

theorem adds_float {rnd : ℚ → ℚ} (h : Flt.Nearest rnd) (U : ℚ) : Adds (addFloat rnd) Flt.F32 rnd (1 / 2 ^ 24) U where
  eps0 := by positivity
  zero := Flt.f32_zero
  ok := fun _ _ _ _ _ _ _ => rfl
  val := fun _ _ _ _ => h.f32 _
  mono := fun _ _ hab => h.mono hab
  fix := fun _ ha => h.fix ha
  err := fun a b ha hb => by have := h.add_rel ha hb; rw [one_div, inv_mul_eq_div]; exact this

/-- **C187** (partial): non-negative values of a signed integer type whose sum is in range: the sums of any two parts differ by at most B, which bounds the elements and the spread of the initial values. Missing: negative values,
below. -/
theorem C187_signed_partial (w N M : Nat) (vals init : List ℤ) (ordered : List (ℚ × Nat)) (B : ℤ) (hN : 0 < N) (hinit : init.length ≤ N)
    (hsort : SortResult (fill M (vals.map fun z : ℤ => (z : ℚ)) []) ordered) (hS : (init.map fun z : ℤ => (z : ℚ)).sum + (vals.map fun z : ℤ => (z : ℚ)).sum ≤ 2 ^ (w - 1) - 1)
    (hv : ∀ v ∈ vals, 0 ≤ v ∧ v ≤ B) (hi : ∀ v ∈ init, 0 ≤ v) (hB : 0 ≤ B)
    (hspread : ∀ p q, p < N → q < N → (init.map fun z : ℤ => (z : ℚ)).getD p 0 ≤ (init.map fun z : ℤ => (z : ℚ)).getD q 0 + B) :
    ∃ parts, calcParts (addInt w) N M ordered (init.map fun z : ℤ => (z : ℚ)) = .ok parts ∧
      ∀ p q, p < N → q < N → total (vals.map fun z : ℤ => (z : ℚ)) (init.map fun z : ℤ => (z : ℚ)) parts p ≤ total (vals.map fun z : ℤ => (z : ℚ)) (init.map fun z : ℤ => (z : ℚ)) parts q + B := by
  obtain ⟨parts, h1, h2⟩ := balanced (adds_int w) N M _ _ ordered B _ hN (by simpa using hinit) hsort rfl (by simp) (by simpa using hS)
    (by intro v hm
        obtain ⟨z, hz, rfl⟩ := List.mem_map.mp hm
        exact ⟨by exact_mod_cast (hv z hz).1, by exact_mod_cast (hv z hz).2, z, rfl⟩)
    (by intro v hm
        obtain ⟨z, hz, rfl⟩ := List.mem_map.mp hm
        exact ⟨by exact_mod_cast hi z hz, z, rfl⟩) ⟨B, rfl⟩ (by exact_mod_cast hB) hspread
  exact ⟨parts, h1, fun p q hp hq => by simpa using h2 p q hp hq⟩

example := C187_signed_partial 32 3 8 [3, 1, 4, 1, 5] [] [(5, 4), (4, 2), (3, 0), (1, 3), (1, 1)] 5 (by decide) (by decide) ⟨by decide +kernel, by decide +kernel⟩ (by norm_num) (by decide) (by decide) (by decide) (by intro p q _ _; simp)

/-- **C187**: non-negative floats, at most 2^23 of them: the sums of any two parts differ by at most B, which bounds the elements and the spread of the initial values, plus a rounding error of (4 MaxElements + 2) S + B units of 2^-24,
where S is the sum of everything. -/
theorem C187_float {rnd : ℚ → ℚ} (h : Flt.Nearest rnd) (N M : Nat) (vals init : List ℚ) (ordered : List (ℚ × Nat)) (B : ℚ) (hN : 0 < N) (hinit : init.length ≤ N) (hM : M ≤ 2 ^ 23)
    (hsort : SortResult (fill M vals []) ordered) (hv : ∀ v ∈ vals, 0 ≤ v ∧ v ≤ B ∧ Flt.F32 v) (hi : ∀ v ∈ init, 0 ≤ v ∧ Flt.F32 v) (hBF : Flt.F32 B) (hB : 0 ≤ B)
    (hspread : ∀ p q, p < N → q < N → init.getD p 0 ≤ init.getD q 0 + B) :
    ∃ parts, calcParts (addFloat rnd) N M ordered init = .ok parts ∧
      ∀ p q, p < N → q < N → total vals init parts p ≤ total vals init parts q + B + 1 / 2 ^ 24 * (4 * M * (init.sum + vals.sum) + 2 * (init.sum + vals.sum) + B) := by
  have hMq : (M : ℚ) ≤ 2 ^ 23 := by exact_mod_cast hM
  exact balanced (adds_float h _) N M vals init ordered B _ hN hinit hsort rfl (by
    rw [mul_one_div, div_le_iff₀ (by norm_num)]; linarith) (le_refl _) hv hi hBF hB hspread

/-- **C187** (violated with negative values): two parts of -1, -1, -1, -1: the first sum is always the smallest, and gets all four. -/
theorem C187_negative_violated : SortResult (fill 4 [-1, -1, -1, -1] []) [(-1, 0), (-1, 1), (-1, 2), (-1, 3)] ∧
    calcParts (addInt 32) 2 4 [(-1, 0), (-1, 1), (-1, 2), (-1, 3)] [] = .ok [[0, 1, 2, 3], []] :=
  ⟨⟨by decide +kernel, by decide +kernel⟩, by decide +kernel⟩

/-- **C187** (violated by rounding): with initial sums 2^25 and 2^25 and k ones, all k go to the first part, because adding 1 to 2^25 changes nothing (the bound of `C187_float` grows with the sum). Under every rounding to nearest that takes
2^25 + 1 to 2^25, as it must. -/
theorem C187_rounding_violated {rnd : ℚ → ℚ} (h : Flt.Nearest rnd) (k : Nat) :
    SortResult (fill k (List.replicate k 1) []) ((List.range k).map fun i => (1, i)) ∧
    calcParts (addFloat rnd) 2 k ((List.range k).map fun i => (1, i)) [2 ^ 25, 2 ^ 25] = .ok [List.range k, []] := by
  have r : rnd (2 ^ 25 + 1) = 2 ^ 25 := by
    have := h.eq_of_close (2 ^ 25 + 1) (2 ^ 23) 2 (by norm_num) (by norm_num) (by norm_num) (by norm_num)
    rw [this]; norm_num
  constructor
  · have e : fill k (List.replicate k 1) [] = (List.range k).map fun i => ((1 : ℚ), i) := by
      rw [fill_eq]
      simp only [List.length_replicate, List.length_nil, Nat.sub_zero, Nat.min_self, List.nil_append, Nat.zero_add]
      apply List.map_congr_left
      intro i hi
      have := List.mem_range.mp hi
      simp [List.getD_eq_getElem?_getD, this]
    rw [e]
    refine ⟨List.Perm.refl _, ?_⟩
    rw [List.pairwise_map]
    exact List.pairwise_iff_forall_sublist.mpr (fun _ => le_refl _)
  · have step : ∀ (l : List Nat) (part : List Nat), part.length + l.length ≤ k →
        placeAll (addFloat rnd) k (l.map fun i => ((1 : ℚ), i)) ([2 ^ 25, 2 ^ 25], [part, []]) = .ok ([2 ^ 25, 2 ^ 25], [part ++ l, []]) := by
      intro l
      induction l with
      | nil => intro part _; simp [placeAll]
      | cons i l ih =>
        intro part hl
        simp only [List.length_cons] at hl
        have hp : place (addFloat rnd) k ([2 ^ 25, 2 ^ 25], [part, []]) (1, i) = .ok ([2 ^ 25, 2 ^ 25], [part ++ [i], []]) := by
          have hm : minElement [(2 ^ 25 : ℚ), 2 ^ 25] = 0 := by simp [minElement, minGo]
          rw [place]
          simp only [hm, addFloat]
          rw [show arrGet [(2 ^ 25 : ℚ), 2 ^ 25] 0 = .ok (2 ^ 25) from rfl, R.bind_ok, R.bind_ok, r]
          simp only [arrSet, arrGet, List.length_cons, List.length_nil]
          simp [show part.length < k by omega]
        rw [List.map_cons, placeAll, hp, R.bind_ok, ih (part ++ [i]) (by simp; omega)]
        simp
    rw [calcParts, show initSums [(2 ^ 25 : ℚ), 2 ^ 25] 0 (List.replicate 2 0) = .ok [2 ^ 25, 2 ^ 25] from rfl, R.bind_ok]
    have := step (List.range k) [] (by simp)
    rw [List.nil_append] at this
    rw [show List.replicate 2 ([] : List Nat) = [[], []] from rfl, this]
    rfl

/-- **C187** (exactly, one part): a signed type of `w` bits: all elements go to the one part, in the order sorted, if every sum on the way fits the type; otherwise the call is undefined. -/
theorem C187_one_part_exact (w M : Nat) (ordered : List (ℚ × Nat)) (hM : ordered.length ≤ M) (v0 : ℚ) :
    ((∀ k, 1 ≤ k → k ≤ ordered.length → -2 ^ (w - 1) ≤ v0 + ((ordered.take k).map (·.1)).sum ∧ v0 + ((ordered.take k).map (·.1)).sum < 2 ^ (w - 1)) →
      calcParts (addInt w) 1 M ordered [v0] = .ok [ordered.map (·.2)]) ∧
    ((∃ k, 1 ≤ k ∧ k ≤ ordered.length ∧ ¬ (-2 ^ (w - 1) ≤ v0 + ((ordered.take k).map (·.1)).sum ∧ v0 + ((ordered.take k).map (·.1)).sum < 2 ^ (w - 1))) →
      calcParts (addInt w) 1 M ordered [v0] = .ub) := by
  have step : ∀ (s : ℚ) (p : List Nat) (e : ℚ × Nat), p.length < M → place (addInt w) M ([s], [p]) e = if -2 ^ (w - 1) ≤ s + e.1 ∧ s + e.1 < 2 ^ (w - 1) then .ok ([s + e.1], [p ++ [e.2]]) else .ub := by
    intro s p e hp
    unfold place addInt
    simp only [minElement, minGo, arrGet, List.getElem?_cons_zero, R.bind_ok]
    split
    · simp [R.bind_ok, arrSet, hp]
    · rfl
  have key : ∀ (l : List (ℚ × Nat)) (s : ℚ) (p : List Nat), p.length + l.length ≤ M →
      ((∀ k, 1 ≤ k → k ≤ l.length → -2 ^ (w - 1) ≤ s + ((l.take k).map (·.1)).sum ∧ s + ((l.take k).map (·.1)).sum < 2 ^ (w - 1)) → ∃ t, placeAll (addInt w) M l ([s], [p]) = .ok ([t], [p ++ l.map (·.2)])) ∧
      ((∃ k, 1 ≤ k ∧ k ≤ l.length ∧ ¬ (-2 ^ (w - 1) ≤ s + ((l.take k).map (·.1)).sum ∧ s + ((l.take k).map (·.1)).sum < 2 ^ (w - 1))) → placeAll (addInt w) M l ([s], [p]) = .ub) := by
    intro l
    induction l with
    | nil =>
      intro s p _
      refine ⟨fun _ => ⟨s, by simp [placeAll]⟩, ?_⟩
      rintro ⟨k, h1, h2, -⟩
      simp at h2; omega
    | cons e l ih =>
      intro s p hp
      simp only [List.length_cons] at hp
      have tk : ∀ k, s + (((e :: l).take (k + 1)).map (·.1)).sum = s + e.1 + ((l.take k).map (·.1)).sum := by
        intro k; simp [List.take_succ_cons, add_assoc]
      rw [placeAll, step s p e (by omega)]
      by_cases h : -2 ^ (w - 1) ≤ s + e.1 ∧ s + e.1 < 2 ^ (w - 1)
      · rw [if_pos h, R.bind_ok]
        obtain ⟨i1, i2⟩ := ih (s + e.1) (p ++ [e.2]) (by simp; omega)
        constructor
        · intro hk
          obtain ⟨t, ht⟩ := i1 (fun k h1 h2 => by have := hk (k + 1) (by omega) (by simp; omega); rw [tk] at this; exact this)
          exact ⟨t, by rw [ht]; simp⟩
        · rintro ⟨k, h1, h2, h3⟩
          apply i2
          obtain ⟨j, rfl⟩ : ∃ j, k = j + 1 := ⟨k - 1, by omega⟩
          rw [tk] at h3
          refine ⟨j, ?_, by simpa using h2, h3⟩
          rcases Nat.eq_zero_or_pos j with rfl | hj
          · simp at h3; exact absurd h.2 (not_lt.mpr (h3 h.1))
          · exact hj
      · rw [if_neg h, R.bind_ub]
        refine ⟨fun hk => absurd ?_ h, fun _ => rfl⟩
        have := hk 1 (le_refl _) (by simp)
        simpa using this
  have start : calcParts (addInt w) 1 M ordered [v0] = (do let st ← placeAll (addInt w) M ordered ([v0], [[]]); .ok st.2) := by
    unfold calcParts
    simp [initSums, arrSet, R.bind_ok]
  obtain ⟨k1, k2⟩ := key ordered v0 [] (by simpa using hM)
  rw [start]
  constructor
  · intro h
    obtain ⟨t, ht⟩ := k1 h
    rw [ht, R.bind_ok]; simp
  · intro h
    rw [k2 h, R.bind_ub]

example : calcParts (addInt 8) 1 4 [(100, 1), (27, 0)] [0] = .ok [[1, 0]] ∧ calcParts (addInt 8) 1 4 [(100, 1), (28, 0)] [0] = .ub ∧ calcParts (addInt 8) 1 4 [(-28, 0), (-100, 1)] [0] = .ok [[0, 1]] := by decide +kernel

/-- A case that meets the hypotheses: three parts of 3, 1, 4, 1, 5 as ints, and halves as floats. -/
example : SortResult (fill 8 ([3, 1, 4, 1, 5].map fun z : ℤ => (z : ℚ)) []) [(5, 4), (4, 2), (3, 0), (1, 3), (1, 1)] ∧
    calcParts (addInt 32) 3 8 [(5, 4), (4, 2), (3, 0), (1, 3), (1, 1)] [] = .ok [[4], [2, 1], [0, 3]] :=
  ⟨⟨by decide +kernel, by decide +kernel⟩, by decide +kernel⟩
example : ∃ rnd, Flt.Nearest rnd ∧ SortResult (fill 8 [1 / 2, 3 / 2] []) [(3 / 2, 1), (1 / 2, 0)] ∧ Flt.F32 (3 / 2) ∧ Flt.F32 (1 / 2) := by
  obtain ⟨rnd, h⟩ := Flt.exists_nearest
  exact ⟨rnd, h, ⟨by decide +kernel, by decide +kernel⟩, by simpa using Flt.f32_div 3 (by norm_num) 1 (by norm_num), by simpa using Flt.f32_div 1 (by norm_num) 1 (by norm_num)⟩

end PartitionNum
