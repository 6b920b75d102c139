import Verif.Props.Partition
import Verif.Spec.PartitionBest
/-! # C221: the partition is nearly the best possible -/

namespace Partition.Best
open Spec

/-! ### Sums over the parts -/

def sumR (N : Nat) (F : Nat → Nat) : Nat := ((List.range N).map F).sum

theorem sumR_succ (N : Nat) (F : Nat → Nat) : sumR (N + 1) F = sumR N F + F N := by simp [sumR, List.range_succ]

theorem sumR_add (N : Nat) (F G : Nat → Nat) : sumR N (fun q => F q + G q) = sumR N F + sumR N G := by
  induction N with
  | zero => rfl
  | succ N ih => rw [sumR_succ, sumR_succ, sumR_succ, ih]; omega

theorem sumR_zero (N : Nat) : sumR N (fun _ => 0) = 0 := by
  induction N with
  | zero => rfl
  | succ N ih => rw [sumR_succ, ih]

theorem sumR_single (N a w : Nat) (h : a < N) : sumR N (fun q => if a = q then w else 0) = w := by
  induction N with
  | zero => omega
  | succ N ih =>
    rw [sumR_succ]
    by_cases e : a = N
    · subst e
      have : sumR a (fun q => if a = q then w else 0) = 0 := by
        refine Eq.trans (congrArg List.sum (List.map_congr_left ?_)) (sumR_zero a)
        intro q hq
        rw [List.mem_range] at hq
        have hq' : ¬ a = q := by omega
        exact if_neg hq'
      rw [this, if_pos rfl]; omega
    · rw [ih (by omega), if_neg e]; rfl

theorem sumR_le (N : Nat) (F : Nat → Nat) (c : Nat) (h : ∀ q, q < N → F q ≤ c) : sumR N F ≤ N * c := by
  induction N with
  | zero => simp [sumR]
  | succ N ih =>
    rw [sumR_succ, Nat.succ_mul]
    have := ih (fun q hq => h q (by omega))
    have := h N (by omega)
    omega

theorem sumR_group {α : Type} (N : Nat) (g : α → Nat) (w : α → Nat) (J : List α) (h : ∀ x ∈ J, g x < N) :
    sumR N (fun q => ((J.filter (fun x => g x == q)).map w).sum) = (J.map w).sum := by
  induction J with
  | nil => simpa using sumR_zero N
  | cons a J ih =>
    have e : (fun q => (((a :: J).filter (fun x => g x == q)).map w).sum) =
        fun q => (if g a = q then w a else 0) + ((J.filter (fun x => g x == q)).map w).sum := by
      funext q
      rw [List.filter_cons]
      by_cases hq : g a = q
      · simp [hq]
      · simp [hq]
    rw [e, sumR_add, sumR_single N _ _ (h a (by simp)), ih (fun x hx => h x (by simp [hx]))]
    simp

theorem sum_ge_len (l : List Nat) (c : Nat) (h : ∀ x ∈ l, c ≤ x) : l.length * c ≤ l.sum := by
  induction l with
  | nil => simp
  | cons a l ih =>
    have h1 := ih (fun x hx => h x (by simp [hx]))
    have h2 := h a (by simp)
    simp only [List.length_cons, List.sum_cons, Nat.succ_mul]; omega

theorem flatten_sum (w : Nat → Nat) (ps : List (List Nat)) : (ps.flatten.map w).sum = (ps.map fun p => (p.map w).sum).sum := by
  induction ps with
  | nil => rfl
  | cons p ps ih => rw [List.flatten_cons, List.map_append, List.sum_append, ih]; rfl

/-! ### The weights: an element counts once, and twice if it leaves no room for `e` -/

def wt (best e v : Nat) : Nat := if best < v + e then 2 else 1

theorem upper (best e : Nat) (h3 : best < 3 * e) (L : List Nat) (hL : ∀ v ∈ L, e ≤ v) (hs : L.sum ≤ best) : (L.map (wt best e)).sum ≤ 2 := by
  match L with
  | [] => simp
  | [a] => simp only [List.map_cons, List.map_nil, List.sum_cons, List.sum_nil, wt]; split <;> omega
  | [a, b] =>
    have ha := hL a (by simp)
    have hb := hL b (by simp)
    simp only [List.sum_cons, List.sum_nil] at hs
    simp only [List.map_cons, List.map_nil, List.sum_cons, List.sum_nil, wt]
    rw [if_neg (by omega), if_neg (by omega)]
    omega
  | a :: b :: c :: t =>
    have ha := hL a (by simp)
    have hb := hL b (by simp)
    have hc := hL c (by simp)
    simp only [List.sum_cons] at hs
    omega

theorem lower (best e : Nat) (he : e ≤ best) (L : List Nat) (hs : best < L.sum + e) : 2 ≤ (L.map (wt best e)).sum := by
  have one : ∀ v, 1 ≤ wt best e v := by intro v; unfold wt; split <;> omega
  match L with
  | [] => simp at hs; omega
  | [a] => simp only [List.sum_cons, List.sum_nil] at hs; simp [wt, show best < a + e by omega]
  | a :: b :: t =>
    have ha := one a
    have hb := one b
    simp only [List.map_cons, List.sum_cons]; omega

/-! ### What one placement does -/

theorem place_min (W M : Nat) (st st' : List Nat × List (List Nat)) (e : Nat × Nat) (hne : st.1 ≠ []) (h : place W M st e = .ok st') :
    ∃ v, v ∈ st.1 ∧ (∀ x ∈ st.1, v ≤ x) ∧ ∀ s ∈ st'.1, s ∈ st.1 ∨ s = (v + e.1) % W := by
  obtain ⟨v, hv, hmin⟩ := minElement_spec _ hne
  refine ⟨v, List.mem_of_getElem? hv, hmin, ?_⟩
  rw [place, arrGet_some hv, R.bind_ok, arrSet_lt (List.getElem?_eq_some_iff.mp hv).1, R.bind_ok] at h
  cases hp : arrGet st.2 (minElement st.1) with
  | ub => rw [hp] at h; simp at h
  | ok p =>
    rw [hp, R.bind_ok] at h
    cases hq : arrSet st.2 (minElement st.1) (if p.length < M then p ++ [e.2] else p) with
    | ub => rw [hq] at h; simp at h
    | ok q =>
      rw [hq, R.bind_ok] at h
      cases h
      intro s hs
      rcases List.mem_or_eq_of_mem_set hs with h | h
      · exact Or.inl h
      · exact Or.inr h

theorem placeAll_bound (W N M : Nat) (vals init : List Nat) (B c X : Nat) (hN : 0 < N) (ordered : List (Nat × Nat))
    (hM : ordered.length ≤ M) (hv : ∀ e ∈ ordered, vals.getD e.2 0 = e.1 ∧ e.1 ≤ B) (hW : init.sum + (ordered.map (·.1)).sum < W)
    (hstep : ∀ (dn : List (Nat × Nat)) (e : Nat × Nat) (l : List (Nat × Nat)) (st : List Nat × List (List Nat)) (v : Nat), ordered = dn ++ e :: l →
      Inv N vals init dn B st → v ∈ st.1 → (∀ x ∈ st.1, v ≤ x) → c * (v + e.1) ≤ X) :
    ∀ (l dn : List (Nat × Nat)) (st : List Nat × List (List Nat)), ordered = dn ++ l → Inv N vals init dn B st → (∀ s ∈ st.1, c * s ≤ X) →
      ∃ st', placeAll W M l st = .ok st' ∧ Inv N vals init ordered B st' ∧ ∀ s ∈ st'.1, c * s ≤ X := by
  intro l
  induction l with
  | nil => intro dn st he hI hs; rw [List.append_nil] at he; subst he; exact ⟨st, rfl, hI, hs⟩
  | cons e l ih =>
    intro dn st he hI hs
    have hsum : (ordered.map (·.1)).sum = (dn.map (·.1)).sum + (e.1 + (l.map (·.1)).sum) := by rw [he]; simp
    have hlen : ordered.length = dn.length + (l.length + 1) := by rw [he]; simp
    have hm : e ∈ ordered := by rw [he]; simp
    obtain ⟨st1, h1, h2, _⟩ := place_inv W N M vals init dn B st e hN hI (by omega) (hv e hm).1 (by omega) (hv e hm).2
    have hne : st.1 ≠ [] := by
      intro h
      have := hI.size1
      rw [h] at this; simp at this; omega
    obtain ⟨v, m1, m2, m3⟩ := place_min W M st st1 e hne h1
    have hb := hstep dn e l st v he hI m1 m2
    have hvW : v + e.1 < W := by
      obtain ⟨k, hk, hkv⟩ := List.getElem_of_mem m1
      have hk2 := le_sum_of_get st.1 k v (by rw [List.getElem?_eq_getElem hk, hkv])
      rw [hI.sum] at hk2; omega
    obtain ⟨st2, g1, g2, g3⟩ := ih (dn ++ [e]) st1 (by rw [he]; simp) h2 (by
      intro s hs'
      rcases m3 s hs' with h | h
      · exact hs s h
      · rw [h, Nat.mod_eq_of_lt hvW]; exact hb)
    exact ⟨st2, by rw [placeAll, h1, R.bind_ok, g1], g2, g3⟩

/-! ### The elements as the other assignment sees them -/

theorem fill_all (M : Nat) (vals : List Nat) (h : vals.length ≤ M) : fill M vals [] = (List.range vals.length).map (fun i => (vals.getD i 0, i)) := by
  rw [fill_eq]
  simp [Nat.min_eq_left h]

theorem load_ordered (M : Nat) (vals : List Nat) (h : vals.length ≤ M) (ordered : List (Nat × Nat)) (hs : SortResult (fill M vals []) ordered)
    (f : Nat → Nat) (q : Nat) : ((ordered.filter (fun e => f e.2 == q)).map (·.1)).sum = load vals f q := by
  have p := ((hs.1.filter (fun e => f e.2 == q)).map (·.1)).sum_nat
  rw [p, fill_all M vals h, List.filter_map, List.map_map, load]
  rfl

theorem Splits.prefix_load {N M : Nat} {vals init : List Nat} {f : Nat → Nat} {best : Nat} (hf : Splits N vals init f best) (hM : vals.length ≤ M)
    {ordered dn l : List (Nat × Nat)} {e : Nat × Nat} (hs : SortResult (fill M vals []) ordered) (he : ordered = dn ++ e :: l) (q : Nat) (hq : q < N) :
    init.getD q 0 + (((dn ++ [e]).filter (fun e => f e.2 == q)).map (·.1)).sum ≤ best := by
  have h1 := hf.2 q hq
  rw [← load_ordered M vals hM ordered hs f q, he, show dn ++ e :: l = (dn ++ [e]) ++ l by simp, List.filter_append, List.map_append, List.sum_append] at h1
  omega

theorem Splits.part_lt {N M : Nat} {vals init : List Nat} {f : Nat → Nat} {best : Nat} (hf : Splits N vals init f best) 
    {ordered : List (Nat × Nat)} (hs : SortResult (fill M vals []) ordered) : ∀ e ∈ ordered, f e.2 < N := by
  intro e he
  exact hf.1 _ (fill_mem M vals e (hs.1.mem_iff.mp he)).2

theorem init_sumR (N : Nat) (init : List Nat) (h : init.length ≤ N) : sumR N (fun q => init.getD q 0) = init.sum := by
  induction init generalizing N with
  | nil => simpa using sumR_zero N
  | cons a init ih =>
    cases N with
    | zero => simp at h
    | succ N =>
      have := ih N (by simpa using h)
      rw [sumR, List.range_succ_eq_map, List.map_cons, List.sum_cons, List.map_map, List.sum_cons, ← this]
      rfl

/-- Everything placed up to and including `e`, with the initial values, fits into `N` parts of size `best`. -/
theorem total_le {N M : Nat} {vals init : List Nat} {f : Nat → Nat} {best : Nat} (hf : Splits N vals init f best) (hi : init.length ≤ N)
    (hM : vals.length ≤ M) {ordered dn l : List (Nat × Nat)} {e : Nat × Nat} (hs : SortResult (fill M vals []) ordered) (he : ordered = dn ++ e :: l) :
    init.sum + (dn.map (·.1)).sum + e.1 ≤ N * best ∧ e.1 ≤ best := by
  have hlt := hf.part_lt hs
  have g := sumR_group N (fun e : Nat × Nat => f e.2) (·.1) (dn ++ [e]) (fun x hx => hlt x (by
    rw [he]; simp at hx ⊢; rcases hx with h | h
    · exact Or.inl h
    · exact Or.inr (Or.inl h)))
  have u := sumR_le N (fun q => init.getD q 0 + (((dn ++ [e]).filter (fun e => f e.2 == q)).map (·.1)).sum) best
    (fun q hq => hf.prefix_load hM hs he q hq)
  rw [sumR_add, g, init_sumR N init hi] at u
  simp only [List.map_append, List.map_cons, List.map_nil, List.sum_append, List.sum_cons, List.sum_nil] at u
  refine ⟨by omega, ?_⟩
  have := hf.prefix_load hM hs he (f e.2) (hlt e (by rw [he]; simp))
  rw [List.filter_append, List.map_append, List.sum_append] at this
  simp at this
  omega

/-- An element too large to come three at a time is placed without exceeding `best`: no initial values. -/
theorem fits {N M B : Nat} {vals : List Nat} {f : Nat → Nat} {best : Nat} (hf : Splits N vals [] f best)
    (hM : vals.length ≤ M) {ordered dn l : List (Nat × Nat)} {e : Nat × Nat} (hs : SortResult (fill M vals []) ordered) (he : ordered = dn ++ e :: l)
    {st : List Nat × List (List Nat)} (hI : Inv N vals [] dn B st) (v : Nat) (hmin : ∀ x ∈ st.1, v ≤ x) (h3 : best < 3 * e.1) : v + e.1 ≤ best := by
  apply Decidable.byContradiction
  intro hc
  have hc : best < v + e.1 := by omega
  have hlt := hf.part_lt hs
  have hJ : ∀ x ∈ dn ++ [e], x ∈ ordered := by
    intro x hx
    rw [he]; simp at hx ⊢; rcases hx with h | h
    · exact Or.inl h
    · exact Or.inr (Or.inl h)
  have hle : ∀ x ∈ dn ++ [e], e.1 ≤ x.1 := by
    intro x hx
    simp at hx
    rcases hx with h | h
    · have p := hs.2
      rw [he, List.pairwise_append] at p
      exact p.2.2 x h e (by simp)
    · rw [h]; exact Nat.le_refl _
  -- the other assignment
  have g := sumR_group N (fun e : Nat × Nat => f e.2) (fun x => wt best e.1 x.1) (dn ++ [e]) (fun x hx => hlt x (hJ x hx))
  have u := sumR_le N (fun q => (((dn ++ [e]).filter (fun x => f x.2 == q)).map (fun x => wt best e.1 x.1)).sum) 2 (by
    intro q hq
    have := hf.prefix_load hM hs he q hq
    have k := upper best e.1 h3 (((dn ++ [e]).filter (fun x => f x.2 == q)).map (·.1)) (by
      intro y hy
      rw [List.mem_map] at hy
      obtain ⟨x, hx, rfl⟩ := hy
      exact hle x (List.mem_filter.mp hx).1) (by omega)
    rwa [List.map_map] at k)
  rw [g] at u
  -- the parts
  have ebest := (total_le hf (by simp) hM hs he).2
  have lens : N * 2 ≤ ((st.2.map fun p => (p.map fun i => wt best e.1 (vals.getD i 0)).sum)).sum := by
    have := sum_ge_len (st.2.map fun p => (p.map fun i => wt best e.1 (vals.getD i 0)).sum) 2 (by
      intro y hy
      rw [List.mem_map] at hy
      obtain ⟨p, hp, rfl⟩ := hy
      obtain ⟨k, hk, hkp⟩ := List.getElem_of_mem hp
      have hk1 : k < st.1.length := by have := hI.size1; have := hI.size2; omega
      have hs := hI.sums k _ p (List.getElem?_eq_getElem hk1) (by rw [List.getElem?_eq_getElem hk, hkp])
      have hv := hmin _ (List.getElem_mem hk1)
      have k := lower best e.1 ebest (p.map fun i => vals.getD i 0) (by
        rw [hs] at hv
        simp only [sumOf, List.getD_nil] at hv
        omega)
      rwa [List.map_map] at k)
    rw [List.length_map, hI.size2] at this
    exact this
  rw [← flatten_sum, (hI.perm.map _).sum_nat, List.map_map] at lens
  have hd : (dn.map ((fun i => wt best e.1 (vals.getD i 0)) ∘ fun x => x.2)) = dn.map fun x => wt best e.1 x.1 := by
    apply List.map_congr_left
    intro x hx
    have := (fill_mem M vals x (hs.1.mem_iff.mp (hJ x (by simp [hx])))).1
    simp only [Function.comp_apply, this]
  rw [hd] at lens
  simp only [List.map_append, List.map_cons, List.map_nil, List.sum_append, List.sum_cons, List.sum_nil] at u
  have w1 : 1 ≤ wt best e.1 e.1 := by unfold wt; split <;> omega
  omega

theorem min_le {N B : Nat} {vals init : List Nat} {dn : List (Nat × Nat)} {st : List Nat × List (List Nat)} (hI : Inv N vals init dn B st) (v : Nat)
    (hmin : ∀ x ∈ st.1, v ≤ x) : N * v ≤ init.sum + (dn.map (·.1)).sum := by
  have := sum_ge_len st.1 v hmin
  rw [hI.size1, hI.sum] at this
  exact this

theorem start_inv (N : Nat) (vals init : List Nat) (hinit : init.length ≤ N) :
    ∃ s0, initSums init 0 (List.replicate N 0) = .ok s0 ∧ Inv N vals init [] (init.sum + vals.sum) (s0, List.replicate N []) ∧
      (∀ s ∈ s0, ∃ q, q < N ∧ s = init.getD q 0) := by
  obtain ⟨s0, h1, h2, h3, h4⟩ := initSums_list N init hinit
  refine ⟨s0, h1, ⟨h2, by simp, ?_, by simpa using h4, by simp, ?_⟩, ?_⟩
  · intro p s part hs hp
    simp [List.getElem?_replicate] at hp
    rw [hp.2]; simpa [sumOf] using h3 p s hs
  · intro p q s t hs _
    have := le_sum_of_get s0 p s hs
    omega
  · intro s hs
    obtain ⟨k, hk, hks⟩ := List.getElem_of_mem hs
    exact ⟨k, by omega, h3 k s (by rw [List.getElem?_eq_getElem hk, hks])⟩

theorem finish {W N M : Nat} {vals init : List Nat} {ordered : List (Nat × Nat)} (c X : Nat) (hN : 0 < N) (hinit : init.length ≤ N)
    (hsort : SortResult (fill M vals []) ordered) (hW : init.sum + vals.sum < W)
    (hstart : ∀ q, q < N → c * init.getD q 0 ≤ X)
    (hstep : ∀ (dn : List (Nat × Nat)) (e : Nat × Nat) (l : List (Nat × Nat)) (st : List Nat × List (List Nat)) (v : Nat), ordered = dn ++ e :: l →
      Inv N vals init dn (init.sum + vals.sum) st → v ∈ st.1 → (∀ x ∈ st.1, v ≤ x) → c * (v + e.1) ≤ X) :
    ∃ parts, calcParts W N M ordered init = .ok parts ∧ ∀ p, p < N → c * total vals init parts p ≤ X := by
  obtain ⟨s0, h1, hI, h3⟩ := start_inv N vals init hinit
  have hmem : ∀ e ∈ ordered, vals.getD e.2 0 = e.1 ∧ e.1 ≤ init.sum + vals.sum := by
    intro e he
    have := fill_mem M vals e (hsort.1.mem_iff.mp he)
    refine ⟨this.1, ?_⟩
    have := le_sum_of_get vals e.2 e.1 (by
      rw [← this.1, List.getD_eq_getElem?_getD, List.getElem?_eq_getElem this.2]; rfl)
    omega
  have hlen : ordered.length ≤ M := by rw [hsort.1.length_eq, fill_length]; omega
  have hsum : (ordered.map (·.1)).sum ≤ vals.sum := by
    rw [(hsort.1.map (·.1)).sum_nat]; exact fill_sum M vals
  obtain ⟨st, g1, g2, g3⟩ := placeAll_bound W N M vals init _ c X hN ordered hlen hmem (by omega) hstep ordered [] _ rfl hI (by
    intro s hs
    obtain ⟨q, hq, rfl⟩ := h3 s hs
    exact hstart q hq)
  refine ⟨st.2, by rw [calcParts, h1, R.bind_ok, g1, R.bind_ok], ?_⟩
  intro p hp
  have a1 : st.1[p]? = some (st.1[p]'(by have := g2.size1; omega)) := List.getElem?_eq_getElem _
  have a2 : st.2[p]? = some (st.2[p]'(by have := g2.size2; omega)) := List.getElem?_eq_getElem _
  have e : st.1[p]'(by have := g2.size1; omega) = total vals init st.2 p := by
    rw [g2.sums p _ _ a1 a2, total, show st.2.getD p [] = st.2[p]'(by have := g2.size2; omega) by rw [List.getD_eq_getElem?_getD, a2]; rfl]
  rw [← e]
  exact g3 _ (List.getElem_mem _)

/-- **C221**: without initial values, the largest part is at most `4/3 - 1/(3N)` times as large as in any other way of splitting the elements
into `N` parts, the best one included, whatever the values and in whatever order `sort` leaves equal ones. -/
theorem C221_near_best (W N M : Nat) (vals : List Nat) (ordered : List (Nat × Nat)) (hN : 0 < N) (hsort : SortResult (fill M vals []) ordered)
    (hM : vals.length ≤ M) (hW : vals.sum < W) (f : Nat → Nat) (best : Nat) (hf : Splits N vals [] f best) :
    ∃ parts, calcParts W N M ordered [] = .ok parts ∧ ∀ p, p < N → 3 * N * total vals [] parts p ≤ (4 * N - 1) * best := by
  apply finish (3 * N) _ hN (by simp) hsort (by simpa using hW)
  · intro q _; simp
  · intro dn e l st v he hI _ hmin
    obtain ⟨t1, t2⟩ := total_le hf (by simp) hM hsort he
    have t3 := min_le hI v hmin
    obtain ⟨n, rfl⟩ : ∃ n, N = n + 1 := ⟨N - 1, by omega⟩
    have e4 : 4 * (n + 1) - 1 = 3 * (n + 1) + n := by omega
    rw [e4]
    by_cases h3 : best < 3 * e.1
    · have := fits hf hM hsort he hI v hmin h3
      calc 3 * (n + 1) * (v + e.1) ≤ 3 * (n + 1) * best := Nat.mul_le_mul_left _ this
        _ ≤ (3 * (n + 1) + n) * best := Nat.mul_le_mul_right _ (by omega)
    · have k1 : (n + 1) * v + e.1 ≤ (n + 1) * best := by omega
      have k2 : n * (3 * e.1) ≤ n * best := Nat.mul_le_mul_left _ (by omega)
      have k3 : 3 * (n + 1) * (v + e.1) = 3 * ((n + 1) * v + e.1) + n * (3 * e.1) := by
        simp only [Nat.mul_add, Nat.add_mul, Nat.mul_assoc, Nat.one_mul, Nat.mul_one]
        have : n * (3 * e.1) = 3 * (n * e.1) := by rw [Nat.mul_left_comm]
        omega
      have k4 : (3 * (n + 1) + n) * best = 3 * ((n + 1) * best) + n * best := by rw [Nat.add_mul, Nat.mul_assoc]
      rw [k3, k4]; omega

/-- **C221**: with initial values, at most `2 - 1/N` times as large. -/
theorem C221_initial (W N M : Nat) (vals init : List Nat) (ordered : List (Nat × Nat)) (hN : 0 < N) (hinit : init.length ≤ N)
    (hsort : SortResult (fill M vals []) ordered) (hM : vals.length ≤ M) (hW : init.sum + vals.sum < W) (f : Nat → Nat) (best : Nat)
    (hf : Splits N vals init f best) :
    ∃ parts, calcParts W N M ordered init = .ok parts ∧ ∀ p, p < N → N * total vals init parts p ≤ (2 * N - 1) * best := by
  obtain ⟨n, rfl⟩ : ∃ n, N = n + 1 := ⟨N - 1, by omega⟩
  have e2 : 2 * (n + 1) - 1 = (n + 1) + n := by omega
  rw [e2]
  apply finish (n + 1) _ hN hinit hsort hW
  · intro q hq
    have := hf.2 q hq
    calc (n + 1) * init.getD q 0 ≤ (n + 1) * best := Nat.mul_le_mul_left _ (by omega)
      _ ≤ (n + 1 + n) * best := Nat.mul_le_mul_right _ (by omega)
  · intro dn e l st v he hI _ hmin
    obtain ⟨t1, t2⟩ := total_le hf hinit hM hsort he
    have t3 := min_le hI v hmin
    have k2 : n * e.1 ≤ n * best := Nat.mul_le_mul_left _ t2
    have k3 : (n + 1) * (v + e.1) = (n + 1) * v + e.1 + n * e.1 := by
      simp only [Nat.mul_add, Nat.add_mul, Nat.one_mul]; omega
    have k4 : (n + 1 + n) * best = (n + 1) * best + n * best := Nat.add_mul _ _ _
    rw [k3, k4]; omega

/-- The best split of five values into two parts and what the partition gives: the bound is reached. -/
theorem C221_reached : SortResult (fill 8 [3, 3, 2, 2, 2] []) [(3, 0), (3, 1), (2, 2), (2, 3), (2, 4)] ∧
    Splits 2 [3, 3, 2, 2, 2] [] (fun i => if i < 2 then 0 else 1) 6 ∧
    ∃ parts, calcParts 256 2 8 [(3, 0), (3, 1), (2, 2), (2, 3), (2, 4)] [] = .ok parts ∧ 3 * 2 * total [3, 3, 2, 2, 2] [] parts 0 = (4 * 2 - 1) * 6 :=
  ⟨⟨by decide, by decide⟩, ⟨by decide, by decide⟩, [[0, 2, 4], [1, 3]], by decide, by decide⟩

example := C221_near_best 256 2 8 [3, 3, 2, 2, 2] _ (by decide) C221_reached.1 (by decide) (by decide) _ 6 C221_reached.2.1
example : Splits 2 [3, 1] [1, 0] (fun i => 1 - i) 3 := ⟨by decide, by decide⟩

end Partition.Best
