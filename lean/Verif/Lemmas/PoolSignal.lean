import Verif.Props.PoolWeak
import Verif.Spec.PoolSignal
/-! Invariant of the dispatcher and its workers. -/
namespace PoolSignal
open PoolWeak (upd upd_same upd_ne tick tick_ge)
open PoolSignal.Spec

theorem holder_append (i : Nat) (a b : List Event) (o : Option Nat) : holder i (a ++ b) o = holder i b (holder i a o) := by
  induction a generalizing o with
  | nil => rfl
  | cons e a ih =>
    cases e with
    | pool e => cases e with
      | destroyed t j ok => cases ok <;> simp [holder, ih]
      | _ => simp [holder, ih]
    | _ => simp [holder, ih]

theorem view_append (d i : Nat) (a b : List Event) (v : Bool) : view d i (a ++ b) v = view d i b (view d i a v) := by
  induction a generalizing v with
  | nil => rfl
  | cons e a ih =>
    cases e with
    | pool e => cases e with
      | destroyed t j ok => cases ok <;> simp [view, ih]
      | _ => simp [view, ih]
    | _ => simp [view, ih]

structure Inv (d n : Nat) (es : List Event) (s : Sys) : Prop where
  norace : s.pool.race = false
  wr_acc : ∀ i u, s.pool.wr i u ≤ s.pool.acc i u
  acc_own : ∀ i t, s.pool.acc i t ≤ s.pool.vc t t
  len : s.pool.flags.length = n
  free : ∀ i, s.pool.own i = none → s.pool.flags[i]? ≠ some true ∧ ∀ u, u ≠ d → s.pool.acc i u ≤ s.pool.fclk i u
  owned : ∀ i t, s.pool.own i = some t → s.pool.flags[i]? = some true ∧ ∀ u, s.pool.acc i u ≤ s.pool.vc t u
  noclr : ∀ t i w, s.pool.loc t ≠ .clearing i w
  creating : ∀ t i, s.pool.loc t = .creating i → t = d
  last : ∀ i b, s.pool.flags[i]? = some b → (s.msgs i)[(s.msgs i).length - 1]? = some (b, s.pool.fclk i)
  seenlt : ∀ t i, s.seen t i < (s.msgs i).length
  know : ∀ t i b c, (s.msgs i)[s.seen t i]? = some (b, c) → ∀ u, c u ≤ s.pool.vc t u
  disp : ∀ i, (s.msgs i).length ≤ s.seen d i + 2
  disp1 : ∀ i c, (s.msgs i)[s.seen d i]? = some (false, c) → (s.msgs i).length = s.seen d i + 1
  disp2 : ∀ i, (s.msgs i).length = s.seen d i + 2 → ∃ c, (s.msgs i)[s.seen d i + 1]? = some (false, c)
  view : ∀ i, view d i es false = false → i < n → ∃ c, (s.msgs i)[s.seen d i]? = some (false, c)
  own : ∀ i, s.pool.own i = holder i es none
  ownseen : ∀ i t, s.pool.own i = some t → s.seen t i + 1 = (s.msgs i).length

theorem init_Inv (d n : Nat) : Inv d n [] (init n) where
  norace := rfl
  wr_acc := fun _ _ => Nat.le_refl _
  acc_own := fun _ _ => Nat.zero_le _
  len := by simp [init, PoolWeak.init]
  free := fun i _ => ⟨by simp [init, PoolWeak.init, List.getElem?_replicate], fun _ _ => Nat.le_refl _⟩
  owned := fun i t h => by simp [init, PoolWeak.init] at h
  noclr := fun t i w => by simp [init, PoolWeak.init]
  creating := fun t i h => by simp [init, PoolWeak.init] at h
  last := fun i b h => by
    simp [init, PoolWeak.init, List.getElem?_replicate] at h
    obtain ⟨_, rfl⟩ := h
    rfl
  seenlt := fun _ _ => by simp [init]
  know := fun t i b c h u => by
    simp [init] at h
    rw [← h.2]; exact Nat.zero_le _
  disp := fun _ => by simp [init]
  disp1 := fun _ _ _ => by simp [init]
  disp2 := fun i h => by simp [init] at h
  view := fun i _ _ => ⟨_, rfl⟩
  own := fun _ => rfl
  ownseen := fun i t h => by simp [init, PoolWeak.init] at h

/-- an access by a thread that knows of all accesses of the others -/
theorem access_Inv {d n N : Nat} {es : List Event} {s : Sys} (h : Inv d n es s) (t i : Nat) (b : Bool) (hk : ∀ u, u ≠ t → s.pool.acc i u ≤ s.pool.vc t u)
    (ho : s.pool.own i = some t ∨ (t = d ∧ s.pool.own i = none)) : Inv d n es { s with pool := PoolWeak.access N s.pool t i b } := by
  refine { h with norace := ?_, wr_acc := ?_, acc_own := ?_, free := ?_, owned := ?_ }
  · show (PoolWeak.access N s.pool t i b).race = false
    unfold PoolWeak.access
    simp only [h.norace, Bool.false_or, List.any_eq_false, List.mem_range]
    intro u _
    have h2 := h.wr_acc i u
    by_cases hu : u = t
    · simp [hu]
    · have h1 := hk u hu
      cases b <;> simp [hu] <;> omega
  · intro j u
    show (PoolWeak.access N s.pool t i b).wr j u ≤ (PoolWeak.access N s.pool t i b).acc j u
    rw [PoolWeak.access_acc, PoolWeak.access_wr]
    have := h.wr_acc j u
    have := h.acc_own j t
    split_ifs <;> (try omega)
    all_goals (rename_i h1 h2; obtain ⟨rfl, rfl⟩ := h2; omega)
  · intro j u
    show (PoolWeak.access N s.pool t i b).acc j u ≤ s.pool.vc u u
    rw [PoolWeak.access_acc]
    split_ifs with h1
    · obtain ⟨rfl, rfl⟩ := h1; exact Nat.le_refl _
    · exact h.acc_own j u
  · intro j hj
    obtain ⟨f1, f2⟩ := h.free j hj
    refine ⟨f1, fun u hu => ?_⟩
    show (PoolWeak.access N s.pool t i b).acc j u ≤ s.pool.fclk j u
    rw [PoolWeak.access_acc]
    split_ifs with h1
    · obtain ⟨rfl, rfl⟩ := h1
      rcases ho with ho | ho
      · change s.pool.own j = none at hj
        rw [ho] at hj; exact absurd hj (by simp)
      · exact absurd ho.1 hu
    · exact f2 u hu
  · intro j u hj
    obtain ⟨f1, f2⟩ := h.owned j u hj
    refine ⟨f1, fun x => ?_⟩
    show (PoolWeak.access N s.pool t i b).acc j x ≤ s.pool.vc u x
    rw [PoolWeak.access_acc]
    split_ifs with h1
    · obtain ⟨rfl, rfl⟩ := h1
      change s.pool.own j = some u at hj
      rcases ho with ho | ho
      · rw [ho] at hj
        injection hj with hj
        subst hj
        exact Nat.le_refl _
      · rw [ho.2] at hj; exact absurd hj (by simp)
    · exact f2 x

theorem loc_Inv {d n : Nat} {es : List Event} {s : Sys} (h : Inv d n es s) (t : Nat) (l : PoolWeak.Loc) (h1 : ∀ i w, l ≠ .clearing i w) (h2 : ∀ i, l = .creating i → t = d) :
    Inv d n es { s with pool := { s.pool with loc := upd s.pool.loc t l } } := by
  refine { h with noclr := ?_, creating := ?_ }
  · intro u i w
    show upd s.pool.loc t l u ≠ _
    by_cases hu : u = t
    · subst hu; rw [upd_same]; exact h1 i w
    · rw [upd_ne _ _ _ _ hu]; exact h.noclr u i w
  · intro u i hu'
    change upd s.pool.loc t l u = _ at hu'
    by_cases hu : u = t
    · subst hu; rw [upd_same] at hu'; exact h2 i hu'
    · rw [upd_ne _ _ _ _ hu] at hu'; exact h.creating u i hu'

theorem rmw_vc (s : PoolWeak.St) (t i : Nat) (v : Bool) (u x : Nat) : s.vc u x ≤ (PoolWeak.rmw s t i v).vc u x ∧ (u = t → s.fclk i x ≤ (PoolWeak.rmw s t i v).vc u x) ∧ (u = t → (PoolWeak.rmw s t i v).fclk i x ≤ (PoolWeak.rmw s t i v).vc u x) := by
  unfold PoolWeak.rmw
  simp only [upd_same]
  by_cases hu : u = t
  · subst hu
    simp only [upd_same, true_implies]
    have := tick_ge (fun x => max (s.vc u x) (s.fclk i x)) u x
    refine ⟨by omega, by omega, this⟩
  · simp only [upd_ne _ _ _ _ hu, hu, false_implies, and_self, Nat.le_refl]

theorem rmw_fclk (s : PoolWeak.St) (t i : Nat) (v : Bool) (j x : Nat) : s.fclk j x ≤ (PoolWeak.rmw s t i v).fclk j x ∧ (j ≠ i → (PoolWeak.rmw s t i v).fclk j = s.fclk j) ∧ s.vc t x ≤ (PoolWeak.rmw s t i v).fclk i x := by
  unfold PoolWeak.rmw
  simp only [upd_same]
  by_cases hj : j = i
  · subst hj
    simp only [upd_same, ne_eq, not_true_eq_false, false_implies, true_and]
    omega
  · simp only [upd_ne _ _ _ _ hj, Nat.le_refl, true_and, implies_true]
    omega

theorem rmw_flags (s : PoolWeak.St) (t i : Nat) (v : Bool) (hi : i < s.flags.length) (j : Nat) : (PoolWeak.rmw s t i v).flags[j]? = if j = i then some v else s.flags[j]? := by
  unfold PoolWeak.rmw
  simp only [List.getElem?_set]
  by_cases hj : j = i
  · subst hj; simp [hi]
  · simp [hj, Ne.symm hj]

/-- the messages after a compare-exchange -/
theorem push_msgs (s : Sys) (t i : Nat) (b : Bool) (j : Nat) : (push s t i b).msgs j = if j = i then s.msgs i ++ [(b, s.pool.fclk i)] else s.msgs j := by
  unfold push upd; simp

theorem push_seen (s : Sys) (t i : Nat) (b : Bool) (u j : Nat) : (push s t i b).seen u j = if u = t ∧ j = i then (s.msgs i).length else s.seen u j := by
  unfold push upd
  by_cases h1 : u = t <;> by_cases h2 : j = i <;> simp [h1, h2]

/-- A successful compare-exchange of flag `i`: by the dispatcher in create, or by the owner in destroy. -/
theorem rmw_Inv {d n : Nat} {es : List Event} {s : Sys} (h : Inv d n es s) (t i : Nat) (v : Bool) (e : PoolWeak.Event) (o : Option Nat) (l : Nat → PoolWeak.Loc)
    (hl1 : ∀ u i w, l u ≠ .clearing i w) (hl2 : ∀ u i, l u = .creating i → u = d)
    (hi : s.pool.flags[i]? = some (!v))
    (hcase : (v = true ∧ t = d ∧ e = .created d i ∧ o = some d) ∨ (v = false ∧ s.pool.own i = some t ∧ e = .destroyed t i true ∧ o = none)) :
    Inv d n (es ++ [.pool e]) (push { s with pool := { PoolWeak.rmw s.pool t i v with loc := l, own := upd s.pool.own i o } } t i v) := by
  have hilt : i < s.pool.flags.length := (List.getElem?_eq_some_iff.mp hi).1
  have hfl := rmw_flags s.pool t i v hilt
  have hlast := h.last i _ hi
  have hlen : 0 < (s.msgs i).length := by have := h.seenlt 0 i; omega
  -- nobody owns the entry when it is created
  have hown : v = true → s.pool.own i = none := by
    intro hv
    cases hoi : s.pool.own i with
    | none => rfl
    | some u => have := (h.owned i u hoi).1; rw [hi, hv] at this; simp at this
  -- the dispatcher knows the last message if the flag is set
  have hdl : v = false → (s.msgs i).length = s.seen d i + 1 := by
    intro hv
    have h1 := h.disp i
    have h2 := h.seenlt d i
    by_cases h3 : (s.msgs i).length = s.seen d i + 2
    · obtain ⟨c, hc⟩ := h.disp2 i h3
      rw [h3, Nat.add_sub_assoc (by omega)] at hlast
      rw [hlast, hv] at hc
      simp at hc
    · omega
  refine { norace := h.norace, wr_acc := h.wr_acc, acc_own := ?_, len := ?_, free := ?_, owned := ?_, noclr := hl1, creating := hl2, last := ?_, seenlt := ?_, know := ?_, disp := ?_, disp1 := ?_, disp2 := ?_, view := ?_, own := ?_, ownseen := ?_ }
  · intro j u
    exact Nat.le_trans (h.acc_own j u) (rmw_vc s.pool t i v u u).1
  · show (s.pool.flags.set i v).length = n
    rw [List.length_set]; exact h.len
  · intro j hj
    change upd s.pool.own i o j = none at hj
    show (PoolWeak.rmw s.pool t i v).flags[j]? ≠ some true ∧ ∀ u, u ≠ d → s.pool.acc j u ≤ (PoolWeak.rmw s.pool t i v).fclk j u
    rw [hfl j]
    by_cases hji : j = i
    · subst hji
      rw [upd_same] at hj
      rcases hcase with ⟨_, _, _, ho⟩ | ⟨hv, hot, _, _⟩
      · rw [ho] at hj; exact absurd hj (by simp)
      · refine ⟨by simp [hv], fun u _ => ?_⟩
        have := (h.owned j t hot).2 u
        have := (rmw_fclk s.pool t j v j u).2.2
        omega
    · rw [upd_ne _ _ _ _ hji] at hj
      obtain ⟨f1, f2⟩ := h.free j hj
      refine ⟨by rw [if_neg hji]; exact f1, fun u hu => ?_⟩
      rw [(rmw_fclk s.pool t i v j u).2.1 hji]
      exact f2 u hu
  · intro j u hj
    change upd s.pool.own i o j = some u at hj
    show (PoolWeak.rmw s.pool t i v).flags[j]? = some true ∧ ∀ x, s.pool.acc j x ≤ (PoolWeak.rmw s.pool t i v).vc u x
    rw [hfl j]
    by_cases hji : j = i
    · subst hji
      rw [upd_same] at hj
      rcases hcase with ⟨hv, htd, _, ho⟩ | ⟨_, _, _, ho⟩
      · rw [ho] at hj
        injection hj with hj
        subst hj
        refine ⟨by simp [hv], fun x => ?_⟩
        have r := rmw_vc s.pool t j v d x
        by_cases hx : x = d
        · subst hx
          have := h.acc_own j x
          omega
        · have := (h.free j (hown hv)).2 x hx
          have := r.2.1 htd.symm
          omega
      · rw [ho] at hj; exact absurd hj (by simp)
    · rw [upd_ne _ _ _ _ hji] at hj
      obtain ⟨f1, f2⟩ := h.owned j u hj
      exact ⟨by rw [if_neg hji]; exact f1, fun x => Nat.le_trans (f2 x) (rmw_vc s.pool t i v u x).1⟩
  · intro j b hb
    change (PoolWeak.rmw s.pool t i v).flags[j]? = some b at hb
    rw [hfl j] at hb
    rw [push_msgs]
    by_cases hji : j = i
    · subst hji
      rw [if_pos rfl] at hb
      simp only [Option.some.injEq] at hb
      simp [hb, push]
    · rw [if_neg hji] at hb
      rw [if_neg hji]
      have := h.last j b hb
      show _ = some (b, (PoolWeak.rmw s.pool t i v).fclk j)
      rw [(rmw_fclk s.pool t i v j 0).2.1 hji]
      exact this
  · intro u j
    rw [push_seen, push_msgs]
    have := h.seenlt u j
    by_cases hji : j = i
    · subst hji
      simp only [if_true, and_true, List.length_append, List.length_singleton]
      split_ifs <;> simp <;> omega
    · simp only [hji, and_false, if_false]; exact this
  · intro u j b c hc x
    rw [push_seen, push_msgs] at hc
    show c x ≤ (PoolWeak.rmw s.pool t i v).vc u x
    by_cases hji : j = i
    · subst hji
      simp only [if_true, and_true] at hc
      by_cases hu : u = t
      · rw [if_pos hu] at hc
        simp at hc
        rw [← hc.2]
        exact (rmw_vc s.pool t j v u x).2.2 hu
      · rw [if_neg hu, List.getElem?_append_left (h.seenlt u j)] at hc
        exact Nat.le_trans (h.know u j b c hc x) (rmw_vc s.pool t j v u x).1
    · simp only [hji, and_false, if_false] at hc
      exact Nat.le_trans (h.know u j b c hc x) (rmw_vc s.pool t i v u x).1
  · intro j
    rw [push_seen, push_msgs]
    by_cases hji : j = i
    · subst hji
      simp only [if_true, and_true, List.length_append, List.length_singleton]
      rcases hcase with ⟨_, htd, _, _⟩ | ⟨hv, _, _, _⟩
      · rw [if_pos htd.symm]; simp
      · have := hdl hv
        split_ifs <;> simp <;> omega
    · simp only [hji, and_false, if_false]; exact h.disp j
  · intro j c hc
    rw [push_seen, push_msgs] at hc ⊢
    by_cases hji : j = i
    · subst hji
      simp only [if_true, and_true, List.length_append, List.length_singleton] at hc ⊢
      by_cases hu : d = t
      · rw [if_pos hu]; 
      · rw [if_neg hu] at hc ⊢
        rcases hcase with ⟨_, htd, _, _⟩ | ⟨hv, _, _, _⟩
        · exact absurd htd.symm hu
        · rw [List.getElem?_append_left (h.seenlt d j)] at hc
          have e1 := hdl hv
          rw [e1] at hlast
          simp only [Nat.add_sub_cancel] at hlast
          rw [hlast, hv] at hc
          simp at hc
    · simp only [hji, and_false, if_false] at hc ⊢
      exact h.disp1 j c hc
  · intro j hj
    rw [push_seen, push_msgs] at hj ⊢
    by_cases hji : j = i
    · subst hji
      simp only [if_true, and_true, List.length_append, List.length_singleton] at hj ⊢
      by_cases hu : d = t
      · rw [if_pos hu] at hj
        simp at hj
      · rw [if_neg hu] at hj ⊢
        rcases hcase with ⟨_, htd, _, _⟩ | ⟨hv, _, _, _⟩
        · exact absurd htd.symm hu
        · have := hdl hv
          rw [← this]
          simp [hv]
    · simp only [hji, and_false, if_false] at hj ⊢
      exact h.disp2 j hj
  · intro j hj hjn
    rw [view_append] at hj
    rw [push_seen, push_msgs]
    by_cases hji : j = i
    · subst hji
      simp only [if_true, and_true]
      rcases hcase with ⟨_, htd, he, _⟩ | ⟨hv, _, he, _⟩
      · rw [he] at hj; simp [Spec.view] at hj
      · rw [he] at hj
        by_cases hu : d = t
        · rw [if_pos hu]
          simp [hv]
        · rw [if_neg hu, List.getElem?_append_left (h.seenlt d j)]
          simp only [Spec.view, Ne.symm hu, false_and, if_false] at hj
          exact h.view j hj hjn
    · simp only [hji, and_false, if_false]
      apply h.view j _ hjn
      rcases hcase with ⟨_, htd, he, _⟩ | ⟨hv, _, he, _⟩ <;> rw [he] at hj <;> simpa [Spec.view, Ne.symm hji] using hj
  · intro j
    show upd s.pool.own i o j = _
    rw [holder_append, ← h.own j]
    by_cases hji : j = i
    · subst hji
      rw [upd_same]
      rcases hcase with ⟨_, _, he, ho⟩ | ⟨_, _, he, ho⟩ <;> rw [he, ho] <;> simp [holder]
    · rw [upd_ne _ _ _ _ hji]
      rcases hcase with ⟨_, _, he, ho⟩ | ⟨_, _, he, ho⟩ <;> rw [he] <;> simp [holder, Ne.symm hji]
  · intro j u hj
    change upd s.pool.own i o j = some u at hj
    rw [push_seen, push_msgs]
    by_cases hji : j = i
    · subst hji
      rw [upd_same] at hj
      rcases hcase with ⟨_, htd, _, ho⟩ | ⟨_, _, _, ho⟩
      · rw [ho] at hj
        injection hj with hj
        simp [← hj, htd]
      · rw [ho] at hj; exact absurd hj (by simp)
    · rw [upd_ne _ _ _ _ hji] at hj
      simp only [hji, and_false, if_false]
      exact h.ownseen j u hj

theorem isUsed_Inv {d n : Nat} {es : List Event} {s : Sys} (h : Inv d n es s) (t i j : Nat) (b : Bool) (c : Nat → Nat) (hj : s.seen t i ≤ j) (hm : (s.msgs i)[j]? = some (b, c)) :
    Inv d n (es ++ [.used t i b]) { s with pool := { s.pool with vc := upd s.pool.vc t (fun u => max (s.pool.vc t u) (c u)) }, seen := upd s.seen t (upd (s.seen t) i j) } := by
  have hjlt : j < (s.msgs i).length := (List.getElem?_eq_some_iff.mp hm).1
  have mono : ∀ u x, s.pool.vc u x ≤ upd s.pool.vc t (fun u => max (s.pool.vc t u) (c u)) u x := by
    intro u x
    by_cases hu : u = t
    · subst hu; rw [upd_same]; omega
    · rw [upd_ne _ _ _ _ hu]
  have hs : ∀ u k, upd s.seen t (upd (s.seen t) i j) u k = if u = t ∧ k = i then j else s.seen u k := by
    intro u k
    unfold upd
    by_cases h1 : u = t <;> by_cases h2 : k = i <;> simp [h1, h2]
  refine { h with acc_own := ?_, owned := ?_, seenlt := ?_, know := ?_, disp := ?_, disp1 := ?_, disp2 := ?_, view := ?_, own := ?_, ownseen := ?_ }
  · exact fun k u => Nat.le_trans (h.acc_own k u) (mono u u)
  · intro k u hk
    obtain ⟨f1, f2⟩ := h.owned k u hk
    exact ⟨f1, fun x => Nat.le_trans (f2 x) (mono u x)⟩
  · intro u k
    show upd s.seen t (upd (s.seen t) i j) u k < (s.msgs k).length
    rw [hs]
    split_ifs with h1
    · rw [h1.2]; exact hjlt
    · exact h.seenlt u k
  · intro u k b' c' hc x
    change (s.msgs k)[upd s.seen t (upd (s.seen t) i j) u k]? = _ at hc
    rw [hs] at hc
    split_ifs at hc with h1
    · obtain ⟨rfl, rfl⟩ := h1
      rw [hm] at hc
      simp only [Option.some.injEq, Prod.mk.injEq] at hc
      show c' x ≤ upd s.pool.vc u _ u x
      rw [upd_same, ← hc.2]
      exact Nat.le_max_right _ _
    · exact Nat.le_trans (h.know u k b' c' hc x) (mono u x)
  · intro k
    show (s.msgs k).length ≤ upd s.seen t (upd (s.seen t) i j) d k + 2
    rw [hs]
    have := h.disp k
    split_ifs with h1
    · obtain ⟨rfl, rfl⟩ := h1; omega
    · exact this
  · intro k c' hc
    change (s.msgs k)[upd s.seen t (upd (s.seen t) i j) d k]? = _ at hc
    show (s.msgs k).length = upd s.seen t (upd (s.seen t) i j) d k + 1
    rw [hs] at hc ⊢
    split_ifs at hc ⊢ with h1
    · obtain ⟨rfl, rfl⟩ := h1
      have h2 := h.disp k
      by_cases h3 : j = s.seen d k
      · rw [h3] at hc ⊢; exact h.disp1 k c' hc
      · omega
    · exact h.disp1 k c' hc
  · intro k hk
    change (s.msgs k).length = upd s.seen t (upd (s.seen t) i j) d k + 2 at hk
    show ∃ c, (s.msgs k)[upd s.seen t (upd (s.seen t) i j) d k + 1]? = some (false, c)
    rw [hs] at hk ⊢
    split_ifs at hk ⊢ with h1
    · obtain ⟨rfl, rfl⟩ := h1
      have h2 := h.disp k
      have h3 : j = s.seen d k := by omega
      rw [h3] at hk ⊢; exact h.disp2 k hk
    · exact h.disp2 k hk
  · intro k hk hkn
    rw [view_append] at hk
    show ∃ c, (s.msgs k)[upd s.seen t (upd (s.seen t) i j) d k]? = some (false, c)
    rw [hs]
    by_cases h1 : d = t ∧ k = i
    · rw [if_pos h1]
      obtain ⟨rfl, rfl⟩ := h1
      simp [Spec.view] at hk
      rw [hk] at hm
      exact ⟨c, hm⟩
    · rw [if_neg h1]
      have h2 : ¬ (t = d ∧ i = k) := fun hh => h1 ⟨hh.1.symm, hh.2.symm⟩
      simp only [Spec.view, h2, if_false] at hk
      exact h.view k hk hkn
  · intro k
    rw [holder_append]
    exact h.own k
  · intro k u hk
    show upd s.seen t (upd (s.seen t) i j) u k + 1 = (s.msgs k).length
    rw [hs]
    have := h.ownseen k u hk
    split_ifs with h1
    · obtain ⟨rfl, rfl⟩ := h1; omega
    · exact this

theorem give_Inv {d n : Nat} {es : List Event} {s : Sys} (h : Inv d n es s) (t u i : Nat) (htu : t ≠ u) (ho : s.pool.own i = some t) :
    Inv d n (es ++ [.gave t i u])
      { s with pool := { s.pool with vc := upd (upd s.pool.vc u (fun x => max (s.pool.vc u x) (s.pool.vc t x))) t (tick (s.pool.vc t) t), own := upd s.pool.own i (some u) },
               seen := upd s.seen u (fun i => max (s.seen u i) (s.seen t i)) } := by
  have mono : ∀ y x, s.pool.vc y x ≤ upd (upd s.pool.vc u (fun x => max (s.pool.vc u x) (s.pool.vc t x))) t (tick (s.pool.vc t) t) y x := by
    intro y x
    by_cases hy : y = t
    · subst hy; rw [upd_same]; exact tick_ge _ _ _
    · rw [upd_ne _ _ _ _ hy]
      by_cases hyu : y = u
      · subst hyu; rw [upd_same]; omega
      · rw [upd_ne _ _ _ _ hyu]
  have learnt : ∀ x, s.pool.vc t x ≤ upd (upd s.pool.vc u (fun x => max (s.pool.vc u x) (s.pool.vc t x))) t (tick (s.pool.vc t) t) u x := by
    intro x
    rw [upd_ne _ _ _ _ (Ne.symm htu), upd_same]; omega
  have hs : ∀ y k, upd s.seen u (fun i => max (s.seen u i) (s.seen t i)) y k = if y = u then max (s.seen u k) (s.seen t k) else s.seen y k := by
    intro y k
    unfold upd
    by_cases h1 : y = u <;> simp [h1]
  have hsd : ∀ k, s.seen d k ≤ upd s.seen u (fun i => max (s.seen u i) (s.seen t i)) d k ∧ upd s.seen u (fun i => max (s.seen u i) (s.seen t i)) d k < (s.msgs k).length := by
    intro k
    rw [hs]
    have := h.seenlt d k
    have := h.seenlt u k
    have := h.seenlt t k
    split_ifs with h1
    · subst h1; constructor <;> omega
    · constructor <;> omega
  refine { h with acc_own := ?_, free := ?_, owned := ?_, seenlt := ?_, know := ?_, disp := ?_, disp1 := ?_, disp2 := ?_, view := ?_, own := ?_, ownseen := ?_ }
  · exact fun k y => Nat.le_trans (h.acc_own k y) (mono y y)
  · intro k hk
    change upd s.pool.own i (some u) k = none at hk
    by_cases hki : k = i
    · subst hki; rw [upd_same] at hk; exact absurd hk (by simp)
    · rw [upd_ne _ _ _ _ hki] at hk; exact h.free k hk
  · intro k y hk
    change upd s.pool.own i (some u) k = some y at hk
    by_cases hki : k = i
    · subst hki
      rw [upd_same] at hk
      injection hk with hk
      subst hk
      obtain ⟨f1, f2⟩ := h.owned k t ho
      exact ⟨f1, fun x => Nat.le_trans (f2 x) (learnt x)⟩
    · rw [upd_ne _ _ _ _ hki] at hk
      obtain ⟨f1, f2⟩ := h.owned k y hk
      exact ⟨f1, fun x => Nat.le_trans (f2 x) (mono y x)⟩
  · intro y k
    show upd s.seen u (fun i => max (s.seen u i) (s.seen t i)) y k < (s.msgs k).length
    rw [hs]
    have := h.seenlt y k
    have := h.seenlt u k
    have := h.seenlt t k
    split_ifs <;> omega
  · intro y k b c hc x
    change (s.msgs k)[upd s.seen u (fun i => max (s.seen u i) (s.seen t i)) y k]? = _ at hc
    rw [hs] at hc
    split_ifs at hc with h1
    · subst h1
      rcases Nat.le_total (s.seen y k) (s.seen t k) with hle | hle
      · rw [Nat.max_eq_right hle] at hc
        exact Nat.le_trans (h.know t k b c hc x) (learnt x)
      · rw [Nat.max_eq_left hle] at hc
        exact Nat.le_trans (h.know y k b c hc x) (mono y x)
    · exact Nat.le_trans (h.know y k b c hc x) (mono y x)
  · intro k
    have := h.disp k
    have := (hsd k).1
    show (s.msgs k).length ≤ upd s.seen u (fun i => max (s.seen u i) (s.seen t i)) d k + 2
    omega
  · intro k c hc
    change (s.msgs k)[upd s.seen u (fun i => max (s.seen u i) (s.seen t i)) d k]? = _ at hc
    show (s.msgs k).length = upd s.seen u (fun i => max (s.seen u i) (s.seen t i)) d k + 1
    have h1 := h.disp k
    obtain ⟨h2, h3⟩ := hsd k
    by_cases h4 : upd s.seen u (fun i => max (s.seen u i) (s.seen t i)) d k = s.seen d k
    · rw [h4] at hc ⊢; exact h.disp1 k c hc
    · omega
  · intro k hk
    change (s.msgs k).length = upd s.seen u (fun i => max (s.seen u i) (s.seen t i)) d k + 2 at hk
    show ∃ c, (s.msgs k)[upd s.seen u (fun i => max (s.seen u i) (s.seen t i)) d k + 1]? = some (false, c)
    have h1 := h.disp k
    have h2 := (hsd k).1
    have h4 : upd s.seen u (fun i => max (s.seen u i) (s.seen t i)) d k = s.seen d k := by omega
    rw [h4] at hk ⊢; exact h.disp2 k hk
  · intro k hk hkn
    rw [view_append] at hk
    obtain ⟨c, hc⟩ := h.view k hk hkn
    have h1 := h.disp1 k c hc
    obtain ⟨h2, h3⟩ := hsd k
    have h4 : upd s.seen u (fun i => max (s.seen u i) (s.seen t i)) d k = s.seen d k := by omega
    show ∃ c, (s.msgs k)[upd s.seen u (fun i => max (s.seen u i) (s.seen t i)) d k]? = some (false, c)
    rw [h4]
    exact ⟨c, hc⟩
  · intro k
    rw [holder_append, ← h.own k]
    show upd s.pool.own i (some u) k = _
    by_cases hki : k = i
    · subst hki; rw [upd_same]; simp [holder]
    · rw [upd_ne _ _ _ _ hki]; simp [holder, Ne.symm hki]
  · intro k y hk
    change upd s.pool.own i (some u) k = some y at hk
    show upd s.seen u (fun i => max (s.seen u i) (s.seen t i)) y k + 1 = (s.msgs k).length
    rw [hs]
    by_cases hki : k = i
    · subst hki
      rw [upd_same] at hk
      injection hk with hk
      subst hk
      rw [if_pos rfl]
      have := h.ownseen k t ho
      have := h.seenlt u k
      omega
    · rw [upd_ne _ _ _ _ hki] at hk
      have h0 := h.ownseen k y hk
      have := h.seenlt u k
      have := h.seenlt t k
      split_ifs with h1
      · subst h1; omega
      · exact h0

/-- the dispatcher may access what it last learnt not to be in use -/
theorem done_known {d n : Nat} {es : List Event} {s : Sys} (h : Inv d n es s) (i : Nat) (hv : Spec.view d i es false = false) (hi : i < n) :
    s.pool.own i = none ∧ ∀ u, u ≠ d → s.pool.acc i u ≤ s.pool.vc d u := by
  obtain ⟨c, hc⟩ := h.view i hv hi
  have hl := h.disp1 i c hc
  obtain ⟨b, hb⟩ : ∃ b, s.pool.flags[i]? = some b := ⟨_, List.getElem?_eq_getElem (by rw [h.len]; exact hi)⟩
  have hlast := h.last i b hb
  rw [hl, Nat.add_sub_cancel, hc] at hlast
  simp only [Option.some.injEq, Prod.mk.injEq] at hlast
  have hown : s.pool.own i = none := by
    cases ho : s.pool.own i with
    | none => rfl
    | some u =>
      have := (h.owned i u ho).1
      rw [hb, ← hlast.1] at this
      simp at this
  refine ⟨hown, fun u hu => ?_⟩
  have h1 := (h.free i hown).2 u hu
  have h2 := h.know d i false c hc u
  rw [hlast.2] at h2
  omega

theorem step_Inv {d n N : Nat} {es : List Event} {s s' : Sys} {t : Nat} {a : Act} {e : List Event} (h : Inv d n es s) (ha : Allowed d es t a) (hs : step N s t a = some (s', e)) : Inv d n (es ++ e) s' := by
  cases a with
  | isUsed idx j =>
    simp only [step] at hs
    split_ifs at hs with h1 h2 h3
    · split at hs
      · exact absurd hs (by simp)
      · next b c hm =>
        simp only [Option.some.injEq, Prod.mk.injEq] at hs
        obtain ⟨rfl, rfl⟩ := hs
        exact isUsed_Inv h t idx j b c h3 hm
    · simp only [Option.some.injEq, Prod.mk.injEq] at hs
      obtain ⟨rfl, rfl⟩ := hs
      rw [h.len] at h2
      refine { h with view := ?_, own := ?_ }
      · intro k hk hkn
        rw [view_append] at hk
        have h3 : ¬ (t = d ∧ idx = k) := fun hh => h2 (hh.2 ▸ hkn)
        simp only [Spec.view, h3, if_false] at hk
        exact h.view k hk hkn
      · intro k
        rw [holder_append]
        exact h.own k
  | give idx u =>
    simp only [step] at hs
    split_ifs at hs with h1
    simp only [PoolWeak.step] at hs
    by_cases h2 : s.pool.loc u = .idle ∧ t ≠ u
    · simp only [h2, ne_eq, not_false_eq_true, and_self, if_true, Option.some.injEq, Prod.mk.injEq] at hs
      obtain ⟨rfl, rfl⟩ := hs
      exact give_Inv h t u idx h2.2 h1.2
    · rw [if_neg h2] at hs; simp at hs
  | pool a =>
    simp only [step] at hs
    split at hs
    · exact absurd hs (by simp)
    · next p es' hp =>
      simp only [Option.some.injEq, Prod.mk.injEq] at hs
      obtain ⟨rfl, rfl⟩ := hs
      cases a with
      | startCreate =>
        simp only [PoolWeak.step] at hp
        split_ifs at hp
        simp only [Option.some.injEq, Prod.mk.injEq] at hp
        obtain ⟨rfl, rfl⟩ := hp
        simp only [List.foldl_nil, List.map_nil, List.append_nil]
        exact loc_Inv h t _ (by simp) (fun _ _ => ha)
      | cas =>
        simp only [PoolWeak.step] at hp
        split at hp
        · next i hl =>
          have htd := h.creating t i hl
          split at hp
          · next hf =>
            simp only [Option.some.injEq, Prod.mk.injEq] at hp
            obtain ⟨rfl, rfl⟩ := hp
            subst htd
            simp only [List.foldl_cons, List.foldl_nil, List.map_cons, List.map_nil, record]
            refine rmw_Inv h t i true _ (some t) _ ?_ ?_ hf (.inl ⟨rfl, rfl, rfl, rfl⟩)
            · exact (loc_Inv h t .idle (by simp) (by simp)).noclr
            · exact (loc_Inv h t .idle (by simp) (by simp)).creating
          · simp only [Option.some.injEq, Prod.mk.injEq] at hp
            obtain ⟨rfl, rfl⟩ := hp
            simp only [List.foldl_nil, List.map_nil, List.append_nil]
            exact loc_Inv h t _ (by simp) (fun _ _ => htd)
          · exact absurd hp (by simp)
        · exact absurd hp (by simp)
      | endCreate =>
        simp only [PoolWeak.step] at hp
        split at hp
        · split_ifs at hp
          simp only [Option.some.injEq, Prod.mk.injEq] at hp
          obtain ⟨rfl, rfl⟩ := hp
          simp only [List.foldl_cons, List.foldl_nil, List.map_cons, List.map_nil, record]
          have h1 := loc_Inv h t .idle (by simp) (by simp)
          refine { h1 with view := ?_, own := ?_ }
          · intro k hk hkn
            rw [view_append] at hk
            exact h.view k hk hkn
          · intro k
            rw [holder_append]
            exact h.own k
        · exact absurd hp (by simp)
      | destroy i =>
        have hown : s.pool.own i = some t := by rw [h.own i]; exact ha
        have hf := (h.owned i t hown).1
        have hi : i < s.pool.flags.length := (List.getElem?_eq_some_iff.mp hf).1
        simp only [PoolWeak.step, hf, hi, if_true] at hp
        split_ifs at hp
        simp only [Option.some.injEq, Prod.mk.injEq] at hp
        obtain ⟨rfl, rfl⟩ := hp
        simp only [List.foldl_cons, List.foldl_nil, List.map_cons, List.map_nil, record]
        exact rmw_Inv h t i false _ none s.pool.loc h.noclr h.creating hf (.inr ⟨rfl, hown, rfl, rfl⟩)
      | read i =>
        simp only [PoolWeak.step] at hp
        split_ifs at hp with hc
        simp only [Option.some.injEq, Prod.mk.injEq] at hp
        obtain ⟨rfl, rfl⟩ := hp
        simp only [List.foldl_nil, List.map_nil, List.append_nil]
        rcases ha with ha | ⟨rfl, ha⟩
        · rw [← h.own i] at ha
          exact access_Inv h t i false (fun u _ => (h.owned i t ha).2 u) (.inl ha)
        · obtain ⟨g1, g2⟩ := done_known h i ha (by rw [← h.len]; exact hc.2)
          exact access_Inv h t i false g2 (.inr ⟨rfl, g1⟩)
      | write i =>
        simp only [PoolWeak.step] at hp
        split_ifs at hp with hc
        simp only [Option.some.injEq, Prod.mk.injEq] at hp
        obtain ⟨rfl, rfl⟩ := hp
        simp only [List.foldl_nil, List.map_nil, List.append_nil]
        rcases ha with ha | ⟨rfl, ha⟩
        · rw [← h.own i] at ha
          exact access_Inv h t i true (fun u _ => (h.owned i t ha).2 u) (.inl ha)
        · obtain ⟨g1, g2⟩ := done_known h i ha (by rw [← h.len]; exact hc.2)
          exact access_Inv h t i true g2 (.inr ⟨rfl, g1⟩)
      | startClear => exact absurd ha (by simp [Allowed])
      | clearStep => exact absurd ha (by simp [Allowed])
      | sync u => exact absurd ha (by simp [Allowed])
      | look u => exact absurd ha (by simp [Allowed])

end PoolSignal
