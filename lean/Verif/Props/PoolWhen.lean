import Verif.Spec.PoolWhen
import Verif.Props.PoolWeak
/-! # Property C158: exactly when `clear()` may be called -/

namespace PoolWeak.When
open PoolWeak

/-- The invariant. -/
structure Inv (N : Nat) (s : St) : Prop where
  norace : s.race = false
  wr_acc : ∀ i u, s.wr i u ≤ s.acc i u
  acc_own : ∀ i t, s.acc i t ≤ s.vc t t
  acc_len : ∀ i u, s.flags.length ≤ i → s.acc i u = 0
  acc_lt : ∀ i u, N ≤ u → s.acc i u = 0
  strict : ∀ t u, t ≠ u → s.vc t u < s.vc u u
  fstrict : ∀ i u, s.fclk i u < s.vc u u
  free : ∀ i, s.own i = none → s.flags[i]? ≠ some true ∧ ((∀ u, s.acc i u ≤ s.fclk i u) ∨ ∃ t, s.loc t = .clearing i true)
  owned : ∀ i t, s.own i = some t → s.flags[i]? = some true ∧ ∀ u, s.acc i u ≤ s.vc t u
  own_lt : ∀ i t, s.own i = some t → t < N
  lt : ∀ t, s.loc t ≠ .idle → t < N
  clr_own : ∀ t j w, s.loc t = .clearing j w → ∀ i u, j ≤ i → s.own i = some u → u = t
  clr_acc : ∀ t j w, s.loc t = .clearing j w → ∀ i u, j ≤ i → s.acc i u ≤ s.vc t u
  clr_wr : ∀ t j, s.loc t = .clearing j true → j < s.flags.length ∧ s.wr j t = s.vc t t
  uniq : ∀ t u j w j' w', s.loc t = .clearing j w → s.loc u = .clearing j' w' → j < s.flags.length → j' < s.flags.length → t = u

theorem init_Inv (N n : Nat) : Inv N (init n) where
  norace := rfl
  wr_acc := fun _ _ => le_refl _
  acc_own := fun _ _ => Nat.zero_le _
  acc_len := fun _ _ _ => rfl
  acc_lt := fun _ _ _ => rfl
  strict := fun t u h => by simp [init, Ne.symm h]
  fstrict := fun i u => by simp [init]
  free := fun i _ => ⟨by simp [init, List.getElem?_replicate], Or.inl fun _ => le_refl _⟩
  owned := fun i t h => by simp [init] at h
  own_lt := fun i t h => by simp [init] at h
  lt := fun t h => by simp [init] at h
  clr_own := fun t j w h => by simp [init] at h
  clr_acc := fun t j w h => by simp [init] at h
  clr_wr := fun t j h => by simp [init] at h
  uniq := fun t u j w j' w' h => by simp [init] at h

/-- A thread that is not in `clear()` before and after moves on. -/
theorem Inv.goto {N : Nat} {s : St} (h : Inv N s) {t : Nat} (ht : t < N) (hl : ∀ i, s.loc t ≠ .clearing i true) (l : Loc) (hl' : ∀ j w, l ≠ .clearing j w) :
    Inv N { s with loc := upd s.loc t l } where
  norace := h.norace
  wr_acc := h.wr_acc
  acc_own := h.acc_own
  acc_len := h.acc_len
  acc_lt := h.acc_lt
  strict := h.strict
  fstrict := h.fstrict
  free := fun i hi => by
    obtain ⟨f1, f2⟩ := h.free i hi
    refine ⟨f1, f2.imp_right fun ⟨u, f⟩ => ⟨u, ?_⟩⟩
    by_cases hut : u = t
    · subst hut; exact absurd f (hl i)
    · simp only [upd_ne _ _ _ _ hut]; exact f
  owned := h.owned
  own_lt := h.own_lt
  lt := fun u hu => by
    by_cases hut : u = t
    · subst hut; exact ht
    · simp only [upd_ne _ _ _ _ hut] at hu; exact h.lt u hu
  clr_own := fun u j w hu => by
    by_cases hut : u = t
    · subst hut; simp only [upd_same] at hu; exact absurd hu (hl' j w)
    · simp only [upd_ne _ _ _ _ hut] at hu; exact h.clr_own u j w hu
  clr_acc := fun u j w hu => by
    by_cases hut : u = t
    · subst hut; simp only [upd_same] at hu; exact absurd hu (hl' j w)
    · simp only [upd_ne _ _ _ _ hut] at hu; exact h.clr_acc u j w hu
  clr_wr := fun u j hu => by
    by_cases hut : u = t
    · subst hut; simp only [upd_same] at hu; exact absurd hu (hl' j true)
    · simp only [upd_ne _ _ _ _ hut] at hu; exact h.clr_wr u j hu
  uniq := fun u v j w j' w' hu hv => by
    have a1 : u ≠ t := by rintro rfl; simp only [upd_same] at hu; exact absurd hu (hl' j w)
    have a2 : v ≠ t := by rintro rfl; simp only [upd_same] at hv; exact absurd hv (hl' j' w')
    simp only [upd_ne _ _ _ _ a1] at hu
    simp only [upd_ne _ _ _ _ a2] at hv
    exact h.uniq u v j w j' w' hu hv

/-- Threads learn. -/
theorem Inv.learn {N : Nat} {s : St} (h : Inv N s) (v : Nat → Nat → Nat) (hg : ∀ t u, s.vc t u ≤ v t u) (hs : ∀ t u, t ≠ u → v t u < v u u) (hc : ∀ t j w, s.loc t = .clearing j w → v t t = s.vc t t) :
    Inv N { s with vc := v } where
  norace := h.norace
  wr_acc := h.wr_acc
  acc_own := fun i t => le_trans (h.acc_own i t) (hg t t)
  acc_len := h.acc_len
  acc_lt := h.acc_lt
  strict := hs
  fstrict := fun i u => lt_of_lt_of_le (h.fstrict i u) (hg u u)
  free := h.free
  owned := fun i t hi => ⟨(h.owned i t hi).1, fun u => le_trans ((h.owned i t hi).2 u) (hg t u)⟩
  own_lt := h.own_lt
  lt := h.lt
  clr_own := h.clr_own
  clr_acc := fun t j w ht i u hi => le_trans (h.clr_acc t j w ht i u hi) (hg t u)
  clr_wr := fun t j ht => ⟨(h.clr_wr t j ht).1, by rw [(h.clr_wr t j ht).2]; exact (hc t j true ht).symm⟩
  uniq := h.uniq

theorem rmw_vc_ge (s : St) (t i : Nat) (v : Bool) (x y : Nat) : s.vc x y ≤ (rmw s t i v).vc x y := by
  show s.vc x y ≤ upd s.vc t (tick (fun u => max (s.vc t u) (s.fclk i u)) t) x y
  by_cases hx : x = t
  · subst hx; rw [upd_same]; exact le_trans (le_max_left _ _) (tick_ge (fun u => max (s.vc x u) (s.fclk i u)) _ _)
  · rw [upd_ne _ _ _ _ hx]

theorem rmw_vc_other (s : St) (t i : Nat) (v : Bool) (x : Nat) (hx : x ≠ t) : (rmw s t i v).vc x = s.vc x := upd_ne _ _ _ _ hx

theorem rmw_vc_t (s : St) (t i : Nat) (v : Bool) (y : Nat) (hy : y ≠ t) : (rmw s t i v).vc t y = max (s.vc t y) (s.fclk i y) := by
  show upd s.vc t (tick (fun u => max (s.vc t u) (s.fclk i u)) t) t y = _
  rw [upd_same]; exact upd_ne _ _ _ _ hy

theorem rmw_vc_tt {N : Nat} {s : St} (h : Inv N s) (t i : Nat) (v : Bool) : (rmw s t i v).vc t t = s.vc t t + 1 := by
  show upd s.vc t (tick (fun u => max (s.vc t u) (s.fclk i u)) t) t t = _
  rw [upd_same, tick, upd_same, max_eq_left (h.fstrict i t).le]

theorem rmw_strict {N : Nat} {s : St} (h : Inv N s) (t i : Nat) (v : Bool) (x y : Nat) (hxy : x ≠ y) : (rmw s t i v).vc x y < (rmw s t i v).vc y y := by
  by_cases hx : x = t
  · subst hx
    rw [rmw_vc_t _ _ _ _ _ (Ne.symm hxy), rmw_vc_other _ _ _ _ _ (Ne.symm hxy)]
    exact max_lt (h.strict x y hxy) (h.fstrict i y)
  · rw [rmw_vc_other _ _ _ _ _ hx]
    exact lt_of_lt_of_le (h.strict x y hxy) (rmw_vc_ge _ _ _ _ _ _)

theorem rmw_fclk_ne (s : St) (t i j : Nat) (v : Bool) (hj : j ≠ i) : (rmw s t i v).fclk j = s.fclk j := upd_ne _ _ _ _ hj
theorem rmw_fclk_i (s : St) (t i u : Nat) (v : Bool) : (rmw s t i v).fclk i u = max (s.vc t u) (s.fclk i u) := by
  show upd s.fclk i (fun u => max (s.vc t u) (s.fclk i u)) i u = _
  rw [upd_same]

theorem rmw_fstrict {N : Nat} {s : St} (h : Inv N s) (t i : Nat) (v : Bool) (j u : Nat) : (rmw s t i v).fclk j u < (rmw s t i v).vc u u := by
  by_cases hj : j = i
  · subst hj
    rw [rmw_fclk_i]
    by_cases hu : u = t
    · subst hu; rw [rmw_vc_tt h, max_eq_left (h.fstrict j u).le]; omega
    · rw [rmw_vc_other _ _ _ _ _ hu]; exact max_lt (h.strict t u (Ne.symm hu)) (h.fstrict j u)
  · rw [rmw_fclk_ne _ _ _ _ _ hj]
    exact lt_of_lt_of_le (h.fstrict j u) (rmw_vc_ge _ _ _ _ _ _)

/-- An access that knows about all earlier accesses. -/
theorem norace_of {N : Nat} {s : St} (h : Inv N s) (t i : Nat) (b : Bool) (hk : ∀ u, s.acc i u ≤ s.vc t u) : (access N s t i b).race = false := by
  unfold access
  simp only [h.norace, Bool.false_or, List.any_eq_false, List.mem_range]
  intro u _
  have h1 := hk u
  have h2 := h.wr_acc i u
  cases b <;> simp <;> intro _ <;> omega

/-- An access by the owner. -/
theorem acc_Inv {N : Nat} {s : St} {t i : Nat} (h : Inv N s) (ht : t < N) (ho : s.own i = some t) (hi : s.loc t = .idle) (hl : i < s.flags.length) (b : Bool) : Inv N (access N s t i b) where
  norace := norace_of h t i b (h.owned i t ho).2
  wr_acc := fun j u => by
    rw [access_acc, access_wr]
    have := h.wr_acc j u
    have := h.acc_own j t
    split_ifs <;> (try omega)
    all_goals (rename_i h1 h2; obtain ⟨rfl, rfl⟩ := h2; omega)
  acc_own := fun j u => by
    rw [access_acc]
    split_ifs with h1
    · obtain ⟨rfl, rfl⟩ := h1; exact le_refl _
    · exact h.acc_own j u
  acc_len := fun j u hj => by
    have hj : s.flags.length ≤ j := hj
    rw [access_acc, if_neg (by omega)]; exact h.acc_len j u hj
  acc_lt := fun j u hu => by
    rw [access_acc, if_neg (by omega)]; exact h.acc_lt j u hu
  strict := h.strict
  fstrict := h.fstrict
  free := fun j hj => by
    obtain ⟨f1, f2⟩ := h.free j hj
    have hj' : s.own j = none := hj
    have hne : j ≠ i := by rintro rfl; rw [ho] at hj'; exact absurd hj' (by simp)
    refine ⟨f1, f2.imp_left fun f2 u => ?_⟩
    rw [access_acc, if_neg (fun h => hne h.1)]
    exact f2 u
  owned := fun j u hj => by
    obtain ⟨f1, f2⟩ := h.owned j u hj
    have hj' : s.own j = some u := hj
    refine ⟨f1, fun x => ?_⟩
    rw [access_acc]
    split_ifs with h1
    · obtain ⟨rfl, rfl⟩ := h1
      rw [ho] at hj'
      injection hj' with hj'
      subst hj'
      exact le_refl _
    · exact f2 x
  own_lt := h.own_lt
  lt := h.lt
  clr_own := h.clr_own
  clr_acc := fun u j w hu k x hk => by
    have hu : s.loc u = .clearing j w := hu
    rw [access_acc, if_neg]
    · exact h.clr_acc u j w hu k x hk
    · rintro ⟨rfl, rfl⟩
      have := h.clr_own u j w hu k x hk ho
      subst this
      exact absurd (hi.symm.trans hu) (by simp)
  clr_wr := fun u j hu => by
    have hu : s.loc u = .clearing j true := hu
    refine ⟨(h.clr_wr u j hu).1, ?_⟩
    rw [access_wr, if_neg]
    · exact (h.clr_wr u j hu).2
    · rintro ⟨_, rfl, rfl⟩
      exact absurd (hi.symm.trans hu) (by simp)
  uniq := h.uniq

/-- A step of `clear()`. -/
theorem clear_Inv {N : Nat} {s s' : St} {t : Nat} {e : List Event} (h : Inv N s) (ht : t < N) (hs : step N s t .clearStep = some (s', e)) : Inv N s' := by
  simp only [step] at hs
  split at hs
  · rename_i i w hi
    split_ifs at hs with hl hw
    · injection hs with hs; injection hs with hs _; subst hs
      subst hw
      have grow : ∀ x y, s.vc x y ≤ upd s.vc t (tick (s.vc t) t) x y := by
        intro x y
        by_cases hx : x = t
        · subst hx; rw [upd_same]; exact tick_ge _ _ _
        · rw [upd_ne _ _ _ _ hx]
      have tt : upd s.vc t (tick (s.vc t) t) t t = s.vc t t + 1 := by rw [upd_same]; exact upd_same _ _ _
      have ty : ∀ y, y ≠ t → upd s.vc t (tick (s.vc t) t) t y = s.vc t y := fun y hy => by rw [upd_same]; exact upd_ne _ _ _ _ hy
      have cases' : ∀ u j w, upd s.loc t (.clearing (i + 1) false) u = .clearing j w → (u = t ∧ j = i + 1 ∧ w = false) ∨ (u ≠ t ∧ s.loc u = .clearing j w ∧ s.flags.length ≤ j) := by
        intro u j w hu
        by_cases hut : u = t
        · subst hut; rw [upd_same] at hu; simp only [Loc.clearing.injEq] at hu; exact .inl ⟨rfl, hu.1.symm, hu.2.symm⟩
        · rw [upd_ne _ _ _ _ hut] at hu
          exact .inr ⟨hut, hu, Nat.le_of_not_lt fun c => hut (h.uniq u t j w i true hu hi c hl)⟩
      exact {
        norace := h.norace
        wr_acc := h.wr_acc
        acc_own := fun j u => le_trans (h.acc_own j u) (grow u u)
        acc_len := fun j u hj => h.acc_len j u (by simpa using hj)
        acc_lt := h.acc_lt
        strict := fun x y hxy => by
          by_cases hx : x = t
          · subst hx
            show upd s.vc x (tick (s.vc x) x) x y < upd s.vc x (tick (s.vc x) x) y y
            rw [ty y (Ne.symm hxy)]; exact lt_of_lt_of_le (h.strict x y hxy) (grow y y)
          · show upd s.vc t (tick (s.vc t) t) x y < upd s.vc t (tick (s.vc t) t) y y
            rw [upd_ne _ _ _ _ hx]; exact lt_of_lt_of_le (h.strict x y hxy) (grow y y)
        fstrict := fun j u => by
          show upd s.fclk i (s.vc t) j u < upd s.vc t (tick (s.vc t) t) u u
          by_cases hj : j = i
          · subst hj
            rw [upd_same]
            by_cases hu : u = t
            · subst hu; rw [tt]; omega
            · exact lt_of_lt_of_le (h.strict t u (Ne.symm hu)) (grow u u)
          · rw [upd_ne _ _ _ _ hj]; exact lt_of_lt_of_le (h.fstrict j u) (grow u u)
        free := fun j hj => by
          by_cases hji : j = i
          · subst hji
            refine ⟨?_, .inl fun u => ?_⟩
            · show (s.flags.set j false)[j]? ≠ some true
              rw [List.getElem?_set_self hl]; simp
            · show s.acc j u ≤ upd s.fclk j (s.vc t) j u
              rw [upd_same]; exact h.clr_acc t j true hi j u (le_refl _)
          · simp only [upd_ne _ _ _ _ hji] at hj
            obtain ⟨f1, f2⟩ := h.free j hj
            refine ⟨?_, ?_⟩
            · show (s.flags.set i false)[j]? ≠ some true
              rw [List.getElem?_set_ne (Ne.symm hji)]; exact f1
            · rcases f2 with f2 | ⟨u, f2⟩
              · left
                intro u
                show s.acc j u ≤ upd s.fclk i (s.vc t) j u
                rw [upd_ne _ _ _ _ hji]; exact f2 u
              · have := (h.clr_wr u j f2).1
                have := h.uniq u t j true i true f2 hi this hl
                subst this
                rw [hi, Loc.clearing.injEq] at f2
                exact absurd f2.1.symm hji
        owned := fun j u hj => by
          by_cases hji : j = i
          · subst hji; simp only [upd_same] at hj; exact absurd hj (by simp)
          · simp only [upd_ne _ _ _ _ hji] at hj
            obtain ⟨f1, f2⟩ := h.owned j u hj
            refine ⟨?_, fun x => le_trans (f2 x) (grow u x)⟩
            show (s.flags.set i false)[j]? = some true
            rw [List.getElem?_set_ne (Ne.symm hji)]; exact f1
        own_lt := fun j u hj => by
          by_cases hji : j = i
          · subst hji; simp only [upd_same] at hj; exact absurd hj (by simp)
          · simp only [upd_ne _ _ _ _ hji] at hj; exact h.own_lt j u hj
        lt := fun u hu => by
          by_cases hut : u = t
          · subst hut; exact ht
          · simp only [upd_ne _ _ _ _ hut] at hu; exact h.lt u hu
        clr_own := fun u j w hu k x hk hx => by
          by_cases hki : k = i
          · subst hki; simp only [upd_same] at hx; exact absurd hx (by simp)
          · simp only [upd_ne _ _ _ _ hki] at hx
            rcases cases' u j w hu with ⟨rfl, rfl, _⟩ | ⟨_, hu, _⟩
            · exact h.clr_own u i true hi k x (by omega) hx
            · exact h.clr_own u j w hu k x hk hx
        clr_acc := fun u j w hu k x hk => by
          rcases cases' u j w hu with ⟨rfl, rfl, _⟩ | ⟨_, hu, _⟩
          · exact le_trans (h.clr_acc u i true hi k x (by omega)) (grow u x)
          · exact le_trans (h.clr_acc u j w hu k x hk) (grow u x)
        clr_wr := fun u j hu => by
          rcases cases' u j true hu with ⟨_, _, c⟩ | ⟨_, hu, hj⟩
          · exact absurd c (by simp)
          · exact absurd (h.clr_wr u j hu).1 (by omega)
        uniq := fun u v j w j' w' hu hv hj hj' => by
          have hj : j < (s.flags.set i false).length := hj
          have hj' : j' < (s.flags.set i false).length := hj'
          rw [List.length_set] at hj hj'
          rcases cases' u j w hu with ⟨rfl, _, _⟩ | ⟨_, _, c⟩
          · rcases cases' v j' w' hv with ⟨rfl, _, _⟩ | ⟨_, _, c⟩
            · rfl
            · omega
          · omega }
    · injection hs with hs; injection hs with hs _; subst hs
      have hk := h.clr_acc t i w hi
      have cases' : ∀ u j w, upd s.loc t (.clearing i true) u = .clearing j w → (u = t ∧ j = i ∧ w = true) ∨ (u ≠ t ∧ s.loc u = .clearing j w ∧ s.flags.length ≤ j) := by
        intro u j w' hu
        by_cases hut : u = t
        · subst hut; rw [upd_same] at hu; simp only [Loc.clearing.injEq] at hu; exact .inl ⟨rfl, hu.1.symm, hu.2.symm⟩
        · rw [upd_ne _ _ _ _ hut] at hu
          exact .inr ⟨hut, hu, Nat.le_of_not_lt fun c => hut (h.uniq u t j w' i w hu hi c hl)⟩
      exact {
        norace := norace_of h t i true (fun u => hk i u (le_refl _))
        wr_acc := fun j u => by
          show (access N s t i true).wr j u ≤ (access N s t i true).acc j u
          rw [access_acc, access_wr]
          have := h.wr_acc j u
          simp only [true_and]
          split_ifs <;> omega
        acc_own := fun j u => by
          show (access N s t i true).acc j u ≤ s.vc u u
          rw [access_acc]
          split_ifs with h1
          · obtain ⟨rfl, rfl⟩ := h1; exact le_refl _
          · exact h.acc_own j u
        acc_len := fun j u hj => by
          have hj : s.flags.length ≤ j := hj
          show (access N s t i true).acc j u = 0
          rw [access_acc, if_neg (by omega)]; exact h.acc_len j u hj
        acc_lt := fun j u hu => by
          show (access N s t i true).acc j u = 0
          rw [access_acc, if_neg (by omega)]; exact h.acc_lt j u hu
        strict := h.strict
        fstrict := h.fstrict
        free := fun j hj => by
          obtain ⟨f1, f2⟩ := h.free j hj
          refine ⟨f1, ?_⟩
          by_cases hji : j = i
          · subst hji
            right
            exact ⟨t, upd_same _ _ _⟩
          · rcases f2 with f2 | ⟨u, f2⟩
            · left
              intro u
              show (access N s t i true).acc j u ≤ s.fclk j u
              rw [access_acc, if_neg (fun h => hji h.1)]
              exact f2 u
            · have := (h.clr_wr u j f2).1
              have := h.uniq u t j true i w f2 hi this hl
              subst this
              rw [hi, Loc.clearing.injEq] at f2
              exact absurd f2.1.symm hji
        owned := fun j u hj => by
          obtain ⟨f1, f2⟩ := h.owned j u hj
          have hj : s.own j = some u := hj
          refine ⟨f1, fun x => ?_⟩
          show (access N s t i true).acc j x ≤ s.vc u x
          rw [access_acc]
          split_ifs with h1
          · obtain ⟨rfl, rfl⟩ := h1
            have := h.clr_own x j w hi j u (le_refl _) hj
            subst this
            exact le_refl _
          · exact f2 x
        own_lt := h.own_lt
        lt := fun u hu => by
          by_cases hut : u = t
          · subst hut; exact ht
          · simp only [upd_ne _ _ _ _ hut] at hu; exact h.lt u hu
        clr_own := fun u j w' hu k x hkj hx => by
          rcases cases' u j w' hu with ⟨rfl, rfl, _⟩ | ⟨_, hu, _⟩
          · exact h.clr_own u j w hi k x hkj hx
          · exact h.clr_own u j w' hu k x hkj hx
        clr_acc := fun u j w' hu k x hkj => by
          show (access N s t i true).acc k x ≤ s.vc u x
          rw [access_acc]
          rcases cases' u j w' hu with ⟨rfl, rfl, _⟩ | ⟨_, hu, hj⟩
          · split_ifs with h1
            · obtain ⟨rfl, rfl⟩ := h1; exact le_refl _
            · exact hk k x hkj
          · rw [if_neg (by omega)]
            exact h.clr_acc u j w' hu k x hkj
        clr_wr := fun u j hu => by
          rcases cases' u j true hu with ⟨rfl, rfl, _⟩ | ⟨_, hu, hj⟩
          · refine ⟨hl, ?_⟩
            show (access N s u j true).wr j u = s.vc u u
            rw [access_wr, if_pos ⟨rfl, rfl, rfl⟩]
          · exact absurd (h.clr_wr u j hu).1 (by omega)
        uniq := fun u v j w1 j' w' hu hv hj hj' => by
          have hj : j < s.flags.length := hj
          have hj' : j' < s.flags.length := hj'
          rcases cases' u j w1 hu with ⟨rfl, _, _⟩ | ⟨_, _, c⟩
          · rcases cases' v j' w' hv with ⟨rfl, _, _⟩ | ⟨_, _, c⟩
            · rfl
            · omega
          · omega }
    · injection hs with hs; injection hs with hs _; subst hs
      refine h.goto ht (fun j c => ?_) _ (by simp)
      have := (h.clr_wr t j c).1
      rw [hi, Loc.clearing.injEq] at c
      omega
  · exact absurd hs (by simp)

theorem step_Inv {N : Nat} {s s' : St} {t : Nat} {a : Act} {e : List Event} (h : Inv N s) (ht : t < N) (hA : Allowed s t a) (hs : step N s t a = some (s', e)) : Inv N s' := by
  cases a with
  | startCreate =>
    simp only [step] at hs
    split_ifs at hs with hi
    injection hs with hs; injection hs with hs _; subst hs
    exact h.goto ht (by simp [hi]) _ (by simp)
  | cas =>
    simp only [step] at hs
    split at hs
    · rename_i i hi
      split at hs
      · rename_i hf
        injection hs with hs; injection hs with hs _; subst hs
        have hnone : s.own i = none := by
          cases ho : s.own i with
          | none => rfl
          | some u => rw [(h.owned i u ho).1] at hf; exact absurd hf (by simp)
        have hclr : ∀ u j w, s.loc u = .clearing j w → i < j := fun u j w hu => hA i hi hf u j w hu
        have hfc : ∀ u, s.acc i u ≤ s.fclk i u := by
          rcases (h.free i hnone).2 with f | ⟨u, f⟩
          · exact f
          · exact absurd (hclr u i true f) (lt_irrefl _)
        have hlen : i < s.flags.length := (List.getElem?_eq_some_iff.mp hf).1
        have other : ∀ u j w, upd s.loc t .idle u = .clearing j w → u ≠ t ∧ s.loc u = .clearing j w := by
          intro u j w hu
          by_cases hut : u = t
          · subst hut; rw [upd_same] at hu; exact absurd hu (by simp)
          · rw [upd_ne _ _ _ _ hut] at hu; exact ⟨hut, hu⟩
        exact {
          norace := h.norace
          wr_acc := h.wr_acc
          acc_own := fun j u => le_trans (h.acc_own j u) (rmw_vc_ge s t i true u u)
          acc_len := fun j u hj => h.acc_len j u (by simpa [rmw] using hj)
          acc_lt := h.acc_lt
          strict := rmw_strict h t i true
          fstrict := rmw_fstrict h t i true
          free := fun j hj => by
            have hji : j ≠ i := by rintro rfl; simp only [upd_same] at hj; exact absurd hj (by simp)
            simp only [upd_ne _ _ _ _ hji] at hj
            obtain ⟨f1, f2⟩ := h.free j hj
            refine ⟨?_, ?_⟩
            · show (s.flags.set i true)[j]? ≠ some true
              rw [List.getElem?_set_ne (Ne.symm hji)]; exact f1
            · rcases f2 with f2 | ⟨u, f2⟩
              · left
                intro u
                show s.acc j u ≤ (rmw s t i true).fclk j u
                rw [rmw_fclk_ne _ _ _ _ _ hji]; exact f2 u
              · right
                have hut : u ≠ t := by rintro rfl; rw [hi] at f2; exact absurd f2 (by simp)
                exact ⟨u, by simp only [upd_ne _ _ _ _ hut]; exact f2⟩
          owned := fun j u hj => by
            by_cases hji : j = i
            · subst hji
              simp only [upd_same] at hj
              injection hj with hj
              subst hj
              refine ⟨?_, fun x => ?_⟩
              · show (s.flags.set j true)[j]? = some true
                rw [List.getElem?_set_self hlen]
              · show s.acc j x ≤ (rmw s t j true).vc t x
                by_cases hx : x = t
                · subst hx; exact le_trans (h.acc_own j x) (rmw_vc_ge _ _ _ _ _ _)
                · rw [rmw_vc_t _ _ _ _ _ hx]; exact le_trans (hfc x) (le_max_right _ _)
            · simp only [upd_ne _ _ _ _ hji] at hj
              obtain ⟨f1, f2⟩ := h.owned j u hj
              refine ⟨?_, fun x => le_trans (f2 x) (rmw_vc_ge s t i true u x)⟩
              show (s.flags.set i true)[j]? = some true
              rw [List.getElem?_set_ne (Ne.symm hji)]; exact f1
          own_lt := fun j u hj => by
            by_cases hji : j = i
            · subst hji; simp only [upd_same] at hj; injection hj with hj; subst hj; exact ht
            · simp only [upd_ne _ _ _ _ hji] at hj; exact h.own_lt j u hj
          lt := fun u hu => by
            by_cases hut : u = t
            · subst hut; exact ht
            · simp only [upd_ne _ _ _ _ hut] at hu; exact h.lt u hu
          clr_own := fun u j w hu k x hk hx => by
            obtain ⟨_, hu⟩ := other u j w hu
            have : k ≠ i := by have := hclr u j w hu; omega
            simp only [upd_ne _ _ _ _ this] at hx
            exact h.clr_own u j w hu k x hk hx
          clr_acc := fun u j w hu k x hk => by
            obtain ⟨_, hu⟩ := other u j w hu
            exact le_trans (h.clr_acc u j w hu k x hk) (rmw_vc_ge s t i true u x)
          clr_wr := fun u j hu => by
            obtain ⟨hut, hu⟩ := other u j true hu
            refine ⟨by simpa [rmw] using (h.clr_wr u j hu).1, ?_⟩
            show s.wr j u = (rmw s t i true).vc u u
            rw [rmw_vc_other _ _ _ _ _ hut]; exact (h.clr_wr u j hu).2
          uniq := fun u v j w j' w' hu hv hj hj' => by
            obtain ⟨_, hu⟩ := other u j w hu
            obtain ⟨_, hv⟩ := other v j' w' hv
            exact h.uniq u v j w j' w' hu hv (by simpa [rmw] using hj) (by simpa [rmw] using hj') }
      · injection hs with hs; injection hs with hs _; subst hs
        exact h.goto ht (by simp [hi]) _ (by simp)
      · exact absurd hs (by simp)
    · exact absurd hs (by simp)
  | endCreate =>
    simp only [step] at hs
    split at hs
    · rename_i i hi
      split_ifs at hs
      injection hs with hs; injection hs with hs _; subst hs
      exact h.goto ht (by simp [hi]) _ (by simp)
    · exact absurd hs (by simp)
  | destroy i =>
    have ho : s.own i = some t := hA
    obtain ⟨o1, o2⟩ := h.owned i t ho
    have hlen : i < s.flags.length := (List.getElem?_eq_some_iff.mp o1).1
    simp only [step, hlen, if_true, o1] at hs
    split_ifs at hs with hi
    injection hs with hs; injection hs with hs _; subst hs
    have other : ∀ u j w, s.loc u = .clearing j w → u ≠ t := by rintro u j w hu rfl; rw [hi] at hu; exact absurd hu (by simp)
    exact {
      norace := h.norace
      wr_acc := h.wr_acc
      acc_own := fun j u => le_trans (h.acc_own j u) (rmw_vc_ge s t i false u u)
      acc_len := fun j u hj => h.acc_len j u (by simpa [rmw] using hj)
      acc_lt := h.acc_lt
      strict := rmw_strict h t i false
      fstrict := rmw_fstrict h t i false
      free := fun j hj => by
        by_cases hji : j = i
        · subst hji
          refine ⟨?_, .inl fun u => ?_⟩
          · show (s.flags.set j false)[j]? ≠ some true
            rw [List.getElem?_set_self hlen]; simp
          · show s.acc j u ≤ (rmw s t j false).fclk j u
            rw [rmw_fclk_i]; exact le_trans (o2 u) (le_max_left _ _)
        · simp only [upd_ne _ _ _ _ hji] at hj
          obtain ⟨f1, f2⟩ := h.free j hj
          refine ⟨?_, f2.imp_left fun f2 u => ?_⟩
          · show (s.flags.set i false)[j]? ≠ some true
            rw [List.getElem?_set_ne (Ne.symm hji)]; exact f1
          · show s.acc j u ≤ (rmw s t i false).fclk j u
            rw [rmw_fclk_ne _ _ _ _ _ hji]; exact f2 u
      owned := fun j u hj => by
        by_cases hji : j = i
        · subst hji; simp only [upd_same] at hj; exact absurd hj (by simp)
        · simp only [upd_ne _ _ _ _ hji] at hj
          obtain ⟨f1, f2⟩ := h.owned j u hj
          refine ⟨?_, fun x => le_trans (f2 x) (rmw_vc_ge s t i false u x)⟩
          show (s.flags.set i false)[j]? = some true
          rw [List.getElem?_set_ne (Ne.symm hji)]; exact f1
      own_lt := fun j u hj => by
        by_cases hji : j = i
        · subst hji; simp only [upd_same] at hj; exact absurd hj (by simp)
        · simp only [upd_ne _ _ _ _ hji] at hj; exact h.own_lt j u hj
      lt := h.lt
      clr_own := fun u j w hu k x hk hx => by
        by_cases hki : k = i
        · subst hki; simp only [upd_same] at hx; exact absurd hx (by simp)
        · simp only [upd_ne _ _ _ _ hki] at hx
          exact h.clr_own u j w hu k x hk hx
      clr_acc := fun u j w hu k x hk => le_trans (h.clr_acc u j w hu k x hk) (rmw_vc_ge s t i false u x)
      clr_wr := fun u j hu => by
        refine ⟨by simpa [rmw] using (h.clr_wr u j hu).1, ?_⟩
        show s.wr j u = (rmw s t i false).vc u u
        rw [rmw_vc_other _ _ _ _ _ (other u j true hu)]; exact (h.clr_wr u j hu).2
      uniq := fun u v j w j' w' hu hv hj hj' => h.uniq u v j w j' w' hu hv (by simpa [rmw] using hj) (by simpa [rmw] using hj') }
  | read i =>
    simp only [step] at hs
    split_ifs at hs with hi
    injection hs with hs; injection hs with hs _; subst hs
    exact acc_Inv h ht hA hi.1 hi.2 false
  | write i =>
    simp only [step] at hs
    split_ifs at hs with hi
    injection hs with hs; injection hs with hs _; subst hs
    exact acc_Inv h ht hA hi.1 hi.2 true
  | startClear =>
    simp only [step] at hs
    split_ifs at hs with hi
    injection hs with hs; injection hs with hs _; subst hs
    obtain ⟨a1, a2, a3⟩ := hA
    have cases' : ∀ u j w, upd s.loc t (.clearing 0 false) u = .clearing j w → (u = t ∧ j = 0 ∧ w = false) ∨ (u ≠ t ∧ s.loc u = .clearing j w) := by
      intro u j w hu
      by_cases hut : u = t
      · subst hut; rw [upd_same] at hu; simp only [Loc.clearing.injEq] at hu; exact .inl ⟨rfl, hu.1.symm, hu.2.symm⟩
      · rw [upd_ne _ _ _ _ hut] at hu; exact .inr ⟨hut, hu⟩
    exact {
      norace := h.norace
      wr_acc := h.wr_acc
      acc_own := h.acc_own
      acc_len := h.acc_len
      acc_lt := h.acc_lt
      strict := h.strict
      fstrict := h.fstrict
      free := fun j hj => by
        obtain ⟨f1, f2⟩ := h.free j hj
        refine ⟨f1, f2.imp_right fun ⟨u, f⟩ => ⟨u, ?_⟩⟩
        have hut : u ≠ t := by rintro rfl; rw [hi] at f; exact absurd f (by simp)
        simp only [upd_ne _ _ _ _ hut]; exact f
      owned := h.owned
      own_lt := h.own_lt
      lt := fun u hu => by
        by_cases hut : u = t
        · subst hut; exact ht
        · simp only [upd_ne _ _ _ _ hut] at hu; exact h.lt u hu
      clr_own := fun u j w hu k x hk hx => by
        rcases cases' u j w hu with ⟨rfl, _, _⟩ | ⟨_, hu⟩
        · exact a1 k x hx
        · exact h.clr_own u j w hu k x hk hx
      clr_acc := fun u j w hu k x hk => by
        rcases cases' u j w hu with ⟨rfl, _, _⟩ | ⟨_, hu⟩
        · exact a3 k x
        · exact h.clr_acc u j w hu k x hk
      clr_wr := fun u j hu => by
        rcases cases' u j true hu with ⟨_, _, c⟩ | ⟨_, hu⟩
        · exact absurd c (by simp)
        · exact h.clr_wr u j hu
      uniq := fun u v j w j' w' hu hv hj hj' => by
        rcases cases' u j w hu with ⟨e1, _, _⟩ | ⟨n1, hu2⟩ <;> rcases cases' v j' w' hv with ⟨e2, _, _⟩ | ⟨n2, hv2⟩
        · rw [e1, e2]
        · exact absurd hj' (Nat.not_lt.2 (a2 v j' w' n2 hv2))
        · exact absurd hj (Nat.not_lt.2 (a2 u j w n1 hu2))
        · exact h.uniq u v j w j' w' hu2 hv2 hj hj' }
  | clearStep => exact clear_Inv h ht hs
  | look v =>
    obtain ⟨_, hn, rfl | rfl⟩ := step_look N s s' t v e hs
    · exact h
    · refine h.learn _ (fun x y => ?_) (fun x y hxy => ?_) (fun x j w hx => ?_)
      · by_cases hx : x = t
        · subst hx; rw [upd_same]; exact le_max_left _ _
        · rw [upd_ne _ _ _ _ hx]
      · have g : s.vc y y ≤ upd s.vc t (fun u => max (s.vc t u) (s.fclk v u)) y y := by
          by_cases hy : y = t
          · subst hy; rw [upd_same]; exact le_max_left _ _
          · rw [upd_ne _ _ _ _ hy]
        refine lt_of_lt_of_le ?_ g
        by_cases hx : x = t
        · subst hx; rw [upd_same]; exact max_lt (h.strict x y hxy) (h.fstrict v y)
        · rw [upd_ne _ _ _ _ hx]; exact h.strict x y hxy
      · have hxt : x ≠ t := by rintro rfl; exact hn j w hx
        rw [upd_ne _ _ _ _ hxt]
  | sync v =>
    simp only [step] at hs
    split_ifs at hs with hi
    injection hs with hs; injection hs with hs _; subst hs
    obtain ⟨hi, hvt⟩ := hi
    refine h.learn _ (fun x y => ?_) (fun x y hxy => ?_) (fun x j w hx => ?_)
    · by_cases hx : x = v
      · subst hx; rw [upd_same]; exact tick_ge _ _ _
      · rw [upd_ne _ _ _ _ hx]
        by_cases hx2 : x = t
        · subst hx2; rw [upd_same]; exact le_max_left _ _
        · rw [upd_ne _ _ _ _ hx2]
    · have tv : ∀ z, z ≠ v → tick (s.vc v) v z = s.vc v z := fun z hz => upd_ne _ _ _ _ hz
      have tvv : tick (s.vc v) v v = s.vc v v + 1 := upd_same _ _ _
      have tt : max (s.vc t t) (s.vc v t) = s.vc t t := max_eq_left (h.strict v t hvt).le
      have s1 := h.strict x y hxy
      by_cases hx : x = v
      · subst hx
        rw [upd_same, tv y (Ne.symm hxy), upd_ne _ _ _ _ (Ne.symm hxy)]
        by_cases hy : y = t
        · subst hy; rw [upd_same, tt]; exact s1
        · rw [upd_ne _ _ _ _ hy]; exact s1
      · rw [upd_ne _ _ _ _ hx]
        by_cases hy : y = v
        · subst hy
          rw [upd_same, tvv]
          by_cases hx2 : x = t
          · subst hx2; rw [upd_same, max_eq_right s1.le]; omega
          · rw [upd_ne _ _ _ _ hx2]; omega
        · rw [upd_ne _ _ _ _ hy]
          by_cases hx2 : x = t
          · subst hx2
            rw [upd_same, upd_ne _ _ _ _ (Ne.symm hxy)]
            exact max_lt s1 (h.strict v y (Ne.symm hy))
          · rw [upd_ne _ _ _ _ hx2]
            by_cases hy2 : y = t
            · subst hy2; rw [upd_same, tt]; exact s1
            · rw [upd_ne _ _ _ _ hy2]; exact s1
    · have n1 : x ≠ v := by rintro rfl; exact hA j w hx
      have n2 : x ≠ t := by rintro rfl; rw [hi] at hx; exact absurd hx (by simp)
      rw [upd_ne _ _ _ _ n1, upd_ne _ _ _ _ n2]

theorem run_Inv {N : Nat} : ∀ (l : List (Nat × Act)) (s s' : St) (es : List Event), Inv N s → Disciplined N s l → run N s l = some (s', es) → Inv N s' := by
  intro l
  induction l with
  | nil => intro s s' es h _ hr; simp only [run, Option.some.injEq, Prod.mk.injEq] at hr; obtain ⟨rfl, _⟩ := hr; exact h
  | cons a l ih =>
    obtain ⟨t, a⟩ := a
    intro s s' es h hd hr
    obtain ⟨d1, d2, d4⟩ := hd
    simp only [run] at hr
    split at hr
    · exact absurd hr (by simp)
    · rename_i s1 e1 h1
      split at hr
      · exact absurd hr (by simp)
      · rename_i s2 e2 h2
        simp only [Option.some.injEq, Prod.mk.injEq] at hr
        obtain ⟨rfl, _⟩ := hr
        exact ih s1 s2 e2 (step_Inv h d1 d2 h1) (d4 s1 e1 h1) h2

/-- **C158 (exact), one half.** If threads access and destroy only what they own, `clear()` is called only when nobody else owns an entry, no other `clear()` is running and all accesses so far happen before it, and what is created during
`clear()` are only entries that it is past: no accesses race, and `create()` always returns an entry that nobody owns. -/
theorem C158_when_exact (N n : Nat) (sched : List (Nat × Act)) (s : St) (es : List Event) (hr : run N (init n) sched = some (s, es)) (hd : Disciplined N (init n) sched) :
    s.race = false ∧ ∀ t i s' , step N s t .cas = some (s', [.created t i]) → s.own i = none := by
  have h := run_Inv sched _ _ _ (init_Inv N n) hd hr
  refine ⟨h.norace, fun t i s' hs => ?_⟩
  simp only [step] at hs
  split at hs
  · rename_i j hj
    split at hs
    · rename_i hf
      simp only [Option.some.injEq, Prod.mk.injEq, List.cons.injEq, Event.created.injEq] at hs
      obtain ⟨_, ⟨_, rfl⟩, _⟩ := hs
      cases ho : s.own j with
      | none => rfl
      | some u => rw [(h.owned j u ho).1] at hf; exact absurd hf (by simp)
    · simp at hs
    · simp at hs
  · simp at hs

theorem disc_cons {N : Nat} {s s1 : St} {t : Nat} {a : Act} {e : List Event} {l : List (Nat × Act)} (ht : t < N) (hA : Allowed s t a) (hs : step N s t a = some (s1, e)) (hd : Disciplined N s1 l) : Disciplined N s ((t, a) :: l) := by
  refine ⟨ht, hA, fun s' e' h => ?_⟩
  rw [hs] at h
  cases h
  exact hd

/-- Thread 0 clears the pool; when it is past entry 0, thread 1 creates and uses that entry, while thread 0 clears entry 1. -/
def during : List (Nat × Act) := [(0, .startClear), (0, .clearStep), (1, .startCreate), (0, .clearStep), (1, .cas), (0, .clearStep), (1, .write 0), (0, .clearStep), (0, .clearStep)]

example : ((run 2 (init 2) during).map (fun r => (r.1.race, r.2))) = some (false, [.created 1 0]) ∧ Disciplined 2 (init 2) during := by
  refine ⟨by decide +kernel, ?_⟩
  refine disc_cons (by omega) ⟨by simp [init], by simp [init], fun _ _ => Nat.zero_le _⟩ rfl ?_
  refine disc_cons (by omega) trivial rfl ?_
  refine disc_cons (by omega) trivial rfl ?_
  refine disc_cons (by omega) trivial rfl ?_
  refine disc_cons (by omega) ?_ rfl ?_
  · intro j hj hf u i w hu
    have e : j = 0 := by
      have : Loc.creating 0 = Loc.creating j := hj
      injection this with this; exact this.symm
    subst e
    by_cases h0 : u = 0
    · subst h0
      have : Loc.clearing 1 false = Loc.clearing i w := hu
      injection this with h1 _
      omega
    · by_cases h1 : u = 1
      · subst h1
        have : Loc.creating 0 = Loc.clearing i w := hu
        exact absurd this (by simp)
      · exfalso
        revert hu
        simp [upd, h0, h1, access, init]
  refine disc_cons (by omega) trivial rfl ?_
  refine disc_cons (by omega) rfl rfl ?_
  refine disc_cons (by omega) trivial rfl ?_
  refine disc_cons (by omega) trivial rfl ?_
  trivial

/-- What the caller's steps of `clear()` up to entry `m` leave alone. -/
structure Near (t m : Nat) (s s' : St) : Prop where
  loc : ∀ u, u ≠ t → s'.loc u = s.loc u
  vc : ∀ u, u ≠ t → s'.vc u = s.vc u
  vct : ∀ u, u ≠ t → s'.vc t u = s.vc t u
  vctt : s.vc t t ≤ s'.vc t t
  own : s'.own m = s.own m
  acc : ∀ u, u ≠ t → s'.acc m u = s.acc m u
  len : s'.flags.length = s.flags.length
  race : s.race = true → s'.race = true

theorem Near.trans {t m : Nat} {a b c : St} (h1 : Near t m a b) (h2 : Near t m b c) : Near t m a c where
  loc := fun u hu => (h2.loc u hu).trans (h1.loc u hu)
  vc := fun u hu => (h2.vc u hu).trans (h1.vc u hu)
  vct := fun u hu => (h2.vct u hu).trans (h1.vct u hu)
  vctt := le_trans h1.vctt h2.vctt
  own := h2.own.trans h1.own
  acc := fun u hu => (h2.acc u hu).trans (h1.acc u hu)
  len := h2.len.trans h1.len
  race := fun h => h2.race (h1.race h)

theorem clear_write {N : Nat} {s : St} {t j : Nat} (m : Nat) (hl : s.loc t = .clearing j false) (hj : j < s.flags.length) :
    ∃ s', step N s t .clearStep = some (s', []) ∧ Near t m s s' ∧ s'.loc t = .clearing j true ∧ s'.wr j t = s'.vc t t ∧ s'.acc j t = s'.vc t t ∧ ((∃ u, u < N ∧ u ≠ t ∧ s.vc t u < s.acc j u) → s'.race = true) := by
  refine ⟨{ access N s t j true with loc := upd s.loc t (.clearing j true) }, by simp [step, hl, hj], ?_, upd_same _ _ _, ?_, ?_, ?_⟩
  · refine ⟨fun u hu => upd_ne _ _ _ _ hu, fun _ _ => rfl, fun _ _ => rfl, le_refl _, rfl, fun u hu => ?_, rfl, fun h => ?_⟩
    · show (access N s t j true).acc m u = _
      rw [access_acc, if_neg (fun h => hu h.2)]
    · show (access N s t j true).race = true
      simp [access, h]
  · show (access N s t j true).wr j t = s.vc t t
    rw [access_wr, if_pos ⟨rfl, rfl, rfl⟩]
  · show (access N s t j true).acc j t = s.vc t t
    rw [access_acc, if_pos ⟨rfl, rfl⟩]
  · rintro ⟨u, hu, hut, hlt⟩
    show (access N s t j true).race = true
    simp only [access, Bool.or_eq_true, List.any_eq_true, List.mem_range]
    exact .inr ⟨u, hu, by simp [hut, hlt]⟩

theorem clear_store {N : Nat} {s : St} {t j : Nat} (m : Nat) (hl : s.loc t = .clearing j true) (hj : j < m) (hm : m < s.flags.length) :
    ∃ s', step N s t .clearStep = some (s', []) ∧ Near t m s s' ∧ s'.loc t = .clearing (j + 1) false := by
  refine ⟨_, by simp [step, hl, show j < s.flags.length by omega]; rfl, ?_, upd_same _ _ _⟩
  refine ⟨fun u hu => upd_ne _ _ _ _ hu, fun u hu => upd_ne _ _ _ _ hu, fun u hu => ?_, ?_, upd_ne _ _ _ _ (by omega), fun _ _ => rfl, by simp, fun h => h⟩
  · show upd s.vc t (tick (s.vc t) t) t u = _
    rw [upd_same]; exact upd_ne _ _ _ _ hu
  · show s.vc t t ≤ upd s.vc t (tick (s.vc t) t) t t
    rw [upd_same]; exact tick_ge _ _ _

theorem clients_steps {N : Nat} {t : Nat} (ht : t < N) : ∀ (n : Nat) (s s' : St) (es : List Event) (l : List (Nat × Act)), run N s (List.replicate n (t, .clearStep)) = some (s', es) → Clients N s' l →
    Clients N s (List.replicate n (t, .clearStep) ++ l) := by
  intro n
  induction n with
  | zero => intro s s' es l h hc; simp only [List.replicate_zero, run, Option.some.injEq, Prod.mk.injEq] at h; rw [h.1]; exact hc
  | succ n ih =>
    intro s s' es l h hc
    simp only [List.replicate_succ, run] at h
    refine ⟨ht, by simp, fun s1 e1 h1 => ?_⟩
    rw [h1] at h
    simp only at h
    split at h
    · exact absurd h (by simp)
    · rename_i s2 e2 h2
      simp only [Option.some.injEq, Prod.mk.injEq] at h
      obtain ⟨rfl, _⟩ := h
      exact ih s1 s2 e2 l h2 hc

theorem run_append {N : Nat} : ∀ (l1 l2 : List (Nat × Act)) (s s1 s2 : St) (e1 e2 : List Event), run N s l1 = some (s1, e1) → run N s1 l2 = some (s2, e2) → run N s (l1 ++ l2) = some (s2, e1 ++ e2) := by
  intro l1
  induction l1 with
  | nil => intro l2 s s1 s2 e1 e2 h1 h2; simp only [run, Option.some.injEq, Prod.mk.injEq] at h1; obtain ⟨rfl, rfl⟩ := h1; exact h2
  | cons a l ih =>
    obtain ⟨t, a⟩ := a
    intro l2 s s1 s2 e1 e2 h1 h2
    simp only [run] at h1
    split at h1
    · exact absurd h1 (by simp)
    · rename_i sa ea ha
      split at h1
      · exact absurd h1 (by simp)
      · rename_i sb eb hb
        simp only [Option.some.injEq, Prod.mk.injEq] at h1
        obtain ⟨rfl, rfl⟩ := h1
        simp only [List.cons_append, run, ha, ih l2 sa sb s2 eb e2 hb h2, List.append_assoc]

/-- A thread in `clear()` that has not written entry `m` yet goes on until it has. -/
theorem walk {N : Nat} {t : Nat} (m : Nat) : ∀ (d j : Nat) (w : Bool) (s : St), s.loc t = .clearing j w → j + d = m → (d = 0 → w = false) → m < s.flags.length →
    ∃ n s', run N s (List.replicate n (t, .clearStep)) = some (s', []) ∧ Near t m s s' ∧ s'.loc t = .clearing m true ∧ s'.wr m t = s'.vc t t ∧ s'.acc m t = s'.vc t t ∧ ((∃ u, u < N ∧ u ≠ t ∧ s.vc t u < s.acc m u) → s'.race = true) := by
  intro d
  induction d with
  | zero =>
    intro j w s hl hj hw hm
    obtain rfl : j = m := by omega
    rw [hw rfl] at hl
    obtain ⟨s', h1, h2, h3, h4, h6, h5⟩ := clear_write (N := N) j hl hm
    exact ⟨1, s', by simp [run, h1], h2, h3, h4, h6, h5⟩
  | succ d ih =>
    intro j w s hl hj _ hm
    -- from `(j, true)` on
    have from_true : ∀ s : St, s.loc t = .clearing j true → m < s.flags.length →
        ∃ n s', run N s (List.replicate n (t, .clearStep)) = some (s', []) ∧ Near t m s s' ∧ s'.loc t = .clearing m true ∧ s'.wr m t = s'.vc t t ∧ s'.acc m t = s'.vc t t ∧ ((∃ u, u < N ∧ u ≠ t ∧ s.vc t u < s.acc m u) → s'.race = true) := by
      intro s hl hm
      obtain ⟨s1, h1, h2, h3⟩ := clear_store (N := N) m hl (by omega) hm
      obtain ⟨n, s', k1, k2, k3, k4, k6, k5⟩ := ih (j + 1) false s1 h3 (by omega) (fun _ => rfl) (by rw [h2.len]; exact hm)
      refine ⟨n + 1, s', ?_, h2.trans k2, k3, k4, k6, ?_⟩
      · simp [List.replicate_succ, run, h1, k1]
      · rintro ⟨u, hu, hut, hlt⟩
        exact k5 ⟨u, hu, hut, by rw [h2.vct u hut, h2.acc u hut]; exact hlt⟩
    cases w with
    | true => exact from_true s hl hm
    | false =>
      obtain ⟨s1, h1, h2, h3, _, _, _⟩ := clear_write (N := N) m hl (by omega)
      obtain ⟨n, s', k1, k2, k3, k4, k6, k5⟩ := from_true s1 h3 (by rw [h2.len]; exact hm)
      refine ⟨n + 1, s', ?_, h2.trans k2, k3, k4, k6, ?_⟩
      · simp [List.replicate_succ, run, h1, k1]
      · rintro ⟨u, hu, hut, hlt⟩
        exact k5 ⟨u, hu, hut, by rw [h2.vct u hut, h2.acc u hut]; exact hlt⟩

/-- An access to an entry another thread has written unnoticed. -/
theorem read_races {N : Nat} {s : St} {t u i : Nat} (hi : s.loc u = .idle) (hl : i < s.flags.length) (ht : t < N) (hut : t ≠ u) (hw : s.vc u t < s.wr i t) :
    ∃ s', step N s u (.read i) = some (s', []) ∧ s'.race = true := by
  refine ⟨access N s u i false, by simp [step, hi, hl], ?_⟩
  simp only [access, Bool.or_eq_true, List.any_eq_true, List.mem_range]
  exact .inr ⟨t, ht, by simp [hut, hw]⟩

theorem clients_append {N : Nat} : ∀ (l1 l2 : List (Nat × Act)) (s s1 : St) (e1 : List Event), Clients N s l1 → run N s l1 = some (s1, e1) → Clients N s1 l2 → Clients N s (l1 ++ l2) := by
  intro l1
  induction l1 with
  | nil => intro l2 s s1 e1 _ h1 h2; simp only [run, Option.some.injEq, Prod.mk.injEq] at h1; obtain ⟨rfl, rfl⟩ := h1; exact h2
  | cons a l ih =>
    obtain ⟨t, a⟩ := a
    intro l2 s s1 e1 hc h1 h2
    obtain ⟨c1, c2, c3⟩ := hc
    refine ⟨c1, c2, fun sa ea ha => ?_⟩
    simp only [run, ha] at h1
    split at h1
    · exact absurd h1 (by simp)
    · rename_i sb eb hb
      simp only [Option.some.injEq, Prod.mk.injEq] at h1
      obtain ⟨rfl, rfl⟩ := h1
      exact ih l2 sa sb eb (c3 sa ea ha) hb h2

/-- A thread in `create()` comes to its end, still not knowing what thread `t` is doing. -/
theorem finish_create {N : Nat} {t u i : Nat} (hu : u < N) (hut : u ≠ t) : ∀ (d k : Nat) (s : St), s.loc u = .creating k → s.flags.length - k = d → s.flags[i]? = some true → s.own i = some u →
    s.vc u t < s.vc t t → (∀ j, s.fclk j t < s.vc t t) →
    ∃ l s' es, run N s l = some (s', es) ∧ Clients N s l ∧ s'.loc u = .idle ∧ s'.loc t = s.loc t ∧ s'.own i = some u ∧ s'.flags.length = s.flags.length ∧ s'.vc u t < s'.vc t t := by
  intro d
  induction d with
  | zero =>
    intro k s hl hd hf ho h1 h2
    have hk : ¬ k < s.flags.length := by omega
    refine ⟨[(u, .endCreate)], { s with loc := upd s.loc u .idle }, [.failed u], by simp [run, step, hl, hk], ⟨hu, by simp, fun _ _ _ => trivial⟩, upd_same _ _ _, upd_ne _ _ _ _ (Ne.symm hut), ho, rfl, h1⟩
  | succ d ih =>
    intro k s hl hd hf ho h1 h2
    have hk : k < s.flags.length := by omega
    cases hfk : s.flags[k] with
    | true =>
      have hstep : step N s u .cas = some ({ s with loc := upd s.loc u (.creating (k + 1)) }, []) := by simp [step, hl, List.getElem?_eq_getElem hk, hfk]
      obtain ⟨l, s', es, r1, r2, r3, r4, r5, r6, r7⟩ := ih (k + 1) { s with loc := upd s.loc u (.creating (k + 1)) } (upd_same _ _ _) (by simp only; omega) hf ho h1 h2
      refine ⟨(u, .cas) :: l, s', [] ++ es, by simp only [run, hstep, r1], ⟨hu, by simp, fun sa ea ha => ?_⟩, r3, r4.trans (upd_ne _ _ _ _ (Ne.symm hut)), r5, r6, r7⟩
      rw [hstep] at ha
      simp only [Option.some.injEq, Prod.mk.injEq] at ha
      obtain ⟨rfl, _⟩ := ha
      exact r2
    | false =>
      have hstep : step N s u .cas = some ({ rmw s u k true with loc := upd s.loc u .idle, own := upd s.own k (some u) }, [.created u k]) := by simp [step, hl, List.getElem?_eq_getElem hk, hfk]
      refine ⟨[(u, .cas)], _, [.created u k] ++ [], by simp only [run, hstep]; rfl, ⟨hu, by simp, fun _ _ _ => trivial⟩, upd_same _ _ _, upd_ne _ _ _ _ (Ne.symm hut), ?_, by simp [rmw], ?_⟩
      · by_cases hik : i = k
        · subst hik; exact upd_same _ _ _
        · exact (upd_ne _ _ _ _ hik).trans ho
      · show (rmw s u k true).vc u t < (rmw s u k true).vc t t
        rw [rmw_vc_t _ _ _ _ _ (Ne.symm hut), rmw_vc_other _ _ _ _ _ (Ne.symm hut)]
        exact max_lt h1 (h2 k)

/-- The owner reads its entry after `clear()` has written it. -/
theorem clear_then_read {N : Nat} {s : St} {t u i : Nat} {j : Nat} {w : Bool} (hl : s.loc t = .clearing j w) (hji : j ≤ i) (hw : j = i → w = false) (hi : s.loc u = .idle) (ho : s.own i = some u) (hlen : i < s.flags.length)
    (ht : t < N) (hu : u < N) (hut : t ≠ u) (hk : s.vc u t < s.vc t t) : ∃ l s' es, run N s l = some (s', es) ∧ Clients N s l ∧ s'.race = true := by
  obtain ⟨n, s', k1, k2, k3, k4, _, _⟩ := walk (N := N) (t := t) i (i - j) j w s hl (by omega) (fun c => hw (by omega)) hlen
  obtain ⟨s2, r1, r2⟩ := read_races (N := N) (s := s') (t := t) (u := u) (i := i) (by rw [k2.loc u (Ne.symm hut)]; exact hi) (by rw [k2.len]; exact hlen) ht hut
    (by rw [k4, k2.vc u (Ne.symm hut)]; exact lt_of_lt_of_le hk k2.vctt)
  have hrd : run N s' [(u, .read i)] = some (s2, []) := by simp [run, r1]
  refine ⟨_, s2, _, run_append _ _ _ _ _ _ _ k1 hrd, clients_steps ht n s s' [] _ k1 ⟨hu, ?_, fun _ _ _ => trivial⟩, r2⟩
  exact .inr (.inr (.inr ⟨i, rfl, by rw [k2.own]; exact ho⟩))

/-- **C158 (exact), other half: the property is false at every other moment.** After every history in which everything was allowed: if `clear()` is called, or a `create()` takes an entry, at a moment at which it may not, then
from there on going on with the running calls, and reading an entry by the thread that owns it, is enough for a data race. -/
theorem C158_other_moments_violated (N n : Nat) (sched : List (Nat × Act)) (s : St) (es : List Event) (hr : run N (init n) sched = some (s, es)) (hd : Disciplined N (init n) sched)
    (t : Nat) (ht : t < N) (a : Act) (ha : a = .startClear ∨ a = .cas) (s1 : St) (e1 : List Event) (hs : step N s t a = some (s1, e1)) (hn : ¬ Allowed s t a) :
    ∃ l s' es', run N s1 l = some (s', es') ∧ Clients N s1 l ∧ s'.race = true := by
  have h := run_Inv sched _ _ _ (init_Inv N n) hd hr
  rcases ha with rfl | rfl
  · simp only [step] at hs
    split_ifs at hs with hi
    injection hs with hs; injection hs with hs _; subst hs
    have lt1 : upd s.loc t (.clearing 0 false) t = .clearing 0 false := upd_same _ _ _
    -- `clear()` runs into an access it does not know of
    have direct : ∀ i u, u ≠ t → u < N → i < s.flags.length → s.vc t u < s.acc i u →
        ∃ l s' es', run N { s with loc := upd s.loc t (.clearing 0 false) } l = some (s', es') ∧ Clients N { s with loc := upd s.loc t (.clearing 0 false) } l ∧ s'.race = true := by
      intro i u hut hu hil hlt
      obtain ⟨m, s', k1, k2, k3, k4, _, k5⟩ := walk (N := N) (t := t) i i 0 false { s with loc := upd s.loc t (.clearing 0 false) } lt1 (by omega) (fun _ => rfl) hil
      refine ⟨_, s', _, k1, ?_, k5 ⟨u, hu, hut, hlt⟩⟩
      have := clients_steps ht m _ s' [] [] k1 trivial
      simpa using this
    by_cases c2 : ∃ u i w, u ≠ t ∧ s.loc u = .clearing i w ∧ i < s.flags.length
    · obtain ⟨u, i, w, hut, hu, hil⟩ := c2
      have hun : u < N := h.lt u (by simp [hu])
      cases w with
      | true =>
        refine direct i u hut hun hil ?_
        have := (h.clr_wr u i hu).2
        have := h.wr_acc i u
        have := h.strict t u (Ne.symm hut)
        omega
      | false =>
        obtain ⟨m, s', k1, k2, k3, k4, k6, k5⟩ := walk (N := N) (t := t) i i 0 false { s with loc := upd s.loc t (.clearing 0 false) } lt1 (by omega) (fun _ => rfl) hil
        have hu' : s'.loc u = .clearing i false := by rw [k2.loc u hut]; exact (upd_ne _ _ _ _ hut).trans hu
        obtain ⟨m', s2, q1, _, _, _, _, q5⟩ := walk (N := N) (t := u) i 0 i false s' hu' (by omega) (fun _ => rfl) (by rw [k2.len]; exact hil)
        refine ⟨_, s2, _, run_append _ _ _ _ _ _ _ k1 q1, ?_, q5 ⟨t, ht, Ne.symm hut, ?_⟩⟩
        · refine clients_steps ht m _ s' [] _ k1 ?_
          have := clients_steps hun m' _ s2 [] [] q1 trivial
          simpa using this
        · rw [k6, k2.vc u hut]
          exact lt_of_lt_of_le (h.strict u t hut) k2.vctt
    by_cases c3 : ∀ i u, s.acc i u ≤ s.vc t u
    · have c1 : ¬ ∀ i u, s.own i = some u → u = t := by
        intro c1
        refine hn ⟨c1, fun u i w hut hu => Nat.le_of_not_lt fun c => c2 ⟨u, i, w, hut, hu, c⟩, c3⟩
      simp only [not_forall] at c1
      obtain ⟨i, u, ho, hut⟩ := c1
      obtain ⟨o1, o2⟩ := h.owned i u ho
      have hil : i < s.flags.length := (List.getElem?_eq_some_iff.mp o1).1
      have hun : u < N := h.own_lt i u ho
      have hk := h.strict u t hut
      -- once thread `u` is out of its call
      have rest : ∀ (l : List (Nat × Act)) (s2 : St) (e2 : List Event), run N { s with loc := upd s.loc t (.clearing 0 false) } l = some (s2, e2) → Clients N { s with loc := upd s.loc t (.clearing 0 false) } l →
          s2.loc u = .idle → s2.loc t = .clearing 0 false → s2.own i = some u → s2.flags.length = s.flags.length → s2.vc u t < s2.vc t t →
          ∃ l s' es', run N { s with loc := upd s.loc t (.clearing 0 false) } l = some (s', es') ∧ Clients N { s with loc := upd s.loc t (.clearing 0 false) } l ∧ s'.race = true := by
        intro l s2 e2 r1 r2 r3 r4 r5 r6 r7
        obtain ⟨l', s', es', q1, q2, q3⟩ := clear_then_read (i := i) r4 (Nat.zero_le _) (fun _ => rfl) r3 r5 (by rw [r6]; exact hil) ht hun (Ne.symm hut) r7
        exact ⟨_, s', _, run_append _ _ _ _ _ _ _ r1 q1, clients_append _ _ _ _ _ r2 r1 q2, q3⟩
      have hlu : upd s.loc t (.clearing 0 false) u = s.loc u := upd_ne _ _ _ _ hut
      cases hu : s.loc u with
      | idle => exact rest [] _ [] rfl trivial (hlu.trans hu) lt1 ho rfl hk
      | creating k =>
        obtain ⟨l, s2, e2, r1, r2, r3, r4, r5, r6, r7⟩ := finish_create (i := i) hun hut _ k { s with loc := upd s.loc t (.clearing 0 false) } (hlu.trans hu) rfl o1 ho hk (fun j => h.fstrict j t)
        exact rest l s2 e2 r1 r2 r3 (r4.trans lt1) r5 r6 r7
      | clearing k w =>
        have hkl : ¬ k < s.flags.length := fun c => c2 ⟨u, k, w, hut, hu, c⟩
        have hst : step N { s with loc := upd s.loc t (.clearing 0 false) } u .clearStep = some ({ s with loc := upd (upd s.loc t (.clearing 0 false)) u .idle }, []) := by
          simp [step, hlu, hu, hkl]
        refine rest [(u, .clearStep)] { s with loc := upd (upd s.loc t (.clearing 0 false)) u .idle } ([] ++ []) (by simp only [run, hst]) ⟨hun, by simp, fun _ _ _ => trivial⟩ (upd_same _ _ _) ((upd_ne _ _ _ _ (Ne.symm hut)).trans lt1) ho rfl hk
    · simp only [not_forall, Nat.not_le] at c3
      obtain ⟨i, u, hlt⟩ := c3
      refine direct i u ?_ ?_ ?_ hlt
      · rintro rfl
        have := h.acc_own i u
        omega
      · exact Nat.lt_of_not_le fun c => by have := h.acc_lt i u c; omega
      · exact Nat.lt_of_not_le fun c => by have := h.acc_len i u c; omega
  · simp only [Allowed, not_forall, Nat.not_lt] at hn
    obtain ⟨j, hj, hf, u, i, w, hu, hij⟩ := hn
    have hjl : j < s.flags.length := (List.getElem?_eq_some_iff.mp hf).1
    have hut : u ≠ t := by rintro rfl; rw [hj] at hu; exact absurd hu (by simp)
    have hun : u < N := h.lt u (by simp [hu])
    simp only [step, hj, hf, Option.some.injEq, Prod.mk.injEq] at hs
    obtain ⟨rfl, _⟩ := hs
    have hk : (rmw s t j true).vc t u < (rmw s t j true).vc u u := rmw_strict h t j true t u (Ne.symm hut)
    by_cases c : i = j ∧ w = true
    · obtain ⟨rfl, rfl⟩ := c
      have hw := (h.clr_wr u i hu).2
      obtain ⟨s2, r1, r2⟩ := read_races (N := N) (s := { rmw s t i true with loc := upd s.loc t .idle, own := upd s.own i (some t) }) (t := u) (u := t) (i := i) (upd_same _ _ _) (by simpa [rmw] using hjl) hun hut
        (by show (rmw s t i true).vc t u < s.wr i u
            rw [hw]
            rw [rmw_vc_other _ _ _ _ _ hut] at hk
            exact hk)
      exact ⟨[(t, .read i)], s2, [] ++ [], by simp only [run, r1], ⟨ht, .inr (.inr (.inr ⟨i, rfl, upd_same _ _ _⟩)), fun _ _ _ => trivial⟩, r2⟩
    · exact clear_then_read (t := u) (u := t) (i := j) (j := i) (w := w) ((upd_ne _ _ _ _ hut).trans hu) hij (fun e => by cases w with
          | true => exact absurd ⟨e, rfl⟩ c
          | false => rfl) (upd_same _ _ _) (upd_same _ _ _) (by simpa [rmw] using hjl) hun ht hut hk

/-- Such moments are met: thread 0 owns entry 0 and thread 1 calls `clear()`; and a thread takes the free entry 0 that `clear()` has just written. -/
example : (∃ s, run 2 (init 1) [(0, .startCreate), (0, .cas)] = some (s, [.created 0 0]) ∧ ¬ Allowed s 1 .startClear ∧ (step 2 s 1 .startClear).isSome) ∧
    (∃ s, run 2 (init 1) [(0, .startClear), (0, .clearStep), (1, .startCreate)] = some (s, []) ∧ ¬ Allowed s 1 .cas ∧ (step 2 s 1 .cas).isSome) := by
  refine ⟨⟨_, rfl, fun h => ?_, rfl⟩, ⟨_, rfl, fun h => ?_, rfl⟩⟩
  · exact absurd (h.1 0 0 rfl) (by omega)
  · exact absurd (h 0 rfl rfl 0 0 true rfl) (by omega)

end PoolWeak.When
