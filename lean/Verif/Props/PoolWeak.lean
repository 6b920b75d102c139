import Verif.Spec.PoolWeak
import Mathlib.Tactic.SplitIfs
import Mathlib.Data.List.Range
/-! # Property C157: the entries of a thread-safe pool are handed over without data races -/

namespace PoolWeak
open Spec

theorem upd_same (f : Nat → α) (k : Nat) (v : α) : upd f k v k = v := by simp [upd]
theorem upd_ne (f : Nat → α) (k x : Nat) (v : α) (h : x ≠ k) : upd f k v x = f x := by simp [upd, h]
theorem tick_ge (c : Nat → Nat) (t u : Nat) : c u ≤ tick c t u := by
  unfold tick
  by_cases h : u = t
  · subst h; rw [upd_same]; omega
  · rw [upd_ne _ _ _ _ h]

/-- The invariant. -/
structure Inv (s : St) : Prop where
  norace : s.race = false
  wr_acc : ∀ i u, s.wr i u ≤ s.acc i u
  acc_own : ∀ i t, s.acc i t ≤ s.vc t t
  free : ∀ i, s.own i = none → s.flags[i]? ≠ some true ∧ ((∀ u, s.acc i u ≤ s.fclk i u) ∨ ∃ t, s.loc t = .clearing i true)
  owned : ∀ i t, s.own i = some t → s.flags[i]? = some true ∧ ∀ u, s.acc i u ≤ s.vc t u
  clr : ∀ t j w, s.loc t = .clearing j w → (∀ i, s.own i = none) ∧ (∀ i u, s.acc i u ≤ s.vc t u) ∧ (w = true → j < s.flags.length)

theorem init_Inv (n : Nat) : Inv (init n) where
  norace := rfl
  wr_acc := fun _ _ => le_refl _
  acc_own := fun _ _ => Nat.zero_le _
  free := fun i _ => ⟨by simp [init, List.getElem?_replicate], Or.inl fun _ => le_refl _⟩
  owned := fun i t h => by simp [init] at h
  clr := fun t j w h => by simp [init] at h

/-- An access by a thread that knows about all earlier accesses is no race. -/
theorem access_norace (N : Nat) (s : St) (t i : Nat) (b : Bool) (h : Inv s) (hk : ∀ u, s.acc i u ≤ s.vc t u) : (access N s t i b).race = false := by
  unfold access
  simp only [h.norace, Bool.false_or, List.any_eq_false, List.mem_range]
  intro u _
  have h1 := hk u
  have h2 := h.wr_acc i u
  cases b <;> simp <;> intro _ <;> omega

theorem access_acc (N : Nat) (s : St) (t i j u : Nat) (b : Bool) : (access N s t i b).acc j u = if j = i ∧ u = t then s.vc t t else s.acc j u := by
  unfold access upd
  by_cases h1 : j = i <;> by_cases h2 : u = t <;> simp [h1, h2]

theorem access_wr (N : Nat) (s : St) (t i j u : Nat) (b : Bool) : (access N s t i b).wr j u = if b = true ∧ j = i ∧ u = t then s.vc t t else s.wr j u := by
  unfold access upd
  cases b <;> by_cases h1 : j = i <;> by_cases h2 : u = t <;> simp [h1, h2]

/-- An access by the owner keeps the invariant. -/
theorem Inv.access (N : Nat) (s : St) (t i : Nat) (b : Bool) (h : Inv s) (ho : s.own i = some t) : Inv (PoolWeak.access N s t i b) where
  norace := access_norace N s t i b h (h.owned i t ho).2
  wr_acc := fun j u => by
    rw [access_acc, access_wr]
    have := h.wr_acc j u
    have := h.acc_own j t
    split_ifs <;> (try omega)
    all_goals (rename_i h1 h2; obtain ⟨rfl, rfl⟩ := h2; omega)
  acc_own := fun j u => by
    rw [access_acc]
    have := h.acc_own j u
    split_ifs with h1
    · obtain ⟨rfl, rfl⟩ := h1; exact le_refl _
    · exact this
  free := fun j hj => by
    obtain ⟨f1, f2⟩ := h.free j hj
    refine ⟨f1, ?_⟩
    have hne : j ≠ i := by rintro rfl; rw [show (PoolWeak.access N s t j b).own = s.own from rfl, ho] at hj; exact absurd hj (by simp)
    rcases f2 with f2 | f2
    · left
      intro u
      rw [access_acc, if_neg (fun h => hne h.1)]
      exact f2 u
    · exact Or.inr f2
  owned := fun j u hj => by
    obtain ⟨f1, f2⟩ := h.owned j u hj
    refine ⟨f1, fun x => ?_⟩
    rw [access_acc]
    split_ifs with h1
    · obtain ⟨rfl, rfl⟩ := h1
      rw [show (PoolWeak.access N s x j b).own = s.own from rfl, ho] at hj
      injection hj with hj
      subst hj
      exact le_refl _
    · exact f2 x
  clr := fun u j w hu => by
    obtain ⟨c1, _, _⟩ := h.clr u j w hu
    rw [c1 i] at ho
    exact absurd ho (by simp)

theorem step_look (N : Nat) (s s' : St) (t i : Nat) (e : List Event) (hs : step N s t (.look i) = some (s', e)) :
    e = [] ∧ (∀ j w, s.loc t ≠ .clearing j w) ∧ (s' = s ∨ s' = { s with vc := upd s.vc t (fun u => max (s.vc t u) (s.fclk i u)) }) := by
  simp only [step] at hs
  cases hl : s.loc t with
  | clearing j w => simp [hl] at hs
  | idle =>
    simp only [hl] at hs
    split_ifs at hs <;> simp only [Option.some.injEq, Prod.mk.injEq] at hs <;> obtain ⟨rfl, rfl⟩ := hs
    · exact ⟨rfl, by simp, .inr rfl⟩
    · exact ⟨rfl, by simp, .inl rfl⟩
  | creating j =>
    simp only [hl] at hs
    split_ifs at hs <;> simp only [Option.some.injEq, Prod.mk.injEq] at hs <;> obtain ⟨rfl, rfl⟩ := hs
    · exact ⟨rfl, by simp, .inr rfl⟩
    · exact ⟨rfl, by simp, .inl rfl⟩

theorem step_Inv (N : Nat) (s s' : St) (t : Nat) (a : Act) (e : List Event) (h : Inv s) (hA : Allowed s t a) (hC : ∀ u i w, u ≠ t → s.loc u ≠ .clearing i w) (hs : step N s t a = some (s', e)) : Inv s' := by
  cases a with
  | startCreate =>
    simp only [step] at hs
    split_ifs at hs with hi
    injection hs with hs; injection hs with hs _; subst hs
    refine ⟨h.norace, h.wr_acc, h.acc_own, fun i hj => ?_, h.owned, fun u j w hu => ?_⟩
    · obtain ⟨f1, f2⟩ := h.free i hj
      refine ⟨f1, ?_⟩
      rcases f2 with f2 | ⟨u, f2⟩
      · exact Or.inl f2
      · by_cases hut : u = t
        · subst hut; rw [hi] at f2; exact absurd f2 (by simp)
        · exact absurd f2 (hC u i true hut)
    · by_cases hut : u = t
      · subst hut; simp only [upd_same] at hu; exact absurd hu (by simp)
      · simp only [upd_ne _ _ _ _ hut] at hu; exact absurd hu (hC u j w hut)
  | cas =>
    simp only [step] at hs
    split at hs
    · rename_i i hi
      split at hs
      · rename_i hf
        injection hs with hs; injection hs with hs _; subst hs
        have hnone : s.own i = none := by
          cases ho : s.own i with
          | none => rfl
          | some u => rw [(h.owned i u ho).1] at hf; exact absurd hf (by simp)
        have hfc : ∀ u, s.acc i u ≤ s.fclk i u := by
          rcases (h.free i hnone).2 with f | ⟨u, f⟩
          · exact f
          · by_cases hut : u = t
            · subst hut; rw [hi] at f; exact absurd f (by simp)
            · exact absurd f (hC u i true hut)
        have hlen : i < s.flags.length := by
          rw [List.getElem?_eq_some_iff] at hf; exact hf.1
        refine ⟨h.norace, h.wr_acc, fun j u => ?_, fun j hj => ?_, fun j u hj => ?_, fun u j w hu => ?_⟩
        · show s.acc j u ≤ upd s.vc t _ u u
          have := h.acc_own j u
          by_cases hut : u = t
          · subst hut
            rw [upd_same]
            exact le_trans this (le_trans (le_max_left _ _) (tick_ge (fun y => max (s.vc u y) (s.fclk i y)) _ _))
          · rw [upd_ne _ _ _ _ hut]; exact this
        · have hji : j ≠ i := by rintro rfl; simp only [upd_same] at hj; exact absurd hj (by simp)
          simp only [upd_ne _ _ _ _ hji] at hj
          obtain ⟨f1, f2⟩ := h.free j hj
          refine ⟨?_, ?_⟩
          · show (s.flags.set i true)[j]? ≠ some true
            rw [List.getElem?_set_ne (Ne.symm hji)]; exact f1
          · rcases f2 with f2 | ⟨u, f2⟩
            · left
              intro u
              show s.acc j u ≤ upd s.fclk i _ j u
              rw [upd_ne _ _ _ _ hji]; exact f2 u
            · by_cases hut : u = t
              · subst hut; rw [hi] at f2; exact absurd f2 (by simp)
              · exact absurd f2 (hC u j true hut)
        · by_cases hji : j = i
          · subst hji
            simp only [upd_same] at hj
            injection hj with hj
            subst hj
            refine ⟨?_, fun x => ?_⟩
            · show (s.flags.set j true)[j]? = some true
              rw [List.getElem?_set_self hlen]
            · show s.acc j x ≤ upd s.vc t _ t x
              rw [upd_same]
              exact le_trans (hfc x) (le_trans (le_max_right _ _) (tick_ge (fun y => max (s.vc t y) (s.fclk j y)) _ _))
          · simp only [upd_ne _ _ _ _ hji] at hj
            obtain ⟨f1, f2⟩ := h.owned j u hj
            refine ⟨?_, fun x => ?_⟩
            · show (s.flags.set i true)[j]? = some true
              rw [List.getElem?_set_ne (Ne.symm hji)]; exact f1
            · show s.acc j x ≤ upd s.vc t _ u x
              by_cases hut : u = t
              · subst hut
                rw [upd_same]
                exact le_trans (f2 x) (le_trans (le_max_left _ _) (tick_ge (fun y => max (s.vc u y) (s.fclk i y)) _ _))
              · rw [upd_ne _ _ _ _ hut]; exact f2 x
        · by_cases hut : u = t
          · subst hut; simp only [upd_same] at hu; exact absurd hu (by simp)
          · simp only [upd_ne _ _ _ _ hut] at hu; exact absurd hu (hC u j w hut)
      · injection hs with hs; injection hs with hs _; subst hs
        refine ⟨h.norace, h.wr_acc, h.acc_own, fun j hj => ?_, h.owned, fun u j w hu => ?_⟩
        · obtain ⟨f1, f2⟩ := h.free j hj
          refine ⟨f1, ?_⟩
          rcases f2 with f2 | ⟨u, f2⟩
          · exact Or.inl f2
          · by_cases hut : u = t
            · subst hut; rw [hi] at f2; exact absurd f2 (by simp)
            · exact absurd f2 (hC u j true hut)
        · by_cases hut : u = t
          · subst hut; simp only [upd_same] at hu; exact absurd hu (by simp)
          · simp only [upd_ne _ _ _ _ hut] at hu; exact absurd hu (hC u j w hut)
      · exact absurd hs (by simp)
    · exact absurd hs (by simp)
  | endCreate =>
    simp only [step] at hs
    split at hs
    · rename_i i hi
      split_ifs at hs
      injection hs with hs; injection hs with hs _; subst hs
      refine ⟨h.norace, h.wr_acc, h.acc_own, fun j hj => ?_, h.owned, fun u j w hu => ?_⟩
      · obtain ⟨f1, f2⟩ := h.free j hj
        refine ⟨f1, ?_⟩
        rcases f2 with f2 | ⟨u, f2⟩
        · exact Or.inl f2
        · by_cases hut : u = t
          · subst hut; rw [hi] at f2; exact absurd f2 (by simp)
          · exact absurd f2 (hC u j true hut)
      · by_cases hut : u = t
        · subst hut; simp only [upd_same] at hu; exact absurd hu (by simp)
        · simp only [upd_ne _ _ _ _ hut] at hu; exact absurd hu (hC u j w hut)
    · exact absurd hs (by simp)
  | destroy i =>
    simp only [step] at hs
    simp only [Allowed] at hA
    obtain ⟨g1, g2⟩ := h.owned i t hA
    have hlen : i < s.flags.length := by
      rw [List.getElem?_eq_some_iff] at g1; exact g1.1
    split_ifs at hs with hi
    injection hs with hs; injection hs with hs _; subst hs
    refine ⟨h.norace, h.wr_acc, fun j u => ?_, fun j hj => ?_, fun j u hj => ?_, fun u j w hu => ?_⟩
    · show s.acc j u ≤ upd s.vc t _ u u
      have := h.acc_own j u
      by_cases hut : u = t
      · subst hut
        rw [upd_same]
        exact le_trans this (le_trans (le_max_left _ _) (tick_ge (fun y => max (s.vc u y) (s.fclk i y)) _ _))
      · rw [upd_ne _ _ _ _ hut]; exact this
    · by_cases hji : j = i
      · subst hji
        refine ⟨?_, Or.inl fun u => ?_⟩
        · show (s.flags.set j false)[j]? ≠ some true
          rw [List.getElem?_set_self hlen]; simp
        · show s.acc j u ≤ upd s.fclk j _ j u
          rw [upd_same]
          exact le_trans (g2 u) (le_max_left _ _)
      · simp only [upd_ne _ _ _ _ hji] at hj
        obtain ⟨f1, f2⟩ := h.free j hj
        refine ⟨?_, ?_⟩
        · show (s.flags.set i false)[j]? ≠ some true
          rw [List.getElem?_set_ne (Ne.symm hji)]; exact f1
        · rcases f2 with f2 | f2
          · left
            intro u
            show s.acc j u ≤ upd s.fclk i _ j u
            rw [upd_ne _ _ _ _ hji]; exact f2 u
          · exact Or.inr f2
    · have hji : j ≠ i := by rintro rfl; simp only [upd_same] at hj; exact absurd hj (by simp)
      simp only [upd_ne _ _ _ _ hji] at hj
      obtain ⟨f1, f2⟩ := h.owned j u hj
      refine ⟨?_, fun x => ?_⟩
      · show (s.flags.set i false)[j]? = some true
        rw [List.getElem?_set_ne (Ne.symm hji)]; exact f1
      · show s.acc j x ≤ upd s.vc t _ u x
        by_cases hut : u = t
        · subst hut
          rw [upd_same]
          exact le_trans (f2 x) (le_trans (le_max_left _ _) (tick_ge (fun y => max (s.vc u y) (s.fclk i y)) _ _))
        · rw [upd_ne _ _ _ _ hut]; exact f2 x
    · obtain ⟨c1, _⟩ := h.clr u j w hu
      rw [c1 i] at hA
      exact absurd hA (by simp)
  | read i =>
    simp only [step] at hs
    split_ifs at hs
    injection hs with hs; injection hs with hs _; subst hs
    exact Inv.access N s t i false h hA
  | write i =>
    simp only [step] at hs
    split_ifs at hs
    injection hs with hs; injection hs with hs _; subst hs
    exact Inv.access N s t i true h hA
  | startClear =>
    simp only [step] at hs
    obtain ⟨A1, A2, A3⟩ := hA
    split_ifs at hs with hi
    injection hs with hs; injection hs with hs _; subst hs
    refine ⟨h.norace, h.wr_acc, h.acc_own, fun i hj => ?_, h.owned, fun u j w hu => ?_⟩
    · obtain ⟨f1, f2⟩ := h.free i hj
      refine ⟨f1, ?_⟩
      rcases f2 with f2 | ⟨u, f2⟩
      · exact Or.inl f2
      · rw [A2 u] at f2; exact absurd f2 (by simp)
    · by_cases hut : u = t
      · subst hut
        simp only [upd_same, Loc.clearing.injEq] at hu
        obtain ⟨rfl, rfl⟩ := hu
        exact ⟨A1, A3, by simp⟩
      · simp only [upd_ne _ _ _ _ hut] at hu; exact absurd hu (hC u j w hut)
  | clearStep =>
    simp only [step] at hs
    split at hs
    · rename_i i w hi
      obtain ⟨c1, c2, c3⟩ := h.clr t i w hi
      split_ifs at hs with hl hw
      · injection hs with hs; injection hs with hs _; subst hs
        refine ⟨h.norace, h.wr_acc, fun j u => ?_, fun j _ => ?_, fun j u hj => ?_, fun u j w' hu => ?_⟩
        · show s.acc j u ≤ upd s.vc t _ u u
          have := h.acc_own j u
          by_cases hut : u = t
          · subst hut; rw [upd_same]; exact le_trans this (tick_ge _ _ _)
          · rw [upd_ne _ _ _ _ hut]; exact this
        · by_cases hji : j = i
          · subst hji
            refine ⟨?_, Or.inl fun u => ?_⟩
            · show (s.flags.set j false)[j]? ≠ some true
              rw [List.getElem?_set_self hl]; simp
            · show s.acc j u ≤ upd s.fclk j _ j u
              rw [upd_same]; exact c2 j u
          · obtain ⟨f1, f2⟩ := h.free j (c1 j)
            refine ⟨?_, ?_⟩
            · show (s.flags.set i false)[j]? ≠ some true
              rw [List.getElem?_set_ne (Ne.symm hji)]; exact f1
            · rcases f2 with f2 | ⟨u, f2⟩
              · left
                intro u
                show s.acc j u ≤ upd s.fclk i _ j u
                rw [upd_ne _ _ _ _ hji]; exact f2 u
              · by_cases hut : u = t
                · subst hut
                  rw [hi, Loc.clearing.injEq] at f2
                  exact absurd f2.1.symm hji
                · exact absurd f2 (hC u j true hut)
        · by_cases hji : j = i
          · subst hji; simp only [upd_same] at hj; exact absurd hj (by simp)
          · simp only [upd_ne _ _ _ _ hji] at hj; rw [c1 j] at hj; exact absurd hj (by simp)
        · by_cases hut : u = t
          · subst hut
            simp only [upd_same, Loc.clearing.injEq] at hu
            obtain ⟨rfl, rfl⟩ := hu
            refine ⟨fun k => ?_, fun k x => ?_, by simp⟩
            · show upd s.own i none k = none
              by_cases hk : k = i
              · subst hk; rw [upd_same]
              · rw [upd_ne _ _ _ _ hk]; exact c1 k
            · show s.acc k x ≤ upd s.vc u _ u x
              rw [upd_same]; exact le_trans (c2 k x) (tick_ge _ _ _)
          · simp only [upd_ne _ _ _ _ hut] at hu; exact absurd hu (hC u j w' hut)
      · injection hs with hs; injection hs with hs _; subst hs
        refine ⟨access_norace N s t i true h (c2 i), fun j u => ?_, fun j u => ?_, fun j _ => ?_, fun j u hj => ?_, fun u j w' hu => ?_⟩
        · show (PoolWeak.access N s t i true).wr j u ≤ (PoolWeak.access N s t i true).acc j u
          rw [access_acc, access_wr]
          have := h.wr_acc j u
          simp only [true_and]
          split_ifs <;> omega
        · show (PoolWeak.access N s t i true).acc j u ≤ s.vc u u
          rw [access_acc]
          have := h.acc_own j u
          split_ifs with h1
          · obtain ⟨rfl, rfl⟩ := h1; exact le_refl _
          · exact this
        · obtain ⟨f1, f2⟩ := h.free j (c1 j)
          refine ⟨f1, ?_⟩
          by_cases hji : j = i
          · subst hji
            right
            exact ⟨t, upd_same _ _ _⟩
          · rcases f2 with f2 | ⟨u, f2⟩
            · left
              intro u
              show (PoolWeak.access N s t i true).acc j u ≤ s.fclk j u
              rw [access_acc, if_neg (fun h => hji h.1)]
              exact f2 u
            · by_cases hut : u = t
              · subst hut
                rw [hi, Loc.clearing.injEq] at f2
                exact absurd f2.1.symm hji
              · exact absurd f2 (hC u j true hut)
        · have hj' : s.own j = some u := hj
          rw [c1 j] at hj'; exact absurd hj' (by simp)
        · by_cases hut : u = t
          · subst hut
            simp only [upd_same, Loc.clearing.injEq] at hu
            obtain ⟨rfl, rfl⟩ := hu
            refine ⟨c1, fun k x => ?_, fun _ => hl⟩
            show (PoolWeak.access N s u i true).acc k x ≤ s.vc u x
            rw [access_acc]
            split_ifs with h1
            · obtain ⟨rfl, rfl⟩ := h1; exact le_refl _
            · exact c2 k x
          · simp only [upd_ne _ _ _ _ hut] at hu; exact absurd hu (hC u j w' hut)
      · injection hs with hs; injection hs with hs _; subst hs
        refine ⟨h.norace, h.wr_acc, h.acc_own, fun j hj => ?_, h.owned, fun u j w' hu => ?_⟩
        · obtain ⟨f1, f2⟩ := h.free j hj
          refine ⟨f1, ?_⟩
          rcases f2 with f2 | ⟨u, f2⟩
          · exact Or.inl f2
          · by_cases hut : u = t
            · subst hut
              rw [hi, Loc.clearing.injEq] at f2
              obtain ⟨rfl, rfl⟩ := f2
              exact absurd (c3 rfl) hl
            · exact absurd f2 (hC u j true hut)
        · by_cases hut : u = t
          · subst hut; simp only [upd_same] at hu; exact absurd hu (by simp)
          · simp only [upd_ne _ _ _ _ hut] at hu; exact absurd hu (hC u j w' hut)
    · exact absurd hs (by simp)
  | look v =>
    obtain ⟨_, _, rfl | rfl⟩ := step_look N s s' t v e hs
    · exact h
    have grow : ∀ x y, s.vc x y ≤ upd s.vc t (fun u => max (s.vc t u) (s.fclk v u)) x y := by
      intro x y
      by_cases hx2 : x = t
      · subst hx2; rw [upd_same]; exact le_max_left _ _
      · rw [upd_ne _ _ _ _ hx2]
    exact ⟨h.norace, h.wr_acc, fun j u => le_trans (h.acc_own j u) (grow u u), h.free, fun j u hj => ⟨(h.owned j u hj).1, fun x => le_trans ((h.owned j u hj).2 x) (grow u x)⟩,
      fun u j w hu => ⟨(h.clr u j w hu).1, fun k x => le_trans ((h.clr u j w hu).2.1 k x) (grow u x), (h.clr u j w hu).2.2⟩⟩
  | sync v =>
    simp only [step] at hs
    split_ifs at hs with hi
    injection hs with hs; injection hs with hs _; subst hs
    obtain ⟨hi, hvt⟩ := hi
    have grow : ∀ x y, s.vc x y ≤ upd (upd s.vc t (fun x => max (s.vc t x) (s.vc v x))) v (tick (s.vc v) v) x y := by
      intro x y
      by_cases hx : x = v
      · subst hx; rw [upd_same]; exact tick_ge _ _ _
      · rw [upd_ne _ _ _ _ hx]
        by_cases hx2 : x = t
        · subst hx2; rw [upd_same]; exact le_max_left _ _
        · rw [upd_ne _ _ _ _ hx2]
    exact ⟨h.norace, h.wr_acc, fun j u => le_trans (h.acc_own j u) (grow u u), h.free, fun j u hj => ⟨(h.owned j u hj).1, fun x => le_trans ((h.owned j u hj).2 x) (grow u x)⟩,
      fun u j w hu => ⟨(h.clr u j w hu).1, fun k x => le_trans ((h.clr u j w hu).2.1 k x) (grow u x), (h.clr u j w hu).2.2⟩⟩

theorem run_Inv (N : Nat) : ∀ (l : List (Nat × Act)) (s s' : St) (es : List Event), Inv s → Disciplined N s l → run N s l = some (s', es) → Inv s' := by
  intro l
  induction l with
  | nil => intro s s' es h _ hr; simp only [run, Option.some.injEq, Prod.mk.injEq] at hr; obtain ⟨rfl, _⟩ := hr; exact h
  | cons a l ih =>
    obtain ⟨t, a⟩ := a
    intro s s' es h hd hr
    obtain ⟨_, d2, d3, d4⟩ := hd
    simp only [run] at hr
    split at hr
    · exact absurd hr (by simp)
    · rename_i s1 e1 h1
      split at hr
      · exact absurd hr (by simp)
      · rename_i s2 e2 h2
        simp only [Option.some.injEq, Prod.mk.injEq] at hr
        obtain ⟨rfl, _⟩ := hr
        exact ih s1 s2 e2 (step_Inv N s s1 t a e1 h d2 d3 h1) (d4 s1 e1 h1) h2

theorem step_length (N : Nat) (s s' : St) (t : Nat) (a : Act) (e : List Event) (hs : step N s t a = some (s', e)) : s'.flags.length = s.flags.length := by
  cases a <;> simp only [step] at hs
  all_goals
    repeat' split at hs
    all_goals first
      | contradiction
      | (injection hs with hs; injection hs with hs _; subst hs; simp [rmw, access])

theorem run_length (N : Nat) : ∀ (l : List (Nat × Act)) (s s' : St) (es : List Event), run N s l = some (s', es) → s'.flags.length = s.flags.length := by
  intro l
  induction l with
  | nil => intro s s' es hr; simp only [run, Option.some.injEq, Prod.mk.injEq] at hr; obtain ⟨rfl, _⟩ := hr; rfl
  | cons a l ih =>
    obtain ⟨t, a⟩ := a
    intro s s' es hr
    simp only [run] at hr
    split at hr
    · exact absurd hr (by simp)
    · rename_i s1 e1 h1
      split at hr
      · exact absurd hr (by simp)
      · rename_i s2 e2 h2
        simp only [Option.some.injEq, Prod.mk.injEq] at hr
        obtain ⟨rfl, _⟩ := hr
        rw [ih s1 s2 e2 h2, step_length N s s1 t a e1 h1]

theorem owners_append (i : Nat) : ∀ (a b : List Event) (o : List Nat), owners i (a ++ b) o = owners i b (owners i a o) := by
  intro a
  induction a with
  | nil => intro b o; rfl
  | cons e a ih => intro b o; cases e <;> simp only [List.cons_append, owners, ih]

theorem step_owners (N : Nat) (s s' : St) (t : Nat) (a : Act) (e : List Event) (h : Inv s) (hA : Allowed s t a) (hs : step N s t a = some (s', e)) (i : Nat) : owners i e (s.own i).toList = (s'.own i).toList := by
  cases a <;> simp only [step] at hs
  case cas =>
    split at hs
    · rename_i j hj
      split at hs
      · rename_i hf
        injection hs with hs; injection hs with hs he; subst hs; subst he
        have hnone : s.own j = none := by
          cases ho : s.own j with
          | none => rfl
          | some u => rw [(h.owned j u ho).1] at hf; exact absurd hf (by simp)
        show owners i [.created t j] _ = (upd s.own j (some t) i).toList
        by_cases hij : i = j
        · subst hij; rw [upd_same, hnone]; simp [owners]
        · rw [upd_ne _ _ _ _ hij]; simp [owners, Ne.symm hij]
      · injection hs with hs; injection hs with hs he; subst hs; subst he; rfl
      · exact absurd hs (by simp)
    · exact absurd hs (by simp)
  case endCreate =>
    split at hs
    · split_ifs at hs
      injection hs with hs; injection hs with hs he; subst hs; subst he; rfl
    · exact absurd hs (by simp)
  case destroy j =>
    simp only [Allowed] at hA
    split_ifs at hs with h1 h2 h3
    · injection hs with hs; injection hs with hs he; subst hs; subst he
      show owners i [.destroyed t j true] _ = (upd s.own j none i).toList
      by_cases hij : i = j
      · subst hij; rw [upd_same]; simp [owners]
      · rw [upd_ne _ _ _ _ hij]; simp [owners, Ne.symm hij]
    · injection hs with hs; injection hs with hs he; subst hs; subst he; simp [owners]
    · injection hs with hs; injection hs with hs he; subst hs; subst he; simp [owners]
  case clearStep =>
    split at hs
    · rename_i j w hj
      have c1 := (h.clr t j w hj).1
      split_ifs at hs
      · injection hs with hs; injection hs with hs he; subst hs; subst he
        show owners i [] _ = (upd s.own j none i).toList
        by_cases hij : i = j
        · subst hij; rw [upd_same, c1 i]; rfl
        · rw [upd_ne _ _ _ _ hij]; rfl
      · injection hs with hs; injection hs with hs he; subst hs; subst he; rfl
      · injection hs with hs; injection hs with hs he; subst hs; subst he; rfl
    · exact absurd hs (by simp)
  case look v =>
    obtain ⟨rfl, _, rfl | rfl⟩ := step_look N s s' t v e hs <;> rfl
  all_goals
    split_ifs at hs
    all_goals (injection hs with hs; injection hs with hs he; subst hs; subst he; rfl)

theorem run_owners (N : Nat) : ∀ (l : List (Nat × Act)) (s s' : St) (es : List Event), Inv s → Disciplined N s l → run N s l = some (s', es) → ∀ i, owners i es (s.own i).toList = (s'.own i).toList := by
  intro l
  induction l with
  | nil => intro s s' es h _ hr i; simp only [run, Option.some.injEq, Prod.mk.injEq] at hr; obtain ⟨rfl, rfl⟩ := hr; rfl
  | cons a l ih =>
    obtain ⟨t, a⟩ := a
    intro s s' es h hd hr i
    obtain ⟨_, d2, d3, d4⟩ := hd
    simp only [run] at hr
    split at hr
    · exact absurd hr (by simp)
    · rename_i s1 e1 h1
      split at hr
      · exact absurd hr (by simp)
      · rename_i s2 e2 h2
        simp only [Option.some.injEq, Prod.mk.injEq] at hr
        obtain ⟨rfl, rfl⟩ := hr
        rw [owners_append, step_owners N s s1 t a e1 h d2 h1 i]
        exact ih s1 s2 e2 (step_Inv N s s1 t a e1 h d2 d3 h1) (d4 s1 e1 h1) h2 i

/-- What **C157** asks of the clients: each thread accesses and destroys only what it owns, and nobody calls clear(). -/
def Owning (N : Nat) : St → List (Nat × Act) → Prop
  | _, [] => True
  | s, (t, a) :: l => t < N ∧ a ≠ .startClear ∧ Allowed s t a ∧ ∀ s' e, step N s t a = some (s', e) → Owning N s' l

theorem step_noclr (N : Nat) (s s' : St) (t : Nat) (a : Act) (e : List Event) (h : ∀ u i w, s.loc u ≠ .clearing i w) (ha : a ≠ .startClear) (hs : step N s t a = some (s', e)) : ∀ u i w, s'.loc u ≠ .clearing i w := by
  intro u i w
  have key : ∀ l, (∀ j v, l ≠ Loc.clearing j v) → upd s.loc t l u ≠ .clearing i w := by
    intro l hl
    by_cases hu : u = t
    · subst hu; rw [upd_same]; exact hl i w
    · rw [upd_ne _ _ _ _ hu]; exact h u i w
  cases a <;> simp only [step] at hs
  case startClear => exact absurd rfl ha
  case clearStep =>
    split at hs
    · rename_i j v hj; exact absurd hj (h t j v)
    · exact absurd hs (by simp)
  case cas =>
    split at hs
    · split at hs
      · injection hs with hs; injection hs with hs _; subst hs; exact key _ (by simp)
      · injection hs with hs; injection hs with hs _; subst hs; exact key _ (by simp)
      · exact absurd hs (by simp)
    · exact absurd hs (by simp)
  case endCreate =>
    split at hs
    · split_ifs at hs
      injection hs with hs; injection hs with hs _; subst hs; exact key _ (by simp)
    · exact absurd hs (by simp)
  case look v =>
    obtain ⟨_, _, rfl | rfl⟩ := step_look N s s' t v e hs <;> exact h u i w
  all_goals
    split_ifs at hs
    all_goals (injection hs with hs; injection hs with hs _; subst hs; first | exact key _ (by simp) | exact h u i w)

theorem Owning.disciplined (N : Nat) : ∀ (l : List (Nat × Act)) (s : St), (∀ u i w, s.loc u ≠ .clearing i w) → Owning N s l → Disciplined N s l := by
  intro l
  induction l with
  | nil => intro _ _ _; trivial
  | cons a l ih =>
    obtain ⟨t, a⟩ := a
    intro s hc ho
    obtain ⟨o1, o2, o3, o4⟩ := ho
    exact ⟨o1, o3, fun u i w _ => hc u i w, fun s' e h => ih s' (step_noclr N s s' t a e hc o2 h) (o4 s' e h)⟩

/-- **C157**: any number of threads, any interleaving of the atomic steps of create and destroy and of the accesses to the entries, each thread accessing and destroying only what it owns: no two accesses to an entry race, also
between successive owners of the entry, and although the pool is all the synchronisation there is. -/
theorem C157_handover (N n : Nat) (sched : List (Nat × Act)) (s : St) (es : List Event) (hr : run N (init n) sched = some (s, es)) (ho : Owning N (init n) sched) : s.race = false :=
  (run_Inv N sched (init n) s es (init_Inv n) (ho.disciplined N sched _ (by simp [init])) hr).norace

/-- **C157**: who owns an entry is what the results of create and destroy say, and an entry has at most one owner. -/
theorem C157_one_owner (N n : Nat) (sched : List (Nat × Act)) (s : St) (es : List Event) (hr : run N (init n) sched = some (s, es)) (ho : Owning N (init n) sched) (i : Nat) :
    owners i es [] = (s.own i).toList ∧ (owners i es []).length ≤ 1 ∧ (n ≤ i → owners i es [] = []) := by
  have hd := ho.disciplined N sched _ (by simp [init])
  have h := run_owners N sched (init n) s es (init_Inv n) hd hr i
  have h' : owners i es [] = (s.own i).toList := h
  refine ⟨h', ?_, fun hi => ?_⟩
  · rw [h']; cases s.own i <;> simp
  · rw [h']
    cases hoi : s.own i with
    | none => rfl
    | some t =>
      have hf := ((run_Inv N sched (init n) s es (init_Inv n) hd hr).owned i t hoi).1
      rw [List.getElem?_eq_some_iff] at hf
      have hlen := hf.1
      rw [run_length N sched (init n) s es hr] at hlen
      simp [init] at hlen
      omega

theorem owning_cons (N : Nat) (s s1 : St) (t : Nat) (a : Act) (e : List Event) (l : List (Nat × Act)) (ht : t < N) (ha : a ≠ .startClear) (hA : Allowed s t a) (hs : step N s t a = some (s1, e)) (hr : Owning N s1 l) :
    Owning N s ((t, a) :: l) := by
  refine ⟨ht, ha, hA, fun s' e' h => ?_⟩
  rw [hs] at h
  injection h with h; injection h with h _
  subst h
  exact hr

/-- Two threads write and read entry 0 one after the other, a third gets entry 1 in between: the hypotheses hold, and the accesses are those that would race if destroying and creating did not synchronise. -/
def passing : List (Nat × Act) := [(0, .startCreate), (0, .cas), (2, .startCreate), (0, .write 0), (2, .cas), (2, .cas), (2, .write 1), (0, .destroy 0), (1, .startCreate), (1, .cas), (1, .read 0), (1, .write 0)]

example : ((run 3 (init 2) passing).map (fun r => (r.1.race, r.2))) = some (false, [.created 0 0, .created 2 1, .destroyed 0 0 true, .created 1 0]) ∧ Owning 3 (init 2) passing := by
  refine ⟨by decide +kernel, ?_⟩
  unfold passing
  iterate 12 refine owning_cons _ _ _ _ _ _ _ (by decide) (by decide) (by first | trivial | rfl) rfl ?_
  trivial

/-- Not owning what one accesses is a race: the hypothesis is needed and `race` can be true. -/
example : ((run 2 (init 1) [(0, .startCreate), (0, .cas), (0, .write 0), (1, .read 0)]).map (fun r => r.1.race)) = some true := by decide +kernel

/-- **C158**, the part that holds: clear() called only when nothing is owned, nothing else is running until it returns, and all earlier accesses to the entries happen before it: no accesses race. -/
theorem C158_quiescent_clear_partial (N n : Nat) (sched : List (Nat × Act)) (s : St) (es : List Event) (hr : run N (init n) sched = some (s, es)) (hd : Disciplined N (init n) sched) : s.race = false :=
  (run_Inv N sched (init n) s es (init_Inv n) hd hr).norace

/-- Two threads use entry 0 one after the other; the second then clears the pool, having synchronised with the first; then the first uses the entry again. -/
def handover : List (Nat × Act) := [(0, .startCreate), (0, .cas), (0, .write 0), (0, .destroy 0), (1, .startCreate), (1, .cas), (1, .read 0), (1, .write 0), (1, .destroy 0), (1, .startClear), (1, .clearStep), (1, .clearStep), (1, .clearStep),
  (0, .startCreate), (0, .cas), (0, .read 0)]

/-- The schedule runs, with these results, -/
example : ((run 2 (init 1) handover).map (fun r => (r.1.race, r.2))) = some (false, [.created 0 0, .destroyed 0 0 true, .created 1 0, .destroyed 1 0 true, .created 0 0]) := by decide +kernel

theorem disciplined_cons (N : Nat) (s s1 : St) (t : Nat) (a : Act) (e : List Event) (l : List (Nat × Act)) (ht : t < N) (hl : ∀ u, u ≠ t → s.loc u = .idle) (hA : Allowed s t a) (hs : step N s t a = some (s1, e))
    (hr : Disciplined N s1 l) : Disciplined N s ((t, a) :: l) := by
  refine ⟨ht, hA, fun u i w hu => by rw [hl u hu]; simp, fun s' e' h => ?_⟩
  rw [hs] at h
  injection h with h; injection h with h _
  subst h
  exact hr

/-- and satisfies the hypothesis. -/
example : Disciplined 2 (init 1) handover := by
  unfold handover
  iterate 9
    refine disciplined_cons _ _ _ _ _ _ _ (by decide) (fun u hu => ?_) (by first | trivial | rfl) rfl ?_
    · rcases u with _ | _ | u <;> first | rfl | exact absurd rfl hu
  refine disciplined_cons _ _ _ _ _ _ _ (by decide) (fun u hu => ?_) ⟨fun i => ?_, fun u => ?_, fun i u => ?_⟩ rfl ?_
  · rcases u with _ | _ | u <;> first | rfl | exact absurd rfl hu
  · rcases i with _ | i <;> rfl
  · rcases u with _ | _ | u <;> first | rfl | exact absurd rfl hu
  · rcases i with _ | i <;> rcases u with _ | _ | u <;> first | decide | exact Nat.zero_le _
  iterate 6
    refine disciplined_cons _ _ _ _ _ _ _ (by decide) (fun u hu => ?_) (by first | trivial | rfl) rfl ?_
    · rcases u with _ | _ | u <;> first | rfl | exact absurd rfl hu
  trivial

/-- **C158 violated**: clear() of a pool whose entries have all been destroyed races with their earlier use by another thread: it writes the entries without having synchronised with anything. -/
theorem C158_clear_races_violated : ∃ s, run 2 (init 1) [(0, .startCreate), (0, .cas), (0, .write 0), (0, .destroy 0), (1, .startClear), (1, .clearStep)] = some (s, [.created 0 0, .destroyed 0 0 true]) ∧ s.race = true := by
  refine ⟨_, rfl, ?_⟩
  decide +kernel

/-- **C158 violated**: clear() running while another thread calls create() frees the entry that create() has just returned, and the next create() returns it again: two owners. -/
theorem C158_clear_concurrent_violated : ∃ s es, run 3 (init 1) [(0, .startClear), (0, .clearStep), (1, .startCreate), (1, .cas), (0, .clearStep), (2, .startCreate), (2, .cas)] = some (s, es) ∧ owners 0 es [] = [2, 1] := by
  refine ⟨_, _, rfl, ?_⟩
  decide +kernel

end PoolWeak
