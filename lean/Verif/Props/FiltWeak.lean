import Verif.Spec.FiltWeak
import Mathlib.Tactic.Linarith
/-! # Property C166: FilteredInterpArray's new-data flag between two cores -/

namespace FiltWeak
open Spec
variable {N : Nat}

theorem run_cons {rmw : Bool} {c c' : St N} {a : Act N} {l : List (Act N)} {es : List (Event N)} (h : run rmw c (a :: l) = some (c', es)) :
    ∃ c1 e1 e2, step rmw c a = some (c1, e1) ∧ run rmw c1 l = some (c', e2) ∧ es = e1 ++ e2 := by
  unfold run at h
  split at h
  · cases h
  · next c1 e1 hs =>
    split at h
    · cases h
    · next c2 e2 hr =>
      cases h
      exact ⟨c1, e1, e2, hs, hr, rfl⟩

/-- All that a step can be. -/
theorem step_cases {rmw : Bool} {c c' : St N} {a : Act N} {e : List (Event N)} (h : step rmw c a = some (c', e)) :
    (∃ i v, c' = { c with hist := Function.update c.hist i (c.hist i ++ [v]) } ∧ e = [.wrote i v]) ∨
    (c' = { c with flag := true, fview := fun i => (c.hist i).length - 1 } ∧ e = [.marked]) ∨
    (c.pc = .idle ∧ c.flag = true ∧ c' = { c with view := fun i => max (c.view i) (c.fview i), pc := .loaded } ∧ e = [.started]) ∨
    (c.pc = .idle ∧ c.flag = false ∧ c' = { c with view := fun i => max (c.view i) (c.fview i) } ∧ e = []) ∨
    (c.pc = .loaded ∧ c' = { c with flag := false, fview := fun i => if rmw then max (c.view i) (c.fview i) else c.view i, view := fun i => if rmw then max (c.view i) (c.fview i) else c.view i, pc := .reading 0 } ∧ e = [.cleared]) ∨
    (∃ i k v, c.pc = .reading i.val ∧ c.view i ≤ k ∧ (c.hist i)[k]? = some v ∧ c' = { c with view := Function.update c.view i k, pc := .reading (i.val + 1) } ∧ e = [.got i k v]) ∨
    (∃ i, c.pc = .reading i ∧ N ≤ i ∧ c' = { c with pc := .idle } ∧ e = [.ended]) := by
  cases a with
  | write i v =>
    simp only [step, Option.some.injEq, Prod.mk.injEq] at h
    exact .inl ⟨i, v, h.1.symm, h.2.symm⟩
  | mark =>
    simp only [step, Option.some.injEq, Prod.mk.injEq] at h
    exact .inr (.inl ⟨h.1.symm, h.2.symm⟩)
  | call =>
    unfold step at h
    simp only at h
    split at h
    · next hp =>
      split at h
      · next hf =>
        simp only [Option.some.injEq, Prod.mk.injEq] at h
        exact .inr (.inr (.inl ⟨hp, hf, h.1.symm, h.2.symm⟩))
      · next hf =>
        simp only [Option.some.injEq, Prod.mk.injEq] at h
        exact .inr (.inr (.inr (.inl ⟨hp, by simpa using hf, h.1.symm, h.2.symm⟩)))
    · cases h
  | cont k =>
    unfold step at h
    simp only at h
    split at h
    · cases h
    · next hp =>
      simp only [Option.some.injEq, Prod.mk.injEq] at h
      exact .inr (.inr (.inr (.inr (.inl ⟨hp, h.1.symm, h.2.symm⟩))))
    · next i hp =>
      split at h
      · next hi =>
        split at h
        · next hv =>
          split at h
          · next v hk =>
            simp only [Option.some.injEq, Prod.mk.injEq] at h
            exact .inr (.inr (.inr (.inr (.inr (.inl ⟨⟨i, hi⟩, k, v, hp, hv, hk, h.1.symm, h.2.symm⟩)))))
          · cases h
        · cases h
      · next hi =>
        simp only [Option.some.injEq, Prod.mk.injEq] at h
        exact .inr (.inr (.inr (.inr (.inr (.inr ⟨i, hp, by omega, h.1.symm, h.2.symm⟩)))))

/-- What holds in any case: the consumer's knowledge only grows. -/
theorem view_mono {rmw : Bool} {c c' : St N} {a : Act N} {e : List (Event N)} (h : step rmw c a = some (c', e)) (i : Fin N) : c.view i ≤ c'.view i := by
  rcases step_cases h with ⟨_, _, rfl, _⟩ | ⟨rfl, _⟩ | ⟨_, _, rfl, _⟩ | ⟨_, _, rfl, _⟩ | ⟨_, rfl, _⟩ | ⟨j, k, v, _, hk, _, rfl, _⟩ | ⟨_, _, _, rfl, _⟩
  · exact le_refl _
  · exact le_refl _
  · exact le_max_left _ _
  · exact le_max_left _ _
  · simp only; split
    · exact le_max_left _ _
    · exact le_refl _
  · simp only [Function.update_apply]
    split
    · next he => rw [he]; exact hk
    · exact le_refl _
  · exact le_refl _

/-- From a state on, a filter is given nothing older than what the consumer knows of. -/
theorem got_view {rmw : Bool} (l : List (Act N)) : ∀ (c c' : St N) (e1 e2 : List (Event N)) (i : Fin N) (k : Nat) (v : ℚ), run rmw c l = some (c', e1 ++ .got i k v :: e2) → c.view i ≤ k := by
  induction l with
  | nil => intro c c' e1 e2 i k v h; simp [run] at h
  | cons a l ih =>
    intro c c' e1 e2 i k v h
    obtain ⟨c1, d1, d2, hs, hr, he⟩ := run_cons h
    have hm := view_mono hs i
    have tail : ∀ x, e1 ++ .got i k v :: e2 = x :: d2 → (∀ k v, x ≠ .got i k v) → c.view i ≤ k := by
      intro x hx hne
      cases e1 with
      | nil => simp only [List.nil_append, List.cons.injEq] at hx; exact absurd hx.1.symm (hne k v)
      | cons y e1 =>
        simp only [List.cons_append, List.cons.injEq] at hx
        rw [← hx.2] at hr
        exact le_trans hm (ih c1 c' e1 e2 i k v hr)
    rcases step_cases hs with ⟨_, _, _, rfl⟩ | ⟨_, rfl⟩ | ⟨_, _, _, rfl⟩ | ⟨_, _, _, rfl⟩ | ⟨_, _, rfl⟩ | ⟨j, k', v', _, hk, _, hc1, rfl⟩ | ⟨_, _, _, _, rfl⟩
    · exact tail _ he (by simp)
    · exact tail _ he (by simp)
    · exact tail _ he (by simp)
    · rw [List.nil_append] at he
      rw [← he] at hr
      exact le_trans hm (ih c1 c' e1 e2 i k v hr)
    · exact tail _ he (by simp)
    · cases e1 with
      | nil =>
        simp only [List.nil_append, List.cons_append, List.cons.injEq, Event.got.injEq] at he
        obtain ⟨⟨rfl, rfl, rfl⟩, _⟩ := he
        exact hk
      | cons y e1 =>
        simp only [List.cons_append, List.nil_append, List.cons.injEq] at he
        rw [← he.2] at hr
        exact le_trans hm (ih c1 c' e1 e2 i k v hr)
    · exact tail _ he (by simp)

/-- Splits a run at an event. -/
theorem run_split {rmw : Bool} (l : List (Act N)) : ∀ (c c' : St N) (e1 e2 : List (Event N)) (x : Event N), run rmw c l = some (c', e1 ++ x :: e2) →
    ∃ l1 a l2 c1 c2, run rmw c l1 = some (c1, e1) ∧ step rmw c1 a = some (c2, [x]) ∧ run rmw c2 l2 = some (c', e2) := by
  induction l with
  | nil => intro c c' e1 e2 x h; simp [run] at h
  | cons a l ih =>
    intro c c' e1 e2 x h
    obtain ⟨c1, d1, d2, hs, hr, he⟩ := run_cons h
    have hd : d1 = [] ∨ ∃ y, d1 = [y] := by
      rcases step_cases hs with ⟨_, _, _, rfl⟩ | ⟨_, rfl⟩ | ⟨_, _, _, rfl⟩ | ⟨_, _, _, rfl⟩ | ⟨_, _, rfl⟩ | ⟨_, _, _, _, _, _, _, rfl⟩ | ⟨_, _, _, _, rfl⟩ <;> simp
    rcases hd with rfl | ⟨y, rfl⟩
    · rw [List.nil_append] at he
      rw [← he] at hr
      obtain ⟨l1, b, l2, s1, s2, h1, h2, h3⟩ := ih c1 c' e1 e2 x hr
      exact ⟨a :: l1, b, l2, s1, s2, by unfold run; rw [hs]; simp only; rw [h1]; rfl, h2, h3⟩
    · cases e1 with
      | nil =>
        simp only [List.nil_append, List.cons_append, List.cons.injEq] at he
        obtain ⟨rfl, rfl⟩ := he
        exact ⟨[], a, l, c, c1, rfl, hs, hr⟩
      | cons z e1 =>
        simp only [List.cons_append, List.nil_append, List.cons.injEq] at he
        obtain ⟨rfl, rfl⟩ := he
        obtain ⟨l1, b, l2, s1, s2, h1, h2, h3⟩ := ih c1 c' e1 e2 x hr
        exact ⟨a :: l1, b, l2, s1, s2, by unfold run; rw [hs]; simp only; rw [h1]; rfl, h2, h3⟩

/-- The bookkeeping invariant. -/
structure Inv (raw : Fin N → ℚ) (c : St N) (es : List (Event N)) : Prop where
  hist : ∀ i, c.hist i = raw i :: values i es
  written : ∀ i, (book es).written i = (values i es).length
  flag : c.flag = true → c.fview = (book es).marked
  loaded : c.pc = .loaded → c.flag = true

theorem values_append (i : Fin N) (a b : List (Event N)) : values i (a ++ b) = values i a ++ values i b := by
  induction a with
  | nil => rfl
  | cons e a ih =>
    cases e with
    | wrote j v => simp only [List.cons_append, values]; split <;> simp [ih]
    | marked => simpa [values] using ih
    | started => simpa [values] using ih
    | cleared => simpa [values] using ih
    | got j k v => simpa [values] using ih
    | ended => simpa [values] using ih

theorem book_append (a b : List (Event N)) : book (a ++ b) = b.foldl note (book a) := by
  unfold book; rw [List.foldl_append]

theorem inv_step {rmw : Bool} {raw : Fin N → ℚ} {c c' : St N} {a : Act N} {es e : List (Event N)} (hi : Inv raw c es) (h : step rmw c a = some (c', e)) : Inv raw c' (es ++ e) := by
  obtain ⟨h1, h2, h3, h4⟩ := hi
  rcases step_cases h with ⟨j, v, rfl, rfl⟩ | ⟨rfl, rfl⟩ | ⟨_, hf, rfl, rfl⟩ | ⟨_, _, rfl, rfl⟩ | ⟨_, rfl, rfl⟩ | ⟨j, k, v, _, hk, _, rfl, rfl⟩ | ⟨_, _, _, rfl, rfl⟩
  · refine ⟨fun i => ?_, fun i => ?_, ?_, h4⟩
    · rw [values_append]
      simp only [Function.update_apply, values]
      by_cases hij : i = j
      · subst hij; rw [if_pos rfl, if_pos rfl, h1]; simp
      · rw [if_neg hij, if_neg (Ne.symm hij), h1]; simp
    · rw [values_append, book_append]
      simp only [List.foldl, note, Function.update_apply, values]
      by_cases hij : i = j
      · subst hij; rw [if_pos rfl, if_pos rfl, h2]; simp
      · rw [if_neg hij, if_neg (Ne.symm hij), h2]; simp
    · rw [book_append]; exact h3
  · refine ⟨fun i => by rw [values_append]; simpa [values] using h1 i, fun i => by rw [values_append, book_append]; simpa [values, note] using h2 i, fun _ => ?_, fun _ => rfl⟩
    rw [book_append]
    funext i
    simp only [List.foldl, note]
    rw [h1, h2]; simp
  · exact ⟨fun i => by rw [values_append]; simpa [values] using h1 i, fun i => by rw [values_append, book_append]; simpa [values, note] using h2 i, fun hf => by rw [book_append]; exact h3 hf, fun _ => hf⟩
  · rw [List.append_nil]; exact ⟨h1, h2, h3, h4⟩
  · exact ⟨fun i => by rw [values_append]; simpa [values] using h1 i, fun i => by rw [values_append, book_append]; simpa [values, note] using h2 i, fun hf => by (cases hf), fun h => by (cases h)⟩
  · exact ⟨fun i => by rw [values_append]; simpa [values] using h1 i, fun i => by rw [values_append, book_append]; simpa [values, note] using h2 i, fun hf => by rw [book_append]; exact h3 hf, fun h => by (cases h)⟩
  · exact ⟨fun i => by rw [values_append]; simpa [values] using h1 i, fun i => by rw [values_append, book_append]; simpa [values, note] using h2 i, fun hf => by rw [book_append]; exact h3 hf, fun h => by (cases h)⟩

theorem inv_run {rmw : Bool} {raw : Fin N → ℚ} (l : List (Act N)) : ∀ (c c' : St N) (es e : List (Event N)), Inv raw c es → run rmw c l = some (c', e) → Inv raw c' (es ++ e) := by
  induction l with
  | nil => intro c c' es e hi h; cases h; simpa using hi
  | cons a l ih =>
    intro c c' es e hi h
    obtain ⟨c1, e1, e2, hs, hr, rfl⟩ := run_cons h
    rw [← List.append_assoc]
    exact ih c1 c' _ e2 (inv_step hi hs) hr

theorem inv_init (raw : Fin N → ℚ) : Inv raw (init raw) [] := ⟨fun _ => rfl, fun _ => rfl, fun h => by (cases h), fun h => by (cases h)⟩

/-- **C166**: a filter is only given values that were written to its channel (or the initial value): the `k`-th one. -/
theorem C166_value (rmw : Bool) (raw : Fin N → ℚ) (sched : List (Act N)) (c : St N) (e1 e2 : List (Event N)) (i : Fin N) (k : Nat) (v : ℚ)
    (h : run rmw (init raw) sched = some (c, e1 ++ .got i k v :: e2)) : (raw i :: values i e1)[k]? = some v := by
  obtain ⟨l1, a, l2, c1, c2, h1, h2, _⟩ := run_split sched _ c e1 e2 _ h
  have hi := inv_run l1 _ c1 [] e1 (inv_init raw) h1
  rw [List.nil_append] at hi
  rcases step_cases h2 with ⟨_, _, _, he⟩ | ⟨_, he⟩ | ⟨_, _, _, he⟩ | ⟨_, _, _, he⟩ | ⟨_, _, he⟩ | ⟨_, _, _, _, _, hv, _, he⟩ | ⟨_, _, _, _, he⟩
  all_goals cases he
  rw [← hi.hist]; exact hv

example := C166_value false (fun _ : Fin 2 => 0) [.write 0 1, .write 1 7, .mark, .call, .cont 0, .cont 1, .write 0 2, .mark, .cont 1, .cont 0, .call, .cont 0, .cont 2, .cont 1, .cont 0] _ [.wrote 0 1, .wrote 1 7, .marked, .started, .cleared] _ 0 1 1 rfl

/-- **C166**: the readings of a channel that are used never go back in time. -/
theorem C166_in_order (rmw : Bool) (raw : Fin N → ℚ) (sched : List (Act N)) (c : St N) (e1 e2 e3 : List (Event N)) (i : Fin N) (k k' : Nat) (v v' : ℚ)
    (h : run rmw (init raw) sched = some (c, e1 ++ .got i k v :: (e2 ++ .got i k' v' :: e3))) : k ≤ k' := by
  obtain ⟨l1, a, l2, c1, c2, h1, h2, h3⟩ := run_split sched _ c e1 _ _ h
  have := got_view l2 c2 c e2 e3 i k' v' h3
  rcases step_cases h2 with ⟨_, _, _, he⟩ | ⟨_, he⟩ | ⟨_, _, _, he⟩ | ⟨_, _, _, he⟩ | ⟨_, _, he⟩ | ⟨_, _, _, _, _, hv, hc2, he⟩ | ⟨_, _, _, _, he⟩
  all_goals cases he
  rw [hc2] at this
  simpa using this

example := C166_in_order false (fun _ : Fin 2 => 0) [.write 0 1, .write 1 7, .mark, .call, .cont 0, .cont 1, .write 0 2, .mark, .cont 1, .cont 0, .call, .cont 0, .cont 2, .cont 1, .cont 0] _ [.wrote 0 1, .wrote 1 7, .marked, .started, .cleared] [.wrote 0 2, .marked, .got 1 1 7, .ended, .started, .cleared] _ 0 1 2 1 2 rfl

/-- **C166**: a call that finds the flag set, and every later one, uses readings at least as recent as those announced before it looked at the flag. -/
theorem C166_recent (rmw : Bool) (raw : Fin N → ℚ) (sched : List (Act N)) (c : St N) (e1 e2 e3 : List (Event N)) (i : Fin N) (k : Nat) (v : ℚ)
    (h : run rmw (init raw) sched = some (c, e1 ++ .started :: (e2 ++ .got i k v :: e3))) : (book e1).marked i ≤ k := by
  obtain ⟨l1, a, l2, c1, c2, h1, h2, h3⟩ := run_split sched _ c e1 _ _ h
  have hi := inv_run l1 _ c1 [] e1 (inv_init raw) h1
  rw [List.nil_append] at hi
  have := got_view l2 c2 c e2 e3 i k v h3
  rcases step_cases h2 with ⟨_, _, _, he⟩ | ⟨_, he⟩ | ⟨_, hf, hc2, he⟩ | ⟨_, _, _, he⟩ | ⟨_, _, he⟩ | ⟨_, _, _, _, _, _, _, he⟩ | ⟨_, _, _, _, he⟩
  all_goals cases he
  rw [hc2] at this
  rw [← hi.flag hf]
  exact le_trans (le_max_right _ _) this

example := C166_recent false (fun _ : Fin 2 => 0) [.write 0 1, .write 1 7, .mark, .call, .cont 0, .cont 1, .write 0 2, .mark, .cont 1, .cont 0, .call, .cont 0, .cont 2, .cont 1, .cont 0] _ [.wrote 0 1, .wrote 1 7, .marked] [.cleared] _ 0 1 1 rfl

/-- The invariant behind `C166_not_lost_partial`. -/
structure Inv2 (rmw : Bool) (c : St N) (b : Book N) : Prop where
  loaded : c.pc = .loaded → rmw = false → ∀ i, b.marked i ≤ c.view i
  idle : c.pc = .idle → c.flag = true ∨ ∀ i, b.marked i ≤ b.used i
  reading : ∀ j, c.pc = .reading j → c.flag = true ∨ ((∀ i, b.marked i ≤ c.view i) ∧ ∀ i : Fin N, i.val < j → b.marked i ≤ b.used i)

theorem quiet_step {rmw : Bool} {c c' : St N} {a : Act N} {e e2 : List (Event N)} (h : step rmw c a = some (c', e)) (hq : quiet (decide (c.pc = .loaded)) (e ++ e2) = true) :
    (e = [.marked] → c.pc ≠ .loaded) ∧ quiet (decide (c'.pc = .loaded)) e2 = true := by
  rcases step_cases h with ⟨j, v, rfl, rfl⟩ | ⟨rfl, rfl⟩ | ⟨_, hf, rfl, rfl⟩ | ⟨_, _, rfl, rfl⟩ | ⟨_, rfl, rfl⟩ | ⟨j, k, v, hp, hk, _, rfl, rfl⟩ | ⟨_, hp, _, rfl, rfl⟩
  · exact ⟨by simp, hq⟩
  · simp only [List.cons_append, List.nil_append, quiet, Bool.and_eq_true, Bool.not_eq_true', decide_eq_false_iff_not] at hq
    exact ⟨fun _ => hq.1, hq.2⟩
  · exact ⟨by simp, by simpa [quiet] using hq⟩
  · exact ⟨by simp, hq⟩
  · exact ⟨by simp, by simpa [quiet] using hq⟩
  · exact ⟨by simp, by simpa [quiet, hp] using hq⟩
  · exact ⟨by simp, by simpa [quiet, hp] using hq⟩

theorem inv2_step {rmw : Bool} {raw : Fin N → ℚ} {c c' : St N} {a : Act N} {es e : List (Event N)} (hi : Inv raw c es) (h2 : Inv2 rmw c (book es)) (h : step rmw c a = some (c', e))
    (hq : rmw = false → e = [.marked] → c.pc ≠ .loaded) : Inv2 rmw c' (book (es ++ e)) := by
  obtain ⟨k1, k2, k3⟩ := h2
  rw [book_append]
  rcases step_cases h with ⟨j, v, rfl, rfl⟩ | ⟨rfl, rfl⟩ | ⟨_, hf, rfl, rfl⟩ | ⟨hp, hf, rfl, rfl⟩ | ⟨hp, rfl, rfl⟩ | ⟨j, k, v, hp, hk, _, rfl, rfl⟩ | ⟨j, hp, hj, rfl, rfl⟩
  · exact ⟨k1, k2, k3⟩
  · exact ⟨fun hl hr => absurd hl (hq hr rfl), fun _ => .inl rfl, fun _ _ => .inl rfl⟩
  · refine ⟨fun _ _ i => ?_, fun h => by (cases h), fun _ h => by (cases h)⟩
    simp only [List.foldl, note]
    rw [← hi.flag hf]; exact le_max_right _ _
  · exact ⟨fun h => by (simp only at h; rw [hp] at h; cases h), k2, fun j h => by (simp only at h; rw [hp] at h; cases h)⟩
  · refine ⟨fun h => by (cases h), fun h => by (cases h), fun j h => .inr ⟨fun i => ?_, fun i hij => by (cases h; omega)⟩⟩
    simp only [List.foldl, note]
    cases hr : rmw with
    | false => simpa [hr] using k1 hp hr i
    | true =>
      simp only [if_true]
      rw [← hi.flag (hi.loaded hp)]; exact le_max_right _ _
  · refine ⟨fun h => by (cases h), fun h => by (cases h), fun j' h => ?_⟩
    cases h
    rcases k3 _ hp with hr | ⟨hr1, hr2⟩
    · exact .inl hr
    · refine .inr ⟨fun i => ?_, fun i hij => ?_⟩
      · simp only [List.foldl, note, Function.update_apply]
        split
        · next he => rw [he]; exact le_trans (hr1 j) hk
        · exact hr1 i
      · simp only [List.foldl, note, Function.update_apply]
        split
        · next he => rw [he]; exact le_trans (hr1 j) hk
        · next hne =>
          refine hr2 i ?_
          have : i.val ≠ j.val := fun h => hne (Fin.ext h)
          omega
  · refine ⟨fun h => by (cases h), fun _ => ?_, fun _ h => by (cases h)⟩
    rcases k3 _ hp with hr | ⟨_, hr2⟩
    · exact .inl hr
    · exact .inr fun i => hr2 i (by have := i.isLt; omega)

theorem inv2_run {rmw : Bool} {raw : Fin N → ℚ} (l : List (Act N)) : ∀ (c c' : St N) (es e : List (Event N)), Inv raw c es → Inv2 rmw c (book es) → run rmw c l = some (c', e) →
    (rmw = true ∨ quiet (decide (c.pc = .loaded)) e = true) → Inv2 rmw c' (book (es ++ e)) := by
  induction l with
  | nil => intro c c' es e _ h2 h _; cases h; simpa using h2
  | cons a l ih =>
    intro c c' es e hi h2 h hq
    obtain ⟨c1, e1, e2, hs, hr, rfl⟩ := run_cons h
    rw [← List.append_assoc]
    refine ih c1 c' _ e2 (inv_step hi hs) (inv2_step hi h2 hs ?_) hr ?_
    · rintro hf
      rcases hq with hq | hq
      · rw [hf] at hq; cases hq
      · exact (quiet_step hs hq).1
    · rcases hq with hq | hq
      · exact .inl hq
      · exact .inr (quiet_step hs hq).2

/-- **C166**: if mark_new_data_ready() is never called between the load of the flag by a call of add_new_readings() and the store that clears it, no announcement is lost: whenever the consumer is outside the function, the flag is set
or every filter has been given a reading at least as recent as the last announced one. The same holds without this condition if the flag is cleared by an exchange (`rmw = true`, not what the code does). -/
theorem C166_not_lost_partial (rmw : Bool) (raw : Fin N → ℚ) (sched : List (Act N)) (c : St N) (es : List (Event N)) (h : run rmw (init raw) sched = some (c, es)) (hq : rmw = true ∨ quiet false es = true) (hp : c.pc = .idle) :
    c.flag = true ∨ ∀ i, (book es).marked i ≤ (book es).used i := by
  have := inv2_run (rmw := rmw) (raw := raw) sched (init raw) c [] es (inv_init raw) ⟨fun h => by (cases h), fun _ => .inr fun _ => le_refl _, fun _ h => by (cases h)⟩ h hq
  rw [List.nil_append] at this
  exact this.idle hp

example := C166_not_lost_partial false (fun _ : Fin 2 => 0) [.write 0 1, .write 1 7, .mark, .call, .cont 0, .cont 1, .write 0 2, .mark, .cont 1, .cont 0, .call, .cont 0, .cont 2, .cont 1, .cont 0] _ _ rfl (.inr rfl) rfl

/-- C166 fails as the code is: the second reading, announced after the call has seen the first announcement and before it clears the flag, is lost: the flag is clear, the filter has the first reading, and nothing more is coming. -/
theorem C166_not_lost_violated : ∃ c es, run false (init fun _ : Fin 1 => 0) [.write 0 1, .mark, .call, .write 0 2, .mark, .cont 0, .cont 1, .cont 0] = some (c, es) ∧
    c.pc = .idle ∧ c.flag = false ∧ (book es).used 0 = 1 ∧ (book es).marked 0 = 2 := ⟨_, _, rfl, rfl, rfl, rfl, rfl⟩

/-- Something to read is always known of. -/
def Bounded (c : St N) : Prop := ∀ i, c.view i < (c.hist i).length ∧ c.fview i < (c.hist i).length

theorem bounded_step {rmw : Bool} {c c' : St N} {a : Act N} {e : List (Event N)} (hb : Bounded c) (h : step rmw c a = some (c', e)) : Bounded c' := by
  intro i
  obtain ⟨b1, b2⟩ := hb i
  rcases step_cases h with ⟨j, v, rfl, rfl⟩ | ⟨rfl, rfl⟩ | ⟨_, hf, rfl, rfl⟩ | ⟨hp, hf, rfl, rfl⟩ | ⟨hp, rfl, rfl⟩ | ⟨j, k, v, hp, hk, hv, rfl, rfl⟩ | ⟨j, hp, hj, rfl, rfl⟩
  · simp only [Function.update_apply]
    split
    · next he => subst he; simp; omega
    · exact ⟨b1, b2⟩
  · exact ⟨b1, by simp only; omega⟩
  · exact ⟨by simp only; omega, b2⟩
  · exact ⟨by simp only; omega, b2⟩
  · simp only
    split <;> omega
  · simp only [Function.update_apply]
    refine ⟨?_, b2⟩
    split
    · next he => subst he; exact (List.getElem?_eq_some_iff.mp hv).1
    · exact b1
  · exact ⟨b1, b2⟩

theorem bounded_run {rmw : Bool} (l : List (Act N)) : ∀ (c c' : St N) (es : List (Event N)), Bounded c → run rmw c l = some (c', es) → Bounded c' := by
  induction l with
  | nil => intro c c' es hb h; cases h; exact hb
  | cons a l ih =>
    intro c c' es hb h
    obtain ⟨c1, e1, e2, hs, hr, rfl⟩ := run_cons h
    exact ih c1 c' e2 (bounded_step hb hs) hr

/-- the rest of a call that sees nothing newer than what it has seen -/
theorem stale_rest (m : Nat) : ∀ (i : Nat) (c : St N), i + m = N → c.pc = .reading i → Bounded c →
    ∃ l c' es, run false c l = some (c', es) ∧ (∀ a ∈ l, ∃ k, a = .cont k) ∧ c'.pc = .idle ∧ c'.flag = c.flag ∧
      ∀ b : Book N, (es.foldl note b).marked = b.marked ∧ (∀ j : Fin N, i ≤ j.val → (es.foldl note b).used j = c.view j) ∧ ∀ j : Fin N, j.val < i → (es.foldl note b).used j = b.used j := by
  induction m with
  | zero =>
    intro i c hi hp hb
    refine ⟨[.cont 0], { c with pc := .idle }, [.ended], by unfold run step; simp only [hp, dif_neg (show ¬ i < N by omega)]; rfl, by simp, rfl, rfl, fun b => ⟨rfl, fun j hj => by omega, fun j _ => rfl⟩⟩
  | succ m ih =>
    intro i c hi hp hb
    have hlt : i < N := by omega
    have hv := (hb ⟨i, hlt⟩).1
    have hs : step false c (.cont (c.view ⟨i, hlt⟩)) = some ({ c with pc := .reading (i + 1) }, [.got ⟨i, hlt⟩ (c.view ⟨i, hlt⟩) (c.hist ⟨i, hlt⟩)[c.view ⟨i, hlt⟩]]) := by
      unfold step
      simp only [hp, dif_pos hlt, le_refl, if_true, List.getElem?_eq_getElem hv, Function.update_eq_self]
    obtain ⟨l, c', es, h1, h2, h3, h4, h5⟩ := ih (i + 1) { c with pc := .reading (i + 1) } (by omega) rfl hb
    refine ⟨.cont (c.view ⟨i, hlt⟩) :: l, c', _, by unfold run; rw [hs]; simp only [h1]; rfl, ?_, h3, h4, fun b => ?_⟩
    · intro a ha
      rcases List.mem_cons.mp ha with rfl | ha
      · exact ⟨_, rfl⟩
      · exact h2 a ha
    · obtain ⟨g1, g2, g3⟩ := h5 (note b (.got ⟨i, hlt⟩ (c.view ⟨i, hlt⟩) (c.hist ⟨i, hlt⟩)[c.view ⟨i, hlt⟩]))
      refine ⟨by rw [List.cons_append, List.nil_append, List.foldl_cons, g1]; rfl, fun j hj => ?_, fun j hj => ?_⟩
      · rw [List.cons_append, List.nil_append, List.foldl_cons]
        by_cases hij : i + 1 ≤ j.val
        · exact g2 j hij
        · have : j = ⟨i, hlt⟩ := Fin.ext (by simp only; omega)
          subst this
          rw [g3 _ (by simp only; omega)]
          simp [note]
      · rw [List.cons_append, List.nil_append, List.foldl_cons, g3 j (by omega)]
        simp only [note, Function.update_apply]
        rw [if_neg (by intro h; rw [h] at hj; simp at hj)]

/-- **C166 fails at each such moment**: whenever a call of add_new_readings() has loaded the flag and not yet cleared it, in every reachable state, a reading written and announced now to any channel can be lost: the memory system may let the call finish with the values it has
seen already; then the flag is clear and the filter of the channel has an older reading than the one announced. -/
theorem C166_each_window_violated (raw : Fin N → ℚ) (sched : List (Act N)) (c : St N) (es : List (Event N)) (h : run false (init raw) sched = some (c, es)) (hp : c.pc = .loaded) (i : Fin N) (v : ℚ) :
    ∃ l c' es', run false c (.write i v :: .mark :: l) = some (c', es') ∧ (∀ a ∈ l, ∃ k, a = .cont k) ∧ c'.pc = .idle ∧ c'.flag = false ∧ (book (es ++ es')).used i < (book (es ++ es')).marked i := by
  have hb := bounded_run sched _ c es (fun i => ⟨by simp [init], by simp [init]⟩) h
  have hi := inv_run sched (init raw) c [] es (inv_init raw) h
  rw [List.nil_append] at hi
  obtain ⟨c1, hc1⟩ : ∃ c1 : St N, c1 = { c with hist := Function.update c.hist i (c.hist i ++ [v]), flag := false, fview := c.view, pc := .reading 0 } := ⟨_, rfl⟩
  have hr : ∀ l, run false c (.write i v :: .mark :: .cont 0 :: l) = (run false c1 l).map fun r => (r.1, [.wrote i v, .marked, .cleared] ++ r.2) := by
    intro l
    rw [hc1]
    simp only [run, step, hp, Bool.false_eq_true, if_false]
    cases run false { c with hist := Function.update c.hist i (c.hist i ++ [v]), flag := false, fview := c.view, pc := .reading 0 } l <;> rfl
  have hb1 : Bounded c1 := by
    intro j
    have := (hb j).1
    rw [hc1]
    simp only [Function.update_apply]
    by_cases hij : j = i
    · subst hij; simp; omega
    · rw [if_neg hij]; exact ⟨this, this⟩
  obtain ⟨l, c', es1, h1, h2, h3, h4, h5⟩ := stale_rest N 0 c1 (by omega) (by rw [hc1]) hb1
  refine ⟨.cont 0 :: l, c', _, by rw [hr, h1]; rfl, ?_, h3, by rw [h4, hc1], ?_⟩
  · intro a ha
    rcases List.mem_cons.mp ha with rfl | ha
    · exact ⟨_, rfl⟩
    · exact h2 a ha
  · rw [book_append, List.foldl_append]
    obtain ⟨g1, g2, _⟩ := h5 (List.foldl note (book es) [.wrote i v, .marked, .cleared])
    rw [g1, g2 i (Nat.zero_le _), hc1]
    have hw := hi.written i
    have hl := (hb i).1
    rw [hi.hist i, List.length_cons] at hl
    simp only [List.foldl, note, Function.update_self]
    omega

example := C166_each_window_violated (fun _ : Fin 2 => 0) [.write 0 1, .mark, .call] _ _ rfl rfl 1 7

/-- **C166**: the call never gets stuck: in every reachable state inside add_new_readings() a next step is possible, whatever the producer does. -/
theorem C166_progress (rmw : Bool) (raw : Fin N → ℚ) (sched : List (Act N)) (c : St N) (es : List (Event N)) (h : run rmw (init raw) sched = some (c, es)) (hp : c.pc ≠ .idle) :
    ∃ k c' e, step rmw c (.cont k) = some (c', e) := by
  have gen : ∀ (l : List (Act N)) (c c' : St N) (es : List (Event N)), Bounded c → run rmw c l = some (c', es) → Bounded c' := by
    intro l
    induction l with
    | nil => intro c c' es hb h; cases h; exact hb
    | cons a l ih =>
      intro c c' es hb h
      obtain ⟨c1, e1, e2, hs, hr, rfl⟩ := run_cons h
      exact ih c1 c' e2 (bounded_step hb hs) hr
  have hb := gen sched _ c es (fun i => ⟨by simp [init], by simp [init]⟩) h
  cases hc : c.pc with
  | idle => exact absurd hc hp
  | loaded => refine ⟨0, ?_⟩; unfold step; simp [hc]
  | reading i =>
    by_cases hi : i < N
    · refine ⟨c.view ⟨i, hi⟩, ?_⟩
      unfold step
      simp only [hc, dif_pos hi, le_refl, if_true, List.getElem?_eq_getElem (hb ⟨i, hi⟩).1]
      exact ⟨_, _, rfl⟩
    · refine ⟨0, ?_⟩; unfold step; simp [hc, hi]

/-- a quiet run: two announcements, the second during the loop, found by the second call -/
example : ∃ c es, run false (init fun _ : Fin 2 => 0) [.write 0 1, .write 1 7, .mark, .call, .cont 0, .cont 1, .write 0 2, .mark, .cont 1, .cont 0, .call, .cont 0, .cont 2, .cont 1, .cont 0] = some (c, es) ∧
    quiet false es = true ∧ c.pc = .idle ∧ c.flag = false ∧ (book es).used 0 = 2 ∧ (book es).marked 0 = 2 := ⟨_, _, rfl, rfl, rfl, rfl, rfl, rfl⟩

/-- with an exchange the second reading has to be used -/
example : run true (init fun _ : Fin 1 => 0) [.write 0 1, .mark, .call, .write 0 2, .mark, .cont 0, .cont 1] = none := rfl
example : ∃ c es, run true (init fun _ : Fin 1 => 0) [.write 0 1, .mark, .call, .write 0 2, .mark, .cont 0, .cont 2, .cont 0] = some (c, es) ∧ (book es).used 0 = 2 := ⟨_, _, rfl, rfl⟩

end FiltWeak
