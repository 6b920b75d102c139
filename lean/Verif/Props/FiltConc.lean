import Verif.Spec.FiltConc
import Mathlib.Data.List.FinRange
/-! # Property C165: readings that arrive during add_new_readings() are not lost -/

namespace FiltConc
open Spec
variable {N : Nat} {φ : Type}

theorem run_cons {addVal : φ → ℚ → φ × ℚ} {c c' : Cfg N φ} {a : Act N} {l : List (Act N)} {es : List (Event N)} (h : run addVal c (a :: l) = some (c', es)) :
    ∃ c1 e1 e2, step addVal c a = some (c1, e1) ∧ run addVal c1 l = some (c', e2) ∧ es = e1 ++ e2 := by
  unfold run at h
  split at h
  · cases h
  · next c1 e1 hs =>
    split at h
    · cases h
    · next c2 e2 hr =>
      cases h
      exact ⟨c1, e1, e2, hs, hr, rfl⟩

/-- The invariant, with the books `b`. -/
structure Inv (c : Cfg N φ) (b : Book N) : Prop where
  order : ∀ i, b.marked i ≤ b.written i
  loaded : c.pc = .loaded → c.arr.ready = true
  idle : c.pc = .idle → c.arr.ready = true ∨ ∀ i, b.marked i ≤ b.used i
  reading : ∀ j, c.pc = .reading j → c.arr.ready = true ∨ ∀ i : Fin N, i.val < j → b.marked i ≤ b.used i

theorem inv_step (addVal : φ → ℚ → φ × ℚ) (c c' : Cfg N φ) (a : Act N) (e : List (Event N)) (b : Book N) (hi : Inv c b) (hs : step addVal c a = some (c', e)) : Inv c' (e.foldl note b) := by
  obtain ⟨h1, h2, h3, h4⟩ := hi
  cases a with
  | write i v =>
    simp only [step, Option.some.injEq, Prod.mk.injEq] at hs
    obtain ⟨rfl, rfl⟩ := hs
    refine ⟨fun j => ?_, h2, h3, h4⟩
    simp only [List.foldl, note, Function.update_apply]
    split
    · next e => rw [e]; exact le_trans (h1 i) (Nat.le_succ _)
    · exact h1 j
  | mark =>
    simp only [step, Option.some.injEq, Prod.mk.injEq] at hs
    obtain ⟨rfl, rfl⟩ := hs
    exact ⟨fun j => le_refl _, fun _ => rfl, fun _ => .inl rfl, fun _ _ => .inl rfl⟩
  | call =>
    unfold step at hs
    simp only at hs
    split at hs
    · next hp =>
      simp only [Option.some.injEq, Prod.mk.injEq] at hs
      obtain ⟨rfl, rfl⟩ := hs
      by_cases hr : c.arr.ready = true
      · rw [if_pos hr]
        exact ⟨h1, fun _ => hr, fun h => by (cases h), fun _ h => by (cases h)⟩
      · rw [if_neg hr]
        exact ⟨h1, h2, h3, h4⟩
    · cases hs
  | get =>
    unfold step at hs
    simp only at hs
    split at hs
    · next hp =>
      simp only [Option.some.injEq, Prod.mk.injEq] at hs
      obtain ⟨rfl, rfl⟩ := hs
      exact ⟨h1, h2, h3, h4⟩
    · cases hs
  | cont =>
    unfold step at hs
    simp only at hs
    split at hs
    · cases hs
    · next hp =>
      simp only [Option.some.injEq, Prod.mk.injEq] at hs
      obtain ⟨rfl, rfl⟩ := hs
      exact ⟨h1, fun h => by (cases h), fun h => by (cases h), fun j h => .inr fun i hij => by (cases h; omega)⟩
    · next j hp =>
      split at hs
      · next hj =>
        simp only [Option.some.injEq, Prod.mk.injEq] at hs
        obtain ⟨rfl, rfl⟩ := hs
        refine ⟨h1, fun h => by (cases h), fun h => by (cases h), fun k h => ?_⟩
        cases h
        rcases h4 j hp with hr | hr
        · exact .inl hr
        · refine .inr fun i hij => ?_
          simp only [List.foldl, note, Function.update_apply]
          split
          · next he => rw [he]; exact h1 _
          · next hne =>
            refine hr i ?_
            have : i.val ≠ j := fun h => hne (Fin.ext h)
            omega
      · next hj =>
        simp only [Option.some.injEq, Prod.mk.injEq] at hs
        obtain ⟨rfl, rfl⟩ := hs
        refine ⟨h1, fun h => by (cases h), fun _ => ?_, fun k h => by (cases h)⟩
        rcases h4 j hp with hr | hr
        · exact .inl hr
        · exact .inr fun i => hr i (by omega)

theorem inv_run (addVal : φ → ℚ → φ × ℚ) (l : List (Act N)) : ∀ (c c' : Cfg N φ) (es : List (Event N)) (b : Book N), Inv c b → run addVal c l = some (c', es) → Inv c' (es.foldl note b) := by
  induction l with
  | nil => intro c c' es b hi h; cases h; exact hi
  | cons a l ih =>
    intro c c' es b hi h
    obtain ⟨c1, e1, e2, hs, hr, rfl⟩ := run_cons h
    rw [List.foldl_append]
    exact ih c1 c' e2 _ (inv_step addVal c c1 a e1 b hi hs) hr

theorem inv_init (f : φ) (raw : Fin N → ℚ) : Inv (init f raw) start :=
  ⟨fun _ => le_refl _, fun h => by (cases h), fun _ => .inr fun _ => le_refl _, fun _ h => by (cases h)⟩

/-- **C165**: in every interleaving, whenever the consumer is outside add_new_readings(), either the next call will find the flag set, or for every channel the filter has been given a reading at least as recent as
the last one announced by mark_new_data_ready(). No announcement is lost, also if it comes during a call. -/
theorem C165_not_lost (addVal : φ → ℚ → φ × ℚ) (f : φ) (raw : Fin N → ℚ) (sched : List (Act N)) (c : Cfg N φ) (es : List (Event N)) (h : run addVal (init f raw) sched = some (c, es)) (hp : c.pc = .idle) :
    c.arr.ready = true ∨ ∀ i, (book es).marked i ≤ (book es).used i :=
  (inv_run addVal sched _ c es start (inv_init f raw) h).idle hp

example := C165_not_lost (fun (_ : Unit) x => ((), x)) () (fun _ : Fin 1 => 0) [.write 0 1, .mark, .call, .write 0 2, .mark, .cont, .cont, .write 0 3, .mark, .cont] _ _ rfl rfl

/-- **C165**: a filter is always given the value written last to its channel. -/
theorem C165_value (addVal : φ → ℚ → φ × ℚ) (f : φ) (raw : Fin N → ℚ) (sched : List (Act N)) (c : Cfg N φ) (e1 e2 : List (Event N)) (i : Fin N) (v : ℚ)
    (h : run addVal (init f raw) sched = some (c, e1 ++ .got i v :: e2)) : v = last (raw i) i e1 := by
  have gen : ∀ (l : List (Act N)) (c c' : Cfg N φ) (es e1 e2 : List (Event N)), run addVal c l = some (c', es) → es = e1 ++ .got i v :: e2 → v = last (c.raw i) i e1 := by
    intro l
    induction l with
    | nil => intro c c' es e1 e2 h he; cases h; cases e1 <;> cases he
    | cons a l ih =>
      intro c c' es e1 e2 h he
      obtain ⟨c1, d1, d2, hs, hr, rfl⟩ := run_cons h
      cases a with
      | write j w =>
        simp only [step, Option.some.injEq, Prod.mk.injEq] at hs
        obtain ⟨rfl, rfl⟩ := hs
        cases e1 with
        | nil => cases he
        | cons x e1 =>
          simp only [List.cons_append, List.nil_append, List.cons.injEq] at he
          obtain ⟨rfl, he⟩ := he
          have := ih _ _ _ _ _ hr he
          rw [this]
          simp only [last, Function.update_apply]
          by_cases hij : i = j
          · rw [if_pos hij, if_pos hij.symm]
          · rw [if_neg hij, if_neg (Ne.symm hij)]
      | mark =>
        simp only [step, Option.some.injEq, Prod.mk.injEq] at hs
        obtain ⟨rfl, rfl⟩ := hs
        cases e1 with
        | nil => cases he
        | cons x e1 =>
          simp only [List.cons_append, List.nil_append, List.cons.injEq] at he
          obtain ⟨rfl, he⟩ := he
          exact (ih _ _ _ _ _ hr he :)
      | call =>
        unfold step at hs
        simp only at hs
        split at hs
        · simp only [Option.some.injEq, Prod.mk.injEq] at hs
          obtain ⟨rfl, rfl⟩ := hs
          have := ih _ _ _ _ _ hr he
          rw [this]
          split <;> rfl
        · cases hs
      | get =>
        unfold step at hs
        simp only at hs
        split at hs
        · simp only [Option.some.injEq, Prod.mk.injEq] at hs
          obtain ⟨rfl, rfl⟩ := hs
          exact (ih _ _ _ _ _ hr he :)
        · cases hs
      | cont =>
        unfold step at hs
        simp only at hs
        split at hs
        · cases hs
        · simp only [Option.some.injEq, Prod.mk.injEq] at hs
          obtain ⟨rfl, rfl⟩ := hs
          exact (ih _ _ _ _ _ hr he :)
        · next j hp =>
          split at hs
          · next hj =>
            simp only [Option.some.injEq, Prod.mk.injEq] at hs
            obtain ⟨rfl, rfl⟩ := hs
            cases e1 with
            | nil =>
              simp only [List.cons_append, List.nil_append, List.cons.injEq, Event.got.injEq] at he
              obtain ⟨⟨rfl, rfl⟩, _⟩ := he
              rfl
            | cons x e1 =>
              simp only [List.cons_append, List.nil_append, List.cons.injEq] at he
              obtain ⟨rfl, he⟩ := he
              exact (ih _ _ _ _ _ hr he :)
          · simp only [Option.some.injEq, Prod.mk.injEq] at hs
            obtain ⟨rfl, rfl⟩ := hs
            cases e1 with
            | nil => cases he
            | cons x e1 =>
              simp only [List.cons_append, List.nil_append, List.cons.injEq] at he
              obtain ⟨rfl, he⟩ := he
              exact (ih _ _ _ _ _ hr he :)
  exact gen sched _ c _ e1 e2 h rfl

example := C165_value (fun (_ : Unit) x => ((), x)) () (fun _ : Fin 1 => 0) [.write 0 1, .mark, .call, .write 0 2, .mark, .cont, .cont, .write 0 3, .mark, .cont] _ [.wrote 0 1, .marked, .wrote 0 2, .marked] _ 0 2 rfl

/-- **C165**: readings are used at most once per announcement: there are no more calls of add_new_readings() that use readings than calls of mark_new_data_ready(). -/
theorem C165_at_most_once (addVal : φ → ℚ → φ × ℚ) (f : φ) (raw : Fin N → ℚ) (sched : List (Act N)) (c : Cfg N φ) (es : List (Event N)) (h : run addVal (init f raw) sched = some (c, es)) :
    (es.filter isEnd).length ≤ (es.filter isMark).length := by
  have gen : ∀ (l : List (Act N)) (c c' : Cfg N φ) (es : List (Event N)) (k m : Nat), (c.pc = .loaded → c.arr.ready = true) →
      k + (if c.arr.ready then 1 else 0) + (match c.pc with | .reading _ => 1 | _ => 0) ≤ m → run addVal c l = some (c', es) →
      k + (es.filter isEnd).length ≤ m + (es.filter isMark).length := by
    intro l
    induction l with
    | nil => intro c c' es k m _ hk h; cases h; simp; omega
    | cons a l ih =>
      intro c c' es k m hl hk h
      obtain ⟨c1, d1, d2, hs, hr, rfl⟩ := run_cons h
      cases a with
      | write j w =>
        simp only [step, Option.some.injEq, Prod.mk.injEq] at hs
        obtain ⟨rfl, rfl⟩ := hs
        refine (ih _ _ _ k m ?_ ?_ hr :)
        · exact hl
        · exact hk
      | mark =>
        simp only [step, Option.some.injEq, Prod.mk.injEq] at hs
        obtain ⟨rfl, rfl⟩ := hs
        have := ih _ _ _ k (m + 1) (fun _ => rfl) (by
          simp only [FilteredInterp.mark, if_true]
          omega) hr
        simp only [List.cons_append, List.nil_append, List.filter_cons, isEnd, isMark, if_true, List.length_cons, Bool.false_eq_true, if_false]
        omega
      | call =>
        unfold step at hs
        simp only at hs
        split at hs
        · next hp =>
          simp only [Option.some.injEq, Prod.mk.injEq] at hs
          obtain ⟨rfl, rfl⟩ := hs
          by_cases hrd : c.arr.ready = true
          · rw [if_pos hrd] at hr
            refine (ih _ _ d2 k m ?_ ?_ hr :)
            · exact fun _ => hrd
            rw [hp] at hk
            exact hk
          · rw [if_neg hrd] at hr
            refine (ih _ _ _ k m ?_ ?_ hr :)
            · exact hl
            · exact hk
        · cases hs
      | get =>
        unfold step at hs
        simp only at hs
        split at hs
        · simp only [Option.some.injEq, Prod.mk.injEq] at hs
          obtain ⟨rfl, rfl⟩ := hs
          refine (ih _ _ _ k m ?_ ?_ hr :)
          · exact hl
          · exact hk
        · cases hs
      | cont =>
        unfold step at hs
        simp only at hs
        split at hs
        · cases hs
        · next hp =>
          simp only [Option.some.injEq, Prod.mk.injEq] at hs
          obtain ⟨rfl, rfl⟩ := hs
          refine ih _ _ _ k m (fun h => by cases h) ?_ hr
          rw [hl hp, hp] at hk
          simp only [if_true, Bool.false_eq_true, if_false] at hk ⊢
          omega
        · next j hp =>
          rw [hp] at hk
          split at hs
          · simp only [Option.some.injEq, Prod.mk.injEq] at hs
            obtain ⟨rfl, rfl⟩ := hs
            exact (ih _ _ _ k m (fun h => by cases h) hk hr :)
          · simp only [Option.some.injEq, Prod.mk.injEq] at hs
            obtain ⟨rfl, rfl⟩ := hs
            have := ih _ _ _ (k + 1) m (fun h => by cases h) (by simp only at hk ⊢; omega) hr
            simp only [List.cons_append, List.nil_append, List.filter_cons, isEnd, isMark, if_true, List.length_cons, Bool.false_eq_true, if_false]
            omega
  have := gen sched _ c es 0 0 (fun h => by cases h) (by simp [init, FilteredInterp.init]) h
  omega

example := C165_at_most_once (fun (_ : Unit) x => ((), x)) () (fun _ : Fin 1 => 0) [.write 0 1, .mark, .call, .write 0 2, .mark, .cont, .cont, .write 0 3, .mark, .cont] _ _ rfl

theorem written_mono (addVal : φ → ℚ → φ × ℚ) (c c' : Cfg N φ) (a : Act N) (e : List (Event N)) (b : Book N) (hp : isProducer a = true) (hs : step addVal c a = some (c', e)) :
    Same c'.arr c.arr ∧ c'.pc = c.pc ∧ gots e = [] ∧ (e.foldl note b).used = b.used ∧ ∀ i, b.written i ≤ (e.foldl note b).written i := by
  cases a with
  | write i v =>
    simp only [step, Option.some.injEq, Prod.mk.injEq] at hs
    obtain ⟨rfl, rfl⟩ := hs
    refine ⟨⟨rfl, rfl, rfl, rfl⟩, rfl, rfl, rfl, fun j => ?_⟩
    simp only [List.foldl, note, Function.update_apply]
    split
    · next e => rw [e]; exact Nat.le_succ _
    · exact le_refl _
  | mark =>
    simp only [step, Option.some.injEq, Prod.mk.injEq] at hs
    obtain ⟨rfl, rfl⟩ := hs
    exact ⟨⟨rfl, rfl, rfl, rfl⟩, rfl, rfl, rfl, fun j => le_refl _⟩
  | call => cases hp
  | cont => cases hp
  | get => cases hp

theorem producer_step (addVal : φ → ℚ → φ × ℚ) (c : Cfg N φ) (a : Act N) (hp : isProducer a = true) : ∃ c' e, step addVal c a = some (c', e) := by
  cases a with
  | write i v => exact ⟨_, _, rfl⟩
  | mark => exact ⟨_, _, rfl⟩
  | call => cases hp
  | cont => cases hp
  | get => cases hp

theorem gots_append (a b : List (Event N)) : gots (a ++ b) = gots a ++ gots b := by
  induction a with
  | nil => rfl
  | cons e l ih => cases e <;> simp [gots, ih]

theorem run_step {addVal : φ → ℚ → φ × ℚ} {c c1 c2 : Cfg N φ} {a : Act N} {l : List (Act N)} {e1 e2 : List (Event N)} (h1 : step addVal c a = some (c1, e1)) (h2 : run addVal c1 l = some (c2, e2)) :
    run addVal c (a :: l) = some (c2, e1 ++ e2) := by
  unfold run; rw [h1]; simp only; rw [h2]

theorem idle_run (addVal : φ → ℚ → φ × ℚ) (l : List (Act N)) (hl : ∀ a ∈ l, isProducer a = true) : ∀ (c : Cfg N φ) (b : Book N), ∃ c' es, run addVal c l = some (c', es) ∧ Same c'.arr c.arr ∧ c'.pc = c.pc ∧ gots es = [] ∧
    (es.foldl note b).used = b.used := by
  induction l with
  | nil => intro c b; exact ⟨c, [], rfl, ⟨rfl, rfl, rfl, rfl⟩, rfl, rfl, rfl⟩
  | cons a l ih =>
    intro c b
    obtain ⟨c1, e1, hs⟩ := producer_step addVal c a (hl a List.mem_cons_self)
    obtain ⟨s1, p1, g1, u1, _⟩ := written_mono addVal c c1 a e1 b (hl a List.mem_cons_self) hs
    obtain ⟨c2, e2, r2, s2, p2, g2, u2⟩ := ih (fun x hx => hl x (List.mem_cons_of_mem _ hx)) c1 (e1.foldl note b)
    refine ⟨c2, e1 ++ e2, run_step hs r2, ⟨s2.1.trans s1.1, s2.2.1.trans s1.2.1, s2.2.2.1.trans s1.2.2.1, s2.2.2.2.trans s1.2.2.2⟩, p2.trans p1, by rw [gots_append, g1, g2]; rfl, ?_⟩
    rw [List.foldl_append, u2, u1]

/-- the rest of a call from the `j`-th turn of the loop on -/
theorem reading_run (addVal : φ → ℚ → φ × ℚ) (l : List (Act N)) : ∀ (c : Cfg N φ) (b : Book N) (j : Nat), c.pc = .reading j → j ≤ N → (∀ a ∈ l, isProducer a = true ∨ a = .cont) → (l.filter isCont).length = N + 1 - j →
    ∃ c' es, ∃ r : Fin N → ℚ, run addVal c l = some (c', es) ∧ c'.pc = .idle ∧ gots es = ((List.finRange N).drop j).map (fun i => (i, r i)) ∧ c'.arr.count = 0 ∧ c'.arr.num = c.arr.num ∧
      (∀ i : Fin N, j ≤ i.val → c'.arr.interps i = (c.arr.interps i).setNew (addVal (c.arr.filters i) (r i)).2 c.arr.num ∧ c'.arr.filters i = (addVal (c.arr.filters i) (r i)).1 ∧ b.written i ≤ (es.foldl note b).used i) ∧
      (∀ i : Fin N, i.val < j → c'.arr.interps i = c.arr.interps i ∧ c'.arr.filters i = c.arr.filters i ∧ (es.foldl note b).used i = b.used i) := by
  induction l with
  | nil => intro c b j _ hj _ hc; simp at hc; omega
  | cons a l ih =>
    intro c b j hp hj hl hc
    have hl' : ∀ x ∈ l, isProducer x = true ∨ x = .cont := fun x hx => hl x (List.mem_cons_of_mem _ hx)
    rcases hl a List.mem_cons_self with ha | ha
    · obtain ⟨c1, e1, hs⟩ := producer_step addVal c a ha
      obtain ⟨s1, p1, g1, u1, w1⟩ := written_mono addVal c c1 a e1 b ha hs
      have hnc : isCont a = false := by cases a <;> simp_all [isProducer, isCont]
      rw [List.filter_cons, hnc] at hc
      simp only [Bool.false_eq_true, if_false] at hc
      obtain ⟨c2, e2, r, r2, k1, k2, k3, k4, k5, k6⟩ := ih c1 (e1.foldl note b) j (by rw [p1, hp]) hj hl' hc
      refine ⟨c2, e1 ++ e2, r, run_step hs r2, k1, by rw [gots_append, g1, k2]; rfl, k3, by rw [k4, s1.2.2.2], fun i hi => ?_, fun i hi => ?_⟩
      · obtain ⟨q1, q2, q3⟩ := k5 i hi
        rw [s1.1, s1.2.1, s1.2.2.2] at q1
        rw [s1.2.1] at q2
        refine ⟨q1, q2, ?_⟩
        rw [List.foldl_append]
        exact le_trans (w1 i) q3
      · obtain ⟨q1, q2, q3⟩ := k6 i hi
        refine ⟨by rw [q1, s1.1], by rw [q2, s1.2.1], ?_⟩
        rw [List.foldl_append, q3, u1]
    · subst ha
      rw [List.filter_cons] at hc
      simp only [isCont, if_true, List.length_cons] at hc
      by_cases hjN : j < N
      · have hs : step addVal c .cont = some ({ c with arr := turn addVal c.arr ⟨j, hjN⟩ (c.raw ⟨j, hjN⟩), pc := .reading (j + 1) }, [.got ⟨j, hjN⟩ (c.raw ⟨j, hjN⟩)]) := by
          unfold step; simp only [hp, dif_pos hjN]
        obtain ⟨c2, e2, r, r2, k1, k2, k3, k4, k5, k6⟩ := ih { c with arr := turn addVal c.arr ⟨j, hjN⟩ (c.raw ⟨j, hjN⟩), pc := .reading (j + 1) } (note b (.got ⟨j, hjN⟩ (c.raw ⟨j, hjN⟩))) (j + 1) rfl hjN hl' (by omega)
        refine ⟨c2, _, Function.update r ⟨j, hjN⟩ (c.raw ⟨j, hjN⟩), run_step hs r2, k1, ?_, k3, k4, fun i hi => ?_, fun i hi => ?_⟩
        · rw [gots_append, k2, show (List.finRange N).drop j = _ from List.drop_eq_getElem_cons (i := j) (by simpa using hjN)]
          simp only [gots, List.getElem_finRange, List.map_cons, Fin.cast_mk, Function.update_self, List.cons_append, List.nil_append, List.cons.injEq, true_and]
          refine List.map_congr_left fun i hi => ?_
          have : (⟨j, hjN⟩ : Fin N) ≠ i := by
            intro he
            rw [← he] at hi
            rw [List.mem_drop_iff_getElem] at hi
            obtain ⟨k, hk, hk2⟩ := hi
            simp only [List.getElem_finRange, Fin.ext_iff, Fin.val_cast] at hk2
            omega
          rw [Function.update_of_ne this.symm]
        · by_cases hij : i = ⟨j, hjN⟩
          · subst hij
            obtain ⟨q1, q2, q3⟩ := k6 ⟨j, hjN⟩ (Nat.lt_succ_self j)
            simp only [turn, Function.update_self] at q1 q2
            refine ⟨by rw [q1, Function.update_self], by rw [q2, Function.update_self], ?_⟩
            rw [List.foldl_append]
            simp only [List.foldl_cons, List.foldl_nil]
            rw [q3]
            simp [note]
          · have hij' : j + 1 ≤ i.val := by
              have : i.val ≠ j := fun h => hij (Fin.ext h)
              omega
            obtain ⟨q1, q2, q3⟩ := k5 i hij'
            simp only [turn, Function.update_of_ne hij] at q1 q2
            refine ⟨by rw [q1, Function.update_of_ne hij], by rw [q2, Function.update_of_ne hij], ?_⟩
            rw [List.foldl_append]
            exact q3
        · obtain ⟨q1, q2, q3⟩ := k6 i (by omega)
          have hij : i ≠ ⟨j, hjN⟩ := fun h => by rw [h] at hi; simp at hi
          simp only [turn, Function.update_of_ne hij] at q1 q2
          refine ⟨q1, q2, ?_⟩
          rw [List.foldl_append]
          simp only [List.foldl_cons, List.foldl_nil]
          rw [q3]
          simp [note, Function.update_of_ne hij]
      · have hjN' : j = N := by omega
        have hs : step addVal c .cont = some ({ c with arr := { c.arr with count := 0 }, pc := .idle }, [.ended]) := by
          unfold step; simp only [hp, dif_neg hjN]
        have hall : ∀ x ∈ l, isProducer x = true := by
          intro x hx
          rcases hl' x hx with h | h
          · exact h
          · exfalso
            have h0 : l.filter isCont = [] := List.length_eq_zero_iff.mp (by omega)
            have : x ∈ l.filter isCont := List.mem_filter.mpr ⟨hx, by rw [h]; rfl⟩
            rw [h0] at this
            cases this
        obtain ⟨c2, e2, r2, s2, p2, g2, u2⟩ := idle_run addVal l hall { c with arr := { c.arr with count := 0 }, pc := .idle } b
        refine ⟨c2, _, fun _ => 0, run_step hs r2, p2, ?_, s2.2.2.1, s2.2.2.2, fun i hi => ?_, fun i hi => ?_⟩
        · rw [gots_append, g2, hjN', List.drop_of_length_le (by simp)]; rfl
        · exfalso; have := i.isLt; omega
        · refine ⟨by rw [s2.1], by rw [s2.2.1], ?_⟩
          rw [List.foldl_append]
          simp only [List.foldl_cons, List.foldl_nil, note]
          rw [u2]

/-- **C165**: a call of add_new_readings() that finds the flag set, interleaved with any steps of the producer: it ends after its N + 2 further steps, has given each filter one reading `r i`, in order, at least as recent as
every reading announced before the call, and its effect on the array is that of C105 for these readings (`FilteredInterp.add`), apart from the flag. -/
theorem C165_call (addVal : φ → ℚ → φ × ℚ) (f : φ) (raw : Fin N → ℚ) (sched : List (Act N)) (c : Cfg N φ) (es : List (Event N)) (h : run addVal (init f raw) sched = some (c, es)) (hp : c.pc = .idle)
    (hr : c.arr.ready = true) (l : List (Act N)) (hl : ∀ a ∈ l, isProducer a = true ∨ a = .cont) (hc : (l.filter isCont).length = N + 2) :
    ∃ c' es', ∃ r : Fin N → ℚ, run addVal c (.call :: l) = some (c', es') ∧ c'.pc = .idle ∧ gots es' = (List.finRange N).map (fun i => (i, r i)) ∧ Same c'.arr (c.arr.add addVal r) ∧
      ∀ i, (book es).marked i ≤ (book (es ++ es')).used i := by
  have hinv := inv_run addVal sched _ c es start (inv_init f raw) h
  have hs : step addVal c .call = some ({ c with pc := .loaded }, []) := by
    unfold step; simp only [if_pos hp, if_pos hr]
  -- up to the clearing of the flag
  have gen : ∀ (l : List (Act N)) (c1 : Cfg N φ) (b : Book N), (∀ a ∈ l, isProducer a = true ∨ a = .cont) → (l.filter isCont).length = N + 2 → c1.pc = .loaded → Same c1.arr c.arr →
      ∃ c' es', ∃ r : Fin N → ℚ, run addVal c1 l = some (c', es') ∧ c'.pc = .idle ∧ gots es' = (List.finRange N).map (fun i => (i, r i)) ∧ Same c'.arr (c.arr.add addVal r) ∧
        ∀ i, b.written i ≤ (es'.foldl note b).used i := by
    intro l
    induction l with
    | nil => intro c1 b _ hc; simp at hc
    | cons a l ih =>
      intro c1 b hl hc hp1 hsame
      have hl' : ∀ x ∈ l, isProducer x = true ∨ x = .cont := fun x hx => hl x (List.mem_cons_of_mem _ hx)
      rcases hl a List.mem_cons_self with ha | ha
      · obtain ⟨c2, e1, hs⟩ := producer_step addVal c1 a ha
        obtain ⟨s1, p1, g1, u1, w1⟩ := written_mono addVal c1 c2 a e1 b ha hs
        have hnc : isCont a = false := by cases a <;> simp_all [isProducer, isCont]
        rw [List.filter_cons, hnc] at hc
        simp only [Bool.false_eq_true, if_false] at hc
        obtain ⟨c3, e3, r, r3, k1, k2, k3, k4⟩ := ih c2 (e1.foldl note b) hl' hc (by rw [p1, hp1])
          ⟨s1.1.trans hsame.1, s1.2.1.trans hsame.2.1, s1.2.2.1.trans hsame.2.2.1, s1.2.2.2.trans hsame.2.2.2⟩
        refine ⟨c3, e1 ++ e3, r, run_step hs r3, k1, by rw [gots_append, g1, k2]; rfl, k3, fun i => ?_⟩
        rw [List.foldl_append]
        exact le_trans (w1 i) (k4 i)
      · subst ha
        rw [List.filter_cons] at hc
        simp only [isCont, if_true, List.length_cons] at hc
        have hs : step addVal c1 .cont = some ({ c1 with arr := { c1.arr with ready := false, num := if c1.arr.count > 0 then c1.arr.count else c1.arr.num }, pc := .reading 0 }, []) := by
          unfold step; simp only [hp1]
        obtain ⟨c2, e2, r, r2, k1, k2, k3, k4, k5, k6⟩ := reading_run addVal l { c1 with arr := { c1.arr with ready := false, num := if c1.arr.count > 0 then c1.arr.count else c1.arr.num }, pc := .reading 0 } b 0
          rfl (Nat.zero_le _) hl' (by omega)
        refine ⟨c2, _, r, run_step hs r2, k1, by rw [gots_append, k2]; rfl, ?_, fun i => by rw [List.foldl_append]; exact (k5 i (Nat.zero_le _)).2.2⟩
        unfold FilteredInterp.add
        rw [if_pos hr]
        obtain ⟨m1, m2, m3, m4⟩ := hsame
        refine ⟨funext fun i => ?_, funext fun i => ?_, k3, ?_⟩
        · rw [(k5 i (Nat.zero_le _)).1]; simp only [m1, m2, m3, m4]
        · rw [(k5 i (Nat.zero_le _)).2.1]; simp only [m2]
        · rw [k4]; simp only [m3, m4]
  obtain ⟨c', es', r, r1, k1, k2, k3, k4⟩ := gen l { c with pc := .loaded } (es.foldl note start) hl hc rfl ⟨rfl, rfl, rfl, rfl⟩
  refine ⟨c', es', r, run_step hs r1, k1, k2, k3, fun i => ?_⟩
  unfold book
  rw [List.foldl_append]
  exact le_trans (hinv.order i) (k4 i)

/-- **C165**: a call that finds the flag clear does nothing. -/
theorem C165_not_ready (addVal : φ → ℚ → φ × ℚ) (c : Cfg N φ) (hp : c.pc = .idle) (hr : c.arr.ready = false) : run addVal c [.call] = some (c, []) := by
  simp [run, step, hp, hr]

/-- What a call does not promise: the readings it uses may belong to different announcements. Two channels; the second reading is written while the first is being read: the filters get 1 and 20. -/
theorem C165_mixed : ∃ c es, run (fun (_ : Unit) x => ((), x)) (init () (fun _ : Fin 2 => 0))
      [.write 0 1, .write 1 10, .mark, .call, .cont, .cont, .write 0 2, .write 1 20, .mark, .cont, .cont] = some (c, es) ∧
    gots es = [(0, 1), (1, 20)] ∧ c.arr.ready = true := ⟨_, _, rfl, rfl, rfl⟩

/-- a mark during the call is found by the next one -/
example : ∃ c es, run (fun (_ : Unit) x => ((), x)) (init () (fun _ : Fin 1 => 0)) [.write 0 1, .mark, .call, .write 0 2, .mark, .cont, .cont, .write 0 3, .mark, .cont] = some (c, es) ∧
    c.pc = .idle ∧ c.arr.ready = true ∧ gots es = [(0, 2)] := ⟨_, _, rfl, rfl, rfl, rfl⟩

end FiltConc
