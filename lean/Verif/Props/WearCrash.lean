import Verif.Spec.WearCrash
import Verif.Props.WearLevel
/-! # Property C203: wear levelling through any history of power cuts -/
set_option linter.unusedSectionVars false
namespace WearLevel.Crash
variable {D : Type} [DecidableEq D]

theorem counts_append (valid : D → Bool) (l l' : List (Op D)) : ∀ o, counts valid o (l ++ l') = counts valid (counts valid o l) l' := by
  induction l with
  | nil => intro o; rfl
  | cons x l ih => intro o; cases x <;> exact ih _

theorem opsOf_append (j : D) (l l' : List Event) : opsOf j (l ++ l') = opsOf j l ++ opsOf j l' := by
  induction l with
  | nil => rfl
  | cons x l ih =>
    cases x with
    | read _ _ => exact ih
    | probe _ _ => exact ih
    | write _ b => cases b with
      | true => simp only [List.cons_append, opsOf, ih]
      | false => exact ih
    | erase b => cases b with
      | true => simp only [List.cons_append, opsOf, ih]
      | false => exact ih

theorem opsOf_probes (j : D) (cells : List D) (ps : List (Event × List D)) (h : AllProbes cells ps) : opsOf j (ps.map (·.1)) = [] := by
  induction ps with
  | nil => rfl
  | cons x l ih =>
    obtain ⟨ev, st⟩ := x
    have h1 := (h (ev, st) (by simp)).1
    cases ev with
    | probe _ _ => exact ih (fun y hy => h y (by simp [hy]))
    | _ => simp [Event.isProbe] at h1

theorem last_probes (cells : List D) (ps : List (Event × List D)) (h : AllProbes cells ps) : (ps.getLast?.map (·.2)).getD cells = cells := by
  cases hl : ps.getLast? with
  | none => rfl
  | some x => exact (h x (List.mem_of_getLast? hl)).2

theorem probes_take {cells : List D} {ps : List (Event × List D)} (h : AllProbes cells ps) (k : Nat) : AllProbes cells (ps.take k) :=
  fun x hx => h x (List.mem_of_mem_take hx)

theorem latest_erased (e : D) (valid : D → Bool) (he : valid e = false) (N c : Nat) : latest valid (List.replicate N e) c = none := by
  rw [latest, List.find?_eq_none]
  intro x hx
  simp at hx
  rw [hx.2, he]; simp

theorem latest_first (e j : D) (valid : D → Bool) (he : valid e = false) (N : Nat) (hp : 0 < N) :
    latest valid ((List.replicate N e).set 0 j) N = if valid j then some j else none := by
  have h := latest_succ (c := 0) valid (cells := (List.replicate N e).set 0 j) (x := j) (List.getElem?_set_self (by simpa using hp))
  rw [latest_zero] at h
  rw [← h]
  have h2 : latest valid ((List.replicate N e).set 0 j) (0 + 1 + (N - 1)) = latest valid ((List.replicate N e).set 0 j) (0 + 1) := by
    apply latest_skip
    intro i x h1 h2 hx
    rw [List.getElem?_set_ne (by omega), List.getElem?_replicate] at hx
    split at hx
    · cases hx; exact he
    · cases hx
  rwa [show 0 + 1 + (N - 1) = N by omega] at h2

/-- What is left when power fails after `k` operations of a call, and what had reached the block by then. -/
theorem cut_state (e : D) (clash : D → D → D) (valid : D → Bool) (he : valid e = false) (v : Variant) (cells : List D) (hp : 0 < cells.length) (d j : D)
    (c k : Nat) (hc : c ≤ cells.length) (ha : Above valid cells c) (t : List D) (ops : List (Op D)) (o : Option D) (ho : latest valid cells c = o)
    (ht : t = ((((writeLog (flash e clash true (fun _ => j)) v cells.length d c cells).take k).getLast?.map (·.2)).getD cells))
    (hops : ops = opsOf j (((writeLog (flash e clash true (fun _ => j)) v cells.length d c cells).take k).map (·.1))) :
    t.length = cells.length ∧ latest valid t cells.length = counts valid o ops := by
  have hfull := ha.latest hc
  rcases writeLog_flash e clash (fun _ => j) v cells hp d c with ⟨p, ps, h1, h2, h3, h4, h5, h6⟩ | ⟨h0, ps, h1, h5, h6⟩
  · rw [h5] at ht hops
    by_cases hk : k ≤ ps.length
    · rw [List.take_append_of_le_length hk] at ht hops
      rw [last_probes cells _ (probes_take h1 k)] at ht
      rw [opsOf_probes j cells _ (probes_take h1 k)] at hops
      subst ht hops
      exact ⟨rfl, by rw [hfull, ho]; rfl⟩
    · rw [List.take_of_length_le (by simp; omega)] at ht hops
      simp only [List.getLast?_append, List.getLast?_singleton, Option.some_or, Option.map_some, Option.getD_some] at ht
      rw [List.map_append, opsOf_append, opsOf_probes j cells ps h1] at hops
      simp only [List.nil_append, List.map_cons, List.map_nil, opsOf] at hops
      subst ht hops
      refine ⟨by simp, ?_⟩
      obtain ⟨t, c2, m1, m2, m3, m4, m5, m6⟩ := ha.write (clash := clash) (put := fun _ => j) (v := v) he hp d
      rw [h6] at m1
      simp only [Prod.mk.injEq] at m1
      obtain ⟨rfl, rfl, _⟩ := m1
      have := m2.latest (by simp; omega)
      rw [m3] at this
      rw [this]
      cases hv : valid j with
      | true => rw [m5 hv]; simp [counts, hv]
      | false => rw [m6 hv (fun hn => hn p h2 h4), ho]; simp [counts, hv]
  · rw [h5] at ht hops
    by_cases hk : k ≤ ps.length
    · rw [List.take_append_of_le_length hk] at ht hops
      rw [last_probes cells _ (probes_take h1 k)] at ht
      rw [opsOf_probes j cells _ (probes_take h1 k)] at hops
      subst ht hops
      exact ⟨rfl, by rw [hfull, ho]; rfl⟩
    · rw [List.take_append, List.take_of_length_le (by omega : ps.length ≤ k)] at ht hops
      rw [List.map_append, opsOf_append, opsOf_probes j cells ps h1] at hops
      obtain ⟨m, hm⟩ : ∃ m, k - ps.length = m + 1 := ⟨k - ps.length - 1, by omega⟩
      rw [hm] at ht hops
      match m with
      | 0 =>
        simp only [List.take_succ_cons, List.take_zero, List.getLast?_append, List.getLast?_singleton, Option.some_or, Option.map_some, Option.getD_some] at ht
        simp only [List.take_succ_cons, List.take_zero, List.map_cons, List.map_nil, opsOf, List.nil_append] at hops
        subst ht hops
        exact ⟨by simp, by rw [latest_erased e valid he]; rfl⟩
      | 1 =>
        simp only [List.take_succ_cons, List.take_zero, List.getLast?_append, List.getLast?_cons_cons, List.getLast?_singleton, Option.some_or, Option.map_some, Option.getD_some] at ht
        simp only [List.take_succ_cons, List.take_zero, List.map_cons, List.map_nil, opsOf, List.nil_append] at hops
        subst ht hops
        exact ⟨by simp, by rw [latest_erased e valid he]; rfl⟩
      | m + 2 =>
        simp only [List.take_succ_cons, List.take_nil, List.getLast?_append, List.getLast?_cons_cons, List.getLast?_singleton, Option.some_or, Option.map_some, Option.getD_some] at ht
        simp only [List.take_succ_cons, List.take_nil, List.map_cons, List.map_nil, opsOf, List.nil_append] at hops
        subst ht hops
        exact ⟨by simp, by rw [latest_first e j valid he _ hp]; rfl⟩

theorem run_inv (e : D) (clash : D → D → D) (valid : D → Bool) (he : valid e = false) (v : Variant) (N : Nat) (hp : 0 < N) (data0 : D)
    (acts : List (Act D)) : ∀ (cells : List D) (c : Nat), Sized N acts → cells.length = N → c ≤ N → Above valid cells c →
    ∃ cells' c' ops, run e clash valid v N data0 acts (cells, c) = ((cells', c'), ops) ∧ cells'.length = N ∧ c' ≤ N ∧ Above valid cells' c' ∧
      latest valid cells' c' = counts valid (latest valid cells c) ops := by
  induction acts with
  | nil => intro cells c _ h1 h2 h3; exact ⟨cells, c, [], rfl, h1, h2, h3, rfl⟩
  | cons a acts ih =>
    intro cells c hs h1 h2 h3
    have boot : ∀ t : List D, t.length = N → ∃ c', ctor (flash e clash) valid N t data0 = (t, c') ∧ c' ≤ N ∧ Above valid t c' ∧
        latest valid t c' = latest valid t N := by
      intro t ht
      obtain ⟨c', g1, g2, g3, g4⟩ := ctor_flash e clash true id valid t data0
      rw [ht] at g1 g2 g4
      exact ⟨c', g1, g2, g3, g4⟩
    cases a with
    | write d =>
      subst h1
      obtain ⟨cells1, c1, g1, g2, g3, g4, m5, m6⟩ := h3.write (clash := clash) (put := id) (v := v) he hp d
      obtain ⟨cells', c', ops, k1, k2, k3, k4, k5⟩ := ih cells1 c1 hs g3 g4 g2
      refine ⟨cells', c', _, by simp only [run, g1, k1]; rfl, k2, k3, k4, ?_⟩
      rw [counts_append, k5]
      congr 1
      rcases writeLog_flash e clash id v cells hp d c with ⟨p, ps, a1, a2, a3, a4, a5, a6⟩ | ⟨a1, ps, a2, a5, a6⟩
      · rw [show flash e clash = flash e clash true id from rfl] at g1
        rw [g1] at a6
        simp only [Prod.mk.injEq] at a6
        obtain ⟨rfl, rfl, _⟩ := a6
        rw [show flash e clash = flash e clash true id from rfl, a5, List.map_append, opsOf_append, opsOf_probes d cells ps a1]
        show _ = if valid d then some d else latest valid cells c
        cases hv : valid d with
        | true => rw [m5 hv]; rfl
        | false => rw [m6 hv (fun hn => hn p a2 a4)]; rfl
      · rw [show flash e clash = flash e clash true id from rfl] at g1
        rw [g1] at a6
        simp only [Prod.mk.injEq] at a6
        obtain ⟨rfl, rfl, _⟩ := a6
        rw [show flash e clash = flash e clash true id from rfl, a5, List.map_append, opsOf_append, opsOf_probes d cells ps a2]
        show latest valid ((List.replicate cells.length e).set 0 d) 1 = if valid d then some d else none
        have h := latest_succ (c := 0) valid (cells := (List.replicate cells.length e).set 0 d) (x := d) (List.getElem?_set_self (by simpa using hp))
        rw [latest_zero] at h
        exact h
    | restart =>
      obtain ⟨c1, g1, g2, g3, g4⟩ := boot cells h1
      obtain ⟨cells', c', ops, k1, k2, k3, k4, k5⟩ := ih cells c1 hs h1 g2 g3
      refine ⟨cells', c', ops, by simp only [run, g1]; exact k1, k2, k3, k4, ?_⟩
      subst h1
      rw [k5, g4, h3.latest h2]
    | cut d k j =>
      subst h1
      obtain ⟨t1, t2⟩ := cut_state e clash valid he v cells hp d j c k h2 h3 _ _ _ rfl rfl rfl
      obtain ⟨c1, g1, g2, g3, g4⟩ := boot _ t1
      obtain ⟨cells', c', ops, k1, k2, k3, k4, k5⟩ := ih _ c1 hs t1 g2 g3
      refine ⟨cells', c', _, by simp only [run, g1, k1]; rfl, k2, k3, k4, ?_⟩
      rw [counts_append, k5, g4, t2]
    | damage rest =>
      obtain ⟨c1, g1, g2, g3, g4⟩ := boot rest hs.1
      obtain ⟨cells', c', ops, k1, k2, k3, k4, k5⟩ := ih rest c1 hs.2 hs.1 g2 g3
      refine ⟨cells', c', _, by simp only [run, g1, k1]; rfl, k2, k3, k4, ?_⟩
      rw [k5, g4]
      show _ = counts valid (latest valid rest rest.length) ops
      rw [hs.1]

/-- **C203**: start a leveller on a block of any contents, and let any history follow of writes, restarts, power failures after any number of low-level
operations of a `write` (the low-level write leaving any residue), and damage of any kind to the block. Then `read` returns the last valid record that
reached the block since it was last erased, and the next `write` of a valid record succeeds and is what `read` returns. -/
theorem C203_history (e : D) (clash : D → D → D) (valid : D → Bool) (he : valid e = false) (v : Variant) (cells : List D) (hp : 0 < cells.length)
    (data0 : D) (acts : List (Act D)) (hs : Sized cells.length acts) (d1 : D) :
    let r := run e clash valid v cells.length data0 (.restart :: acts) (cells, cells.length)
    result (read (flash e clash) valid r.1.2 r.1.1 d1) = counts valid (latest valid cells cells.length) r.2 ∧
    ∀ d, valid d = true → ∃ cells' c', write (flash e clash) v cells.length d r.1.2 r.1.1 = (cells', c', true) ∧
      ∀ d0, read (flash e clash) valid c' cells' d0 = (cells', true, d) := by
  intro r
  obtain ⟨c0, g1, g2, g3, g4⟩ := ctor_flash e clash true id valid cells data0
  obtain ⟨cells', c', ops, k1, k2, k3, k4, k5⟩ := run_inv e clash valid he v cells.length hp data0 acts cells c0 hs rfl g2 g3
  have hr : r = ((cells', c'), ops) := by simp only [r, run, g1]; exact k1
  rw [hr]
  refine ⟨?_, fun d hd => ?_⟩
  · rw [(read_flash e clash true id valid cells' d1 c' (by omega)).2, k5, g4]
  · have := C29_write_then_read e clash valid v cells' (by omega) d hd c'
    rw [k2] at this
    exact this

theorem counts_covered (valid : D → Bool) (ops : List (Op D)) : ∀ o, Covered valid ops → counts valid o ops = lastValid valid o ops := by
  induction ops using Covered.induct with
  | case1 => intro o _; rfl
  | case2 j l ih => intro o h; obtain ⟨h1, h2⟩ := h; simp only [counts, lastValid, h1, if_true]; exact ih _ h2
  | case3 l hne =>
    intro o h
    cases l with
    | nil => exact absurd h (by simp [Covered])
    | cons x l => cases x with
      | write j => exact absurd rfl (hne j l)
      | _ => exact absurd h (by simp [Covered])
  | case4 j l ih => intro o h; exact ih _ h
  | case5 r l => intro o h; exact absurd h (by simp [Covered])

/-- **C203** (partial): if the block is not damaged and power never fails between an erase and the write that follows it, no record is ever lost: through any
history of power failures `read` returns the last valid record that reached the block. Missing: power failures in that window and during the erase, below. -/
theorem C203_last_partial (e : D) (clash : D → D → D) (valid : D → Bool) (he : valid e = false) (v : Variant) (cells : List D) (hp : 0 < cells.length)
    (data0 : D) (acts : List (Act D)) (hs : Sized cells.length acts)
    (hc : Covered valid (run e clash valid v cells.length data0 (.restart :: acts) (cells, cells.length)).2) (d1 : D) :
    let r := run e clash valid v cells.length data0 (.restart :: acts) (cells, cells.length)
    result (read (flash e clash) valid r.1.2 r.1.1 d1) = lastValid valid (latest valid cells cells.length) r.2 := by
  intro r
  rw [(C203_history e clash valid he v cells hp data0 acts hs d1).1]
  exact counts_covered valid _ _ hc

/-- **C203, violated** when power fails during the erase: if the erase had only reached the upper cells, `read` returns a record that had been replaced long
before: after `old` and `new` were written to a block of two cells, and the erase that makes room for `next` is interrupted, it is `old` that is read. -/
theorem C203_torn_erase_violated (e : D) (clash : D → D → D) (valid : D → Bool) (he : valid e = false) (v : Variant) (old new next data0 d1 : D)
    (ho : valid old = true) (hn : valid new = true) :
    let r := run e clash valid v 2 data0 [.restart, .write old, .write new] ([e, e], 2)
    result (read (flash e clash) valid r.1.2 r.1.1 d1) = some new ∧ (∃ t, (Event.erase true, t) ∈ writeLog (flash e clash) v 2 next r.1.2 r.1.1) ∧
    r.1.1 = [old, new] ∧
    let r' := run e clash valid v 2 data0 [.restart, .write old, .write new, .damage [old, e]] ([e, e], 2)
    result (read (flash e clash) valid r'.1.2 r'.1.1 d1) = some old := by
  intro r
  have hoe : old ≠ e := fun h => by rw [h, he] at ho; cases ho
  have hne : new ≠ e := fun h => by rw [h, he] at hn; cases hn
  have h0 : ctor (flash e clash) valid 2 [e, e] data0 = ([e, e], 0) := by simp [ctor, scan, flash, he]
  have h1 : write (flash e clash) v 2 old 0 [e, e] = ([old, e], 1, true) := by
    rw [write, loop_write _ _ _ _ _ _ _ (by simp [flash])]; simp [flash]
  have h2 : write (flash e clash) v 2 new 1 [old, e] = ([old, new], 2, true) := by
    rw [write, loop_write _ _ _ _ _ _ _ (by simp [flash])]; simp [flash]
  have hr : r.1 = ([old, new], 2) := by simp only [r, run, h0, h1, h2]
  rw [hr]
  refine ⟨?_, ?_, rfl, ?_⟩
  · rw [(read_flash e clash true id valid [old, new] d1 2 (by simp)).2]; simp [latest, hn]
  · rcases writeLog_flash e clash id v [old, new] (by simp) next 2 with ⟨p, ps, a1, a2, a3, a4, a5, a6⟩ | ⟨a1, ps, a2, a5, a6⟩
    · simp at a3; omega
    · refine ⟨List.replicate 2 e, ?_⟩
      have : (Event.erase true, List.replicate 2 e) ∈ writeLog (flash e clash true id) v [old, new].length next 2 [old, new] := by rw [a5]; simp
      exact this
  · intro r'
    have h3 : ctor (flash e clash) valid 2 [old, e] data0 = ([old, e], 1) := by simp [ctor, scan, flash, he, ho]
    have hr' : r'.1 = ([old, e], 1) := by simp only [r', run, h0, h1, h2, h3]
    rw [hr', (read_flash e clash true id valid [old, e] d1 1 (by simp)).2]; simp [latest, ho]

/-- A history with a torn write, a failure after a completed write and one before anything happened: the hypotheses of both theorems are met, and a record is read. -/
example : let valid := fun d : Nat => decide (d % 2 = 0 ∧ d ≠ 0)
    let acts : List (Act Nat) := [.write 2, .cut 4 1 4, .cut 6 2 7, .cut 8 9 8, .restart]
    let r := run 0 (fun a _ => a) valid .leveler 4 1 (.restart :: acts) ([0, 0, 0, 0], 4)
    r = (([2, 7, 8, 0], 3), [.write 2, .write 7, .write 8]) ∧ Covered valid r.2 ∧ Sized 4 acts ∧ counts valid none r.2 = some 8 := by
  simp [run, ctor, scan, flash, write, writeLog, writeLoop, logged, opsOf, Covered, Sized, counts]

/-- A history in which power fails between the erase and the write: nothing is read. -/
example : let valid := fun d : Nat => decide (d % 2 = 0 ∧ d ≠ 0)
    let r := run 0 (fun a _ => a) valid .level 2 1 [.restart, .write 2, .write 4, .cut 6 2 6] ([0, 0], 2)
    r = (([0, 0], 0), [.write 2, .write 4, .erase]) ∧ counts valid none r.2 = none := by
  simp [run, ctor, scan, flash, write, writeLog, writeLoop, logged, opsOf, counts]

end WearLevel.Crash
