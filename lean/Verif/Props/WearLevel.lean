import Verif.Lemmas.WearLevel
/-! # Properties C29 - C36: wear levelling

Everywhere: `e` is the content of an erased cell, `valid` the record's `validate()`, `cells` the content of the block,
`c` the value of `cell_`. -/
set_option linter.unusedSectionVars false
namespace WearLevel
variable {σ D : Type} [DecidableEq D]

/-- Nothing valid at or above the next cell to write. -/
def Above (valid : D → Bool) (cells : List D) (c : Nat) : Prop :=
  ∀ (i : Nat) (x : D), c ≤ i → cells[i]? = some x → valid x = false

theorem write_cases (e : D) (clash : D → D → D) (put : D → D) (v : Variant) (cells : List D) (hp : 0 < cells.length) (d : D) (c : Nat) :
    (∃ p, c ≤ p ∧ p < cells.length ∧ cells[p]? = some e ∧
      write (flash e clash true put) v cells.length d c cells = (cells.set p (put d), p + 1, true)) ∨
    ((∀ j : Nat, c ≤ j → cells[j]? ≠ some e) ∧
      write (flash e clash true put) v cells.length d c cells = ((List.replicate cells.length e).set 0 (put d), 1, true)) := by
  rcases write_flash e clash put v cells hp d c [] with ⟨p, ps, _, h2, h3, h4, _, h6⟩ | ⟨h1, ps, _, h3⟩
  · exact .inl ⟨p, h2, h3, h4, write_unlogged _ _ _ _ _ _ _ _ _ _ _ _ _ _ h6⟩
  · exact .inr ⟨h1, write_unlogged _ _ _ _ _ _ _ _ _ _ _ _ _ _ h3⟩

/-- **C29**: on a fault-free block of any positive size and any contents, and wherever the leveller currently is,
`write(d)` of a valid record succeeds, and the next `read` returns exactly `d`. -/
theorem C29_write_then_read (e : D) (clash : D → D → D) (valid : D → Bool) (v : Variant) (cells : List D)
    (hp : 0 < cells.length) (d : D) (hd : valid d = true) (c : Nat) :
    ∃ cells' c', write (flash e clash) v cells.length d c cells = (cells', c', true) ∧
      ∀ d0, read (flash e clash) valid c' cells' d0 = (cells', true, d) := by
  have hread : ∀ (l : List D) (p : Nat), l[p]? = some d → ∀ d0, read (flash e clash) valid (p + 1) l d0 = (l, true, d) := by
    intro l p hl d0
    unfold read
    simp only [flash_read hl, hd, if_true]
  rcases write_cases e clash id v cells hp d c with ⟨p, _, h3, _, h5⟩ | ⟨_, h2⟩
  · exact ⟨_, _, h5, hread _ p (List.getElem?_set_self h3)⟩
  · exact ⟨_, _, h2, hread _ 0 (List.getElem?_set_self (by simpa using hp))⟩

example := C29_write_then_read 0 (fun a _ => a) (fun d => d == 2) .level [2, 7, 0] (by decide) 2 (by decide) 1

theorem Above.write {e : D} {clash : D → D → D} {valid : D → Bool} {put : D → D} (he : valid e = false) {v : Variant} {cells : List D}
    (hp : 0 < cells.length) {c : Nat} (h : Above valid cells c) (d : D) :
    ∃ cells' c', write (flash e clash true put) v cells.length d c cells = (cells', c', true) ∧ Above valid cells' c' ∧
      cells'.length = cells.length ∧ c' ≤ cells.length ∧
      (valid (put d) = true → latest valid cells' c' = some (put d)) ∧
      (valid (put d) = false → ¬ (∀ j : Nat, c ≤ j → cells[j]? ≠ some e) → latest valid cells' c' = latest valid cells c) := by
  rcases write_cases e clash put v cells hp d c with ⟨p, h2, h3, h4, h5⟩ | ⟨h1, h2⟩
  · refine ⟨_, _, h5, ?_, by simp, by omega, ?_, ?_⟩
    · intro i x hi hx
      rw [List.getElem?_set_ne (by omega)] at hx
      exact h i x (by omega) hx
    · intro hv
      rw [latest_succ valid (List.getElem?_set_self h3), if_pos hv]
    · intro hv _
      rw [latest_succ valid (List.getElem?_set_self h3), if_neg (by rw [hv]; simp)]
      rw [latest_congr (cells := cells) valid (fun i hi => List.getElem?_set_ne (by omega))]
      rw [show p = c + (p - c) by omega]
      exact latest_skip valid _ (fun i x h1 _ hx => h i x h1 hx)
  · refine ⟨_, _, h2, ?_, by simp, by omega, ?_, ?_⟩
    · intro i x hi hx
      rw [List.getElem?_set_ne (by omega), List.getElem?_replicate] at hx
      split at hx
      · cases hx; exact he
      · cases hx
    · intro hv
      rw [latest_succ (c := 0) valid (List.getElem?_set_self (by simpa using hp)), if_pos hv]
    · intro _ hn; exact absurd h1 hn

theorem ctor_flash (e : D) (clash : D → D → D) (eo : Bool) (put : D → D) (valid : D → Bool) (cells : List D) (d0 : D) :
    ∃ c', ctor (flash e clash eo put) valid cells.length cells d0 = (cells, c') ∧ c' ≤ cells.length ∧ Above valid cells c' ∧
      latest valid cells c' = latest valid cells cells.length := by
  obtain ⟨c', h1, h2, h3, h4⟩ := scan_flash e clash eo put valid cells d0 cells.length (Nat.le_refl _)
  have ha : Above valid cells c' := by
    intro i x hi hx
    exact h3 i x hi (List.getElem?_eq_some_iff.mp hx).1 hx
  refine ⟨c', h1, h2, ha, ?_⟩
  have : cells.length = c' + (cells.length - c') := by omega
  conv => rhs; rw [this]
  exact (latest_skip valid _ (fun i x h1 _ hx => ha i x h1 hx)).symm

theorem Above.latest {valid : D → Bool} {cells : List D} {c : Nat} (h : Above valid cells c) (hc : c ≤ cells.length) :
    WearLevel.latest valid cells cells.length = WearLevel.latest valid cells c := by
  have : cells.length = c + (cells.length - c) := by omega
  rw [this]
  exact latest_skip valid _ (fun i x h1 _ hx => h i x h1 hx)

theorem runActs_inv (e : D) (clash : D → D → D) (valid : D → Bool) (he : valid e = false) (v : Variant) (N : Nat) (hp : 0 < N)
    (data0 : D) (acts : List (Act D)) : ∀ (cells : List D) (c : Nat), cells.length = N → c ≤ N → Above valid cells c →
    ∃ cells' c', runActs (flash e clash) valid v N data0 acts (cells, c) = (cells', c') ∧ cells'.length = N ∧ c' ≤ N ∧
      Above valid cells' c' ∧ ((∀ d ∈ writes acts, valid d = true) →
        WearLevel.latest valid cells' c' = lastWritten (WearLevel.latest valid cells c) acts) := by
  induction acts with
  | nil => intro cells c h1 h2 h3; exact ⟨cells, c, rfl, h1, h2, h3, fun _ => rfl⟩
  | cons a acts ih =>
    intro cells c h1 h2 h3
    cases a with
    | write d =>
      subst h1
      obtain ⟨cells1, c1, g1, g2, g3, g4, g5, _⟩ := h3.write (clash := clash) (put := id) (v := v) he hp d
      obtain ⟨cells', c', k1, k2, k3, k4, k5⟩ := ih cells1 c1 g3 g4 g2
      refine ⟨cells', c', ?_, k2, k3, k4, ?_⟩
      · simp only [runActs, g1]; exact k1
      · intro hall
        rw [k5 (fun d hd => hall d (by simp [writes, hd])), lastWritten]
        rw [g5 (hall d (by simp [writes]))]
        rfl
    | restart =>
      subst h1
      obtain ⟨c1, g1, g2, g3, g4⟩ := ctor_flash e clash true id valid cells data0
      obtain ⟨cells', c', k1, k2, k3, k4, k5⟩ := ih cells c1 rfl g2 g3
      refine ⟨cells', c', ?_, k2, k3, k4, ?_⟩
      · simp only [runActs, g1]; exact k1
      · intro hall
        rw [k5 (fun d hd => hall d (by simpa [writes] using hd)), lastWritten, g4, h3.latest h2]

/-- **C30**: start a leveller on a fault-free block with any contents, perform any history of writes (of valid or invalid
records) and restarts; then another restart does not change what `read` returns. -/
theorem C30_restart (e : D) (clash : D → D → D) (valid : D → Bool) (he : valid e = false) (v : Variant) (cells : List D)
    (hp : 0 < cells.length) (data0 : D) (acts : List (Act D)) (d1 d2 : D) :
    let st := runActs (flash e clash) valid v cells.length data0 (.restart :: acts) (cells, cells.length)
    let st' := ctor (flash e clash) valid cells.length st.1 data0
    result (read (flash e clash) valid st'.2 st'.1 d2) = result (read (flash e clash) valid st.2 st.1 d1) := by
  intro st st'
  obtain ⟨c0, g1, g2, g3, _⟩ := ctor_flash e clash true id valid cells data0
  obtain ⟨cells', c', k1, k2, k3, k4, _⟩ := runActs_inv e clash valid he v cells.length hp data0 acts cells c0 rfl g2 g3
  have hst : st = (cells', c') := by simp only [st, runActs, g1]; exact k1
  obtain ⟨c1, m1, m2, m3, m4⟩ := ctor_flash e clash true id valid cells' data0
  have hst' : st' = (cells', c1) := by simp only [st', hst]; rw [← k2]; exact m1
  rw [hst', hst, (read_flash e clash true id valid cells' d2 c1 m2).2, (read_flash e clash true id valid cells' d1 c' (by omega)).2]
  rw [m4, k4.latest (by omega)]

/-- **C30**: in a history in which only valid records are written, `read` returns the record written last, before and after
any restarts; before the first write it returns the topmost valid record found in the block. -/
theorem C30_last_record (e : D) (clash : D → D → D) (valid : D → Bool) (he : valid e = false) (v : Variant) (cells : List D)
    (hp : 0 < cells.length) (data0 : D) (acts : List (Act D)) (hall : ∀ d ∈ writes acts, valid d = true) (d1 : D) :
    let st := runActs (flash e clash) valid v cells.length data0 (.restart :: acts) (cells, cells.length)
    result (read (flash e clash) valid st.2 st.1 d1) = lastWritten (latest valid cells cells.length) acts := by
  intro st
  obtain ⟨c0, g1, g2, g3, g4⟩ := ctor_flash e clash true id valid cells data0
  obtain ⟨cells', c', k1, k2, k3, k4, k5⟩ := runActs_inv e clash valid he v cells.length hp data0 acts cells c0 rfl g2 g3
  have hst : st = (cells', c') := by simp only [st, runActs, g1]; exact k1
  rw [hst, (read_flash e clash true id valid cells' d1 c' (by omega)).2, k5 hall, g4]

/-- records are numbers, 0 is the erased content, even positive numbers are valid; the block holds garbage and an old record -/
example : let valid := fun d : Nat => d % 2 = 0 ∧ d ≠ 0
    (∀ d ∈ writes [Act.write 2, .restart, .write 4, .write 6], decide (valid d) = true) ∧ decide (valid 0) = false ∧
    lastWritten (latest (fun d => decide (valid d)) [7, 8, 5] 3) [Act.restart] = some 8 := by decide

theorem writeLog_flash (e : D) (clash : D → D → D) (put : D → D) (v : Variant) (cells : List D) (hp : 0 < cells.length) (d : D) (c : Nat) :
    (∃ p ps, AllProbes cells ps ∧ c ≤ p ∧ p < cells.length ∧ cells[p]? = some e ∧
      writeLog (flash e clash true put) v cells.length d c cells = ps ++ [(.write p true, cells.set p (put d))] ∧
      write (flash e clash true put) v cells.length d c cells = (cells.set p (put d), p + 1, true)) ∨
    ((∀ j : Nat, c ≤ j → cells[j]? ≠ some e) ∧ ∃ ps, AllProbes cells ps ∧
      writeLog (flash e clash true put) v cells.length d c cells = ps ++ [(.erase true, List.replicate cells.length e),
        (.probe 0 true, List.replicate cells.length e), (.write 0 true, (List.replicate cells.length e).set 0 (put d))] ∧
      write (flash e clash true put) v cells.length d c cells = ((List.replicate cells.length e).set 0 (put d), 1, true)) := by
  rcases write_flash e clash put v cells hp d c [] with ⟨p, ps, h1, h2, h3, h4, _, h6⟩ | ⟨h1, ps, h2, h3⟩
  · exact .inl ⟨p, ps, h1, h2, h3, h4, by simp [writeLog, h6], write_unlogged _ _ _ _ _ _ _ _ _ _ _ _ _ _ h6⟩
  · exact .inr ⟨h1, ps, h2, by simp [writeLog, h3], write_unlogged _ _ _ _ _ _ _ _ _ _ _ _ _ _ h3⟩

/-- **C31**: after any history on a fault-free block, let power fail during the low-level write of a record, leaving some
invalid residue `j` in the cell. If that call erased nothing, then after the restart `read` returns what it returned before
the call; and the next `write` of a valid record succeeds and is read back (which is C29 for the restarted leveller). -/
theorem C31_interrupted_write (e : D) (clash : D → D → D) (valid : D → Bool) (he : valid e = false) (v : Variant) (cells : List D)
    (hp : 0 < cells.length) (data0 : D) (acts : List (Act D)) (d j d1 d2 : D) (hj : valid j = false)
    (st : List D × Nat)
    (hst : st = runActs (flash e clash) valid v cells.length data0 (.restart :: acts) (cells, cells.length))
    (hne : ∀ x ∈ writeLog (flash e clash true (fun _ => j)) v cells.length d st.2 st.1, x.1.isErase = false) :
    let torn := write (flash e clash true (fun _ => j)) v cells.length d st.2 st.1
    let st' := ctor (flash e clash) valid cells.length torn.1 data0
    result (read (flash e clash) valid st'.2 st'.1 d2) = result (read (flash e clash) valid st.2 st.1 d1) ∧
    ∀ d', valid d' = true → ∃ cells' c', write (flash e clash) v cells.length d' st'.2 st'.1 = (cells', c', true) ∧
      ∀ d0, read (flash e clash) valid c' cells' d0 = (cells', true, d') := by
  intro torn st'
  obtain ⟨c0, g1, g2, g3, g4⟩ := ctor_flash e clash true id valid cells data0
  obtain ⟨cells', c', k1, k2, k3, k4, k5⟩ := runActs_inv e clash valid he v cells.length hp data0 acts cells c0 rfl g2 g3
  have hst : st = (cells', c') := by rw [hst]; simp only [runActs, g1]; exact k1
  subst hst
  simp only at hne torn st' ⊢
  have hlog := writeLog_flash e clash (fun _ => j) v cells' (by omega) d c'
  rw [k2] at hlog
  rcases hlog with ⟨p, ps, h1, h2, h3, h4, h5, h6⟩ | ⟨_, ps, _, h3, _⟩
  · obtain ⟨t, c2, m1, m2, m3, m4, m5, m6⟩ := k4.write (clash := clash) (put := fun _ => j) (v := v) he (by omega) d
    rw [k2] at m1
    have hl := m6 hj (fun hn => hn p h2 h4)
    have ht : torn.1 = t := by simp only [torn]; rw [m1]
    obtain ⟨c3, q1, q2, q3, q4⟩ := ctor_flash e clash true id valid t data0
    have hst' : st' = (t, c3) := by
      simp only [st', ht]; rw [← k2, ← m3]; exact q1
    rw [hst']
    constructor
    · simp only
      rw [(read_flash e clash true id valid t d2 c3 q2).2, (read_flash e clash true id valid cells' d1 c' (by omega)).2,
        q4, ← hl, m2.latest (by omega)]
    · intro d' hd'
      have := C29_write_then_read e clash valid v t (by omega) d' hd' c3
      rw [m3, k2] at this
      exact this
  · rw [h3] at hne
    have := hne (.erase true, List.replicate cells.length e) (by simp)
    simp [Event.isErase] at this

/-- **C32 (partial)**: power may fail after any low-level operation of a `write(d)` call, and the low-level write itself may
leave the record, or an invalid residue. If the call erased nothing, then after the restart `read` returns the new record or
what it returned before. Missing: calls that erase the block (next theorem). -/
theorem C32_no_erase_partial (e : D) (clash : D → D → D) (valid : D → Bool) (he : valid e = false) (v : Variant) (cells : List D)
    (hp : 0 < cells.length) (data0 : D) (acts : List (Act D)) (d d1 d2 : D) (put : D → D)
    (hput : put d = d ∨ valid (put d) = false) (st : List D × Nat)
    (hst : st = runActs (flash e clash) valid v cells.length data0 (.restart :: acts) (cells, cells.length))
    (hne : ∀ x ∈ writeLog (flash e clash true put) v cells.length d st.2 st.1, x.1.isErase = false)
    (crash : Event × List D) (hc : crash ∈ writeLog (flash e clash true put) v cells.length d st.2 st.1) :
    let st' := ctor (flash e clash) valid cells.length crash.2 data0
    result (read (flash e clash) valid st'.2 st'.1 d2) = some d ∨
    result (read (flash e clash) valid st'.2 st'.1 d2) = result (read (flash e clash) valid st.2 st.1 d1) := by
  intro st'
  obtain ⟨c0, g1, g2, g3, g4⟩ := ctor_flash e clash true id valid cells data0
  obtain ⟨cells', c', k1, k2, k3, k4, k5⟩ := runActs_inv e clash valid he v cells.length hp data0 acts cells c0 rfl g2 g3
  have hst : st = (cells', c') := by rw [hst]; simp only [runActs, g1]; exact k1
  subst hst
  simp only at hne hc ⊢
  rw [(read_flash e clash true id valid cells' d1 c' (by omega)).2]
  have hboot : ∀ t : List D, t.length = cells.length → crash.2 = t →
      result (read (flash e clash) valid st'.2 st'.1 d2) = latest valid t t.length := by
    intro t ht hct
    obtain ⟨c3, q1, q2, q3, q4⟩ := ctor_flash e clash true id valid t data0
    have : st' = (t, c3) := by simp only [st', hct]; rw [← ht]; exact q1
    rw [this]
    simp only
    rw [(read_flash e clash true id valid t d2 c3 q2).2, q4]
  have hlog := writeLog_flash e clash put v cells' (by omega) d c'
  rw [k2] at hlog
  rcases hlog with ⟨p, ps, h1, h2, h3, h4, h5, h6⟩ | ⟨_, ps, _, h3, _⟩
  · rw [h5] at hc
    rcases List.mem_append.mp hc with hc | hc
    · right
      rw [hboot cells' k2 (h1 _ hc).2, k4.latest (by omega)]
    · simp only [List.mem_singleton] at hc
      obtain ⟨t, c2, m1, m2, m3, m4, m5, m6⟩ := k4.write (clash := clash) (put := put) (v := v) he (by omega) d
      rw [k2, h6] at m1
      simp only [Prod.mk.injEq] at m1
      obtain ⟨rfl, rfl, _⟩ := m1
      rw [hboot (cells'.set p (put d)) (by simpa using k2) (by rw [hc]), m2.latest (by simp; omega)]
      rcases Bool.eq_false_or_eq_true (valid (put d)) with hv | hv
      · left
        rw [m5 hv]
        rcases hput with hput | hput
        · rw [hput]
        · rw [hv] at hput; cases hput
      · right
        exact m6 hv (fun hn => hn p h2 h4)
  · rw [h3] at hne
    have := hne (.erase true, List.replicate cells.length e) (by simp)
    simp [Event.isErase] at this

/-- a block with one record and free cells: the call erases nothing -/
example : runActs (flash 0 (fun a _ => a)) (fun d => d == 2) .level 3 1 [.restart] ([2, 0, 0], 3) = ([2, 0, 0], 1) ∧
    ∀ x ∈ writeLog (flash 0 (fun a _ => a) true (fun _ => 7)) .level 3 2 1 [2, 0, 0], x.1.isErase = false := by
  constructor
  · decide
  · simp [writeLog, write, writeLoop, flash, logged, Event.isErase]

/-- **C32 is violated**: whenever the block is used up, the `write` call erases it before it writes; power loss right after
the erase leaves a block in which no record is found, whatever was stored before. -/
theorem C32_erase_window_violated (e : D) (clash : D → D → D) (valid : D → Bool) (he : valid e = false) (v : Variant) (cells : List D)
    (hp : 0 < cells.length) (data0 d d2 : D) (hfull : e ∉ cells) (c : Nat) :
    ∃ crash ∈ writeLog (flash e clash) v cells.length d c cells,
      let st' := ctor (flash e clash) valid cells.length crash.2 data0
      result (read (flash e clash) valid st'.2 st'.1 d2) = none := by
  rcases writeLog_flash e clash id v cells hp d c with ⟨p, ps, h1, h2, h3, h4, h5, h6⟩ | ⟨_, ps, _, h3, _⟩
  · exact absurd (List.mem_of_getElem? h4) hfull
  · refine ⟨(.erase true, List.replicate cells.length e), by rw [show (flash e clash) = flash e clash true id from rfl, h3]; simp, ?_⟩
    obtain ⟨c3, q1, q2, q3, q4⟩ := ctor_flash e clash true id valid (List.replicate cells.length e) data0
    have q1' : ctor (flash e clash) valid cells.length (List.replicate cells.length e) data0 = (List.replicate cells.length e, c3) := by
      have := q1; rw [List.length_replicate] at this; exact this
    intro st'
    have : st' = (List.replicate cells.length e, c3) := q1'
    rw [this]
    simp only
    rw [(read_flash e clash true id valid _ d2 c3 q2).2, latest, List.find?_eq_none]
    intro x hx
    simp at hx
    rw [hx.2, he]; simp

example : 0 ∉ [2, 4, 6] ∧ (fun d => decide (d = 6)) 0 = false ∧ latest (fun d => decide (d = 6)) [2, 4, 6] 3 = some 6 := by decide

/-! ### arbitrary storage -/

/-- events of a call of `write`: at most one erase, a bounded number of probes, at most one low-level write, which comes
last and directly follows a positive probe of the same cell -/
def Shape (S : Storage σ D) (v : Variant) (N : Nat) (d : D) (b : Bool) (c : Nat) (s : σ) : Prop :=
  ∀ log, ∃ ev : List (Event × σ), (writeLoop (logged S) v N d b c (s, log)).1.2 = log ++ ev ∧
    (ev.map (·.1)).countP Event.isErase ≤ (if b then 0 else 1) ∧
    (ev.map (·.1)).countP Event.isProbe ≤ max 1 (N - c) + (if b then 0 else max 1 N) ∧
    (∀ x ∈ ev.map (·.1), ∀ p ok, x ≠ .read p ok) ∧
    (((writeLoop (logged S) v N d b c (s, log)).2.2 = false ∧ (∀ x ∈ ev.map (·.1), x.isWrite = false) ∧
        (∀ x ∈ ev.map (·.1), ∀ p, x ≠ .probe p true)) ∨
     ((∀ x ∈ ev.map (·.1), x ≠ .erase false) ∧
      ∃ pre p, ev.map (·.1) = pre ++ [.probe p true, .write p (writeLoop (logged S) v N d b c (s, log)).2.2] ∧
        (∀ x ∈ pre, x.isWrite = false)))

theorem shape (S : Storage σ D) (v : Variant) (N : Nat) (d : D) (b : Bool) (c : Nat) (s : σ) : Shape S v N d b c s := by
  refine loop_cases S v N d (Shape S v N d) ?_ ?_ ?_ ?_ ?_ b c s
  · intro b c s h log
    rw [loop_write (logged S) v N d b c _ (by rw [logged_writeable]; exact h), logged_writeable, logged_write]
    refine ⟨[(.probe c true, (S.writeable s c).1), (.write c (S.write (S.writeable s c).1 d c).2, (S.write (S.writeable s c).1 d c).1)],
      by simp [h], by simp [Event.isErase], ?_, by simp, .inr ⟨by simp, [], c, by simp, by simp⟩⟩
    simp [List.countP_cons, Event.isProbe]; omega
  · intro b c s h hc ih log
    rw [loop_next (logged S) v N d b c _ (by rw [logged_writeable]; exact h) hc, logged_writeable]
    obtain ⟨ev, h1, h2, h3, h4, h5⟩ := ih (log ++ [(.probe c (S.writeable s c).2, (S.writeable s c).1)])
    refine ⟨(.probe c false, (S.writeable s c).1) :: ev, ?_, ?_, ?_, ?_, ?_⟩
    · rw [h1, h]; simp
    · simpa [Event.isErase] using h2
    · rw [List.map_cons, List.countP_cons]
      simp only [Event.isProbe, if_true]
      omega
    · intro x hx p ok
      rcases List.mem_cons.mp hx with rfl | hx
      · simp
      · exact h4 x hx p ok
    · rcases h5 with ⟨h5, h6, h7⟩ | ⟨h5, pre, p, h6, h7⟩
      · left
        refine ⟨h5, ?_, ?_⟩
        · intro x hx
          rcases List.mem_cons.mp hx with rfl | hx
          · rfl
          · exact h6 x hx
        · intro x hx p
          rcases List.mem_cons.mp hx with rfl | hx
          · simp
          · exact h7 x hx p
      · right
        refine ⟨?_, .probe c false :: pre, p, by rw [List.map_cons, h6]; rfl, ?_⟩
        · intro x hx
          rcases List.mem_cons.mp hx with rfl | hx
          · simp
          · exact h5 x hx
        · intro x hx
          rcases List.mem_cons.mp hx with rfl | hx
          · rfl
          · exact h7 x hx
  · intro c s h hc log
    rw [loop_giveup (logged S) v N d c _ (by rw [logged_writeable]; exact h) hc, logged_writeable]
    refine ⟨[(.probe c false, (S.writeable s c).1)], by simp [h], by simp [Event.isErase], ?_, by simp,
      .inl ⟨rfl, by simp [Event.isWrite], by simp⟩⟩
    simp [List.countP_cons, Event.isProbe]; omega
  · intro c s h hc he ih log
    rw [loop_erase (logged S) v N d c _ (by rw [logged_writeable]; exact h) hc (by rw [logged_writeable, logged_erase]; exact he),
      logged_writeable, logged_erase]
    obtain ⟨ev, h1, h2, h3, h4, h5⟩ := ih (log ++ [(.probe c (S.writeable s c).2, (S.writeable s c).1)] ++
      [(.erase (S.erase (S.writeable s c).1).2, (S.erase (S.writeable s c).1).1)])
    refine ⟨(.probe c false, (S.writeable s c).1) :: (.erase true, (S.erase (S.writeable s c).1).1) :: ev, ?_, ?_, ?_, ?_, ?_⟩
    · rw [h1, h, he]; simp
    · simp only [List.map_cons, List.countP_cons, Event.isErase]
      simp at h2 ⊢
      exact h2
    · simp only [List.map_cons, List.countP_cons, Event.isProbe]
      simp at h3 ⊢
      omega
    · intro x hx p ok
      rcases List.mem_cons.mp hx with rfl | hx
      · simp
      · rcases List.mem_cons.mp hx with rfl | hx
        · simp
        · exact h4 x hx p ok
    · rcases h5 with ⟨h5, h6, h7⟩ | ⟨h5, pre, p, h6, h7⟩
      · left
        refine ⟨h5, ?_, ?_⟩
        · intro x hx
          rcases List.mem_cons.mp hx with rfl | hx
          · rfl
          · rcases List.mem_cons.mp hx with rfl | hx
            · rfl
            · exact h6 x hx
        · intro x hx p
          rcases List.mem_cons.mp hx with rfl | hx
          · simp
          · rcases List.mem_cons.mp hx with rfl | hx
            · simp
            · exact h7 x hx p
      · right
        refine ⟨?_, .probe c false :: .erase true :: pre, p, by rw [List.map_cons, List.map_cons, h6]; rfl, ?_⟩
        · intro x hx
          rcases List.mem_cons.mp hx with rfl | hx
          · simp
          · rcases List.mem_cons.mp hx with rfl | hx
            · simp
            · exact h5 x hx
        · intro x hx
          rcases List.mem_cons.mp hx with rfl | hx
          · rfl
          · rcases List.mem_cons.mp hx with rfl | hx
            · rfl
            · exact h7 x hx
  · intro c s h hc he log
    rw [loop_erase_fail (logged S) v N d c _ (by rw [logged_writeable]; exact h) hc (by rw [logged_writeable, logged_erase]; exact he),
      logged_writeable, logged_erase]
    refine ⟨[(.probe c false, (S.writeable s c).1), (.erase false, (S.erase (S.writeable s c).1).1)], by simp [h, he],
      by simp [Event.isErase], ?_, by simp, .inl ⟨rfl, by simp [Event.isWrite], by simp⟩⟩
    simp [List.countP_cons, Event.isProbe]; omega

/-- **C34**: on storage behaving in any way whatsoever, a call of `write` terminates (it is a total function of the model,
whose loop is the code's), erases at most once, probes at most `max 1 N + max 1 (N - cell_)` cells, reads nothing, and if
an erase fails or no probed cell is writeable it returns false without having written anything. -/
theorem C34_write_terminates (S : Storage σ D) (v : Variant) (N : Nat) (d : D) (c : Nat) (s : σ) :
    let ev := (writeLog S v N d c s).map (·.1)
    ev.countP Event.isErase ≤ 1 ∧ ev.countP Event.isProbe ≤ max 1 N + max 1 (N - c) ∧ (∀ p ok, Event.read p ok ∉ ev) ∧
    ev.countP Event.isWrite ≤ 1 ∧
    ((Event.erase false ∈ ev ∨ ∀ p, Event.probe p true ∉ ev) →
      (write S v N d c s).2.2 = false ∧ ev.countP Event.isWrite = 0) := by
  intro ev
  obtain ⟨l, h1, h2, h3, h4, h5⟩ := shape S v N d false c s []
  have hl : ev = l.map (·.1) := by simp only [ev, writeLog, write, h1]; rfl
  have hres := (writeLoop_logged S v N d false c s []).2
  rw [hl]
  have hw0 : ∀ m : List Event, (∀ x ∈ m, x.isWrite = false) → m.countP Event.isWrite = 0 := by
    intro m hm; rw [List.countP_eq_zero]; intro x hx; rw [hm x hx]; simp
  refine ⟨by simpa using h2, by simp only [Bool.false_eq_true, if_false] at h3; omega, fun p ok hm => h4 _ hm p ok rfl, ?_, ?_⟩
  · rcases h5 with ⟨_, h6, _⟩ | ⟨_, pre, p, h6, h7⟩
    · rw [hw0 _ h6]; omega
    · rw [h6, List.countP_append, hw0 _ h7]; simp [List.countP_cons, Event.isWrite]
  · intro hcond
    rcases h5 with ⟨h5, h6, _⟩ | ⟨h5, pre, p, h6, h7⟩
    · exact ⟨by rw [write, ← hres]; exact h5, hw0 _ h6⟩
    · rcases hcond with hc | hc
      · exact absurd rfl (h5 _ hc)
      · exact absurd (by rw [h6]; simp) (hc p)

/-- storage on which everything fails -/
example : let S : Storage Unit Nat := ⟨fun s d _ => (s, false, d), fun s _ _ => (s, false), fun s => (s, true), fun s _ => (s, false)⟩
    (writeLog S .leveler 2 9 0 ()).map (·.1) = [.probe 0 false, .probe 1 false, .erase true, .probe 0 false, .probe 1 false] := by
  simp [writeLog, write, writeLoop, logged]

/-- **C33**: on any storage, the low-level write is only applied to a cell that was reported writeable by the operation
just before, and it is the last operation of the call, whose result is the result of the low-level write. -/
theorem C33_writes_only_writeable (S : Storage σ D) (v : Variant) (N : Nat) (d : D) (c : Nat) (s : σ) (p : Nat) (ok : Bool)
    (hw : Event.write p ok ∈ (writeLog S v N d c s).map (·.1)) :
    ∃ pre, (writeLog S v N d c s).map (·.1) = pre ++ [.probe p true, .write p ok] ∧ (write S v N d c s).2.2 = ok := by
  obtain ⟨l, h1, _, _, _, h5⟩ := shape S v N d false c s []
  have hl : (writeLog S v N d c s).map (·.1) = l.map (·.1) := by simp only [writeLog, write, h1]; rfl
  have hres := (writeLoop_logged S v N d false c s []).2
  rw [hl] at hw ⊢
  rcases h5 with ⟨_, h6, _⟩ | ⟨_, pre, p', h6, h7⟩
  · exact absurd (h6 _ hw) (by simp [Event.isWrite])
  · rw [h6] at hw
    rcases List.mem_append.mp hw with hm | hm
    · exact absurd (h7 _ hm) (by simp [Event.isWrite])
    · simp only [List.mem_cons, reduceCtorEq, Event.write.injEq, List.not_mem_nil, or_false, false_or] at hm
      obtain ⟨rfl, rfl⟩ := hm
      exact ⟨pre, h6, by rw [write, hres]⟩

example := C33_writes_only_writeable (flash 0 (fun a _ => a)) .leveler 2 9 0 [5, 0] 1 true (by simp [writeLog, write, writeLoop, flash, logged])

/-! ### levelling -/

/-- Cells written since the last erase. -/
def since (acc : List Nat) : List Event → List Nat
  | [] => acc
  | .write p _ :: l => since (p :: acc) l
  | .erase true :: l => since [] l
  | .erase false :: l | .read _ _ :: l | .probe _ _ :: l => since acc l

theorem levelled_append (l2 l1 : List Event) : ∀ acc, levelled acc (l1 ++ l2) ↔ levelled acc l1 ∧ levelled (since acc l1) l2 := by
  induction l1 with
  | nil => intro acc; simp [levelled, since]
  | cons x l1 ih =>
    intro acc
    cases x with
    | erase ok => cases ok <;> simp [levelled, since, ih]
    | _ => simp [levelled, since, ih, and_assoc]

theorem since_append (l2 l1 : List Event) : ∀ acc, since acc (l1 ++ l2) = since (since acc l1) l2 := by
  induction l1 with
  | nil => intro acc; simp [since]
  | cons x l1 ih =>
    intro acc
    cases x with
    | erase ok => cases ok <;> simp [since, ih]
    | _ => simp [since, ih]

theorem quiet_levelled (ps : List Event) (h : ∀ x ∈ ps, x.isErase = false ∧ x.isWrite = false) :
    ∀ acc, levelled acc ps ∧ since acc ps = acc := by
  induction ps with
  | nil => intro acc; simp [levelled, since]
  | cons x ps ih =>
    intro acc
    have h1 := h x (by simp)
    have h2 := ih (fun y hy => h y (by simp [hy])) acc
    cases x <;> simp_all [levelled, since, Event.isErase, Event.isWrite]

theorem AllProbes.quiet {cells : List D} {ps : List (Event × List D)} (h : AllProbes cells ps) :
    ∀ x ∈ ps.map (·.1), x.isErase = false ∧ x.isWrite = false := by
  intro x hx
  obtain ⟨y, hy, rfl⟩ := List.mem_map.mp hx
  have := (h y hy).1
  generalize y.1 = z at this
  cases z <;> simp_all [Event.isProbe, Event.isErase, Event.isWrite]

/-- The constructor only reads. -/
theorem ctor_logged (S : Storage σ D) (valid : D → Bool) (N : Nat) : ∀ (s : σ) (log : List (Event × σ)) (d : D),
    ∃ rs, ctor (logged S) valid N (s, log) d = (((ctor S valid N s d).1, log ++ rs), (ctor S valid N s d).2) ∧
      ∀ x ∈ rs.map (·.1), x.isErase = false ∧ x.isWrite = false := by
  unfold ctor
  induction N with
  | zero => intro s log d; exact ⟨[], by simp [scan], by simp⟩
  | succ N ih =>
    intro s log d
    unfold scan
    simp only [logged_read]
    obtain ⟨rs, h1, h2⟩ := ih (S.read s d N).1 (log ++ [(.read N (S.read s d N).2.1, (S.read s d N).1)]) (S.read s d N).2.2
    have h3 : ∀ x ∈ ((.read N (S.read s d N).2.1, (S.read s d N).1) :: rs).map (·.1), x.isErase = false ∧ x.isWrite = false := by
      intro x hx
      rcases List.mem_cons.mp hx with rfl | hx
      · exact ⟨rfl, rfl⟩
      · exact h2 x hx
    obtain ⟨rr, hr⟩ : ∃ rr, S.read s d N = rr := ⟨_, rfl⟩
    obtain ⟨s1, ok, d'⟩ := rr
    rw [hr] at h1 h3
    simp only [hr] at h1 h3 ⊢
    cases ok with
    | false => exact ⟨_, by simp only [Bool.false_eq_true, if_false]; rw [h1]; simp, h3⟩
    | true =>
      cases hv : valid d' with
      | false => exact ⟨_, by simp only [Bool.false_eq_true, if_false, if_true]; rw [h1]; simp, h3⟩
      | true => exact ⟨[(.read N true, s1)], by simp, by simp [Event.isErase, Event.isWrite]⟩

theorem levelled_run (e : D) (clash : D → D → D) (valid : D → Bool) (he : valid e = false) (v : Variant) (N : Nat)
    (hp : 0 < N) (data0 : D) (acts : List (Act D)) (hall : ∀ d ∈ writes acts, valid d = true) :
    ∀ (cells : List D) (c : Nat) (log : List (Event × List D)), cells.length = N → levelled [] (log.map (·.1)) →
      (∀ p ∈ since [] (log.map (·.1)), cells[p]? ≠ some e) →
      levelled [] (((runActs (logged (flash e clash)) valid v N data0 acts ((cells, log), c)).1.2).map (·.1)) := by
  induction acts with
  | nil => intro cells c log _ h1 _; exact h1
  | cons a acts ih =>
    intro cells c log hN h1 h2
    cases a with
    | restart =>
      obtain ⟨rs, g1, g2⟩ := ctor_logged (flash e clash) valid N cells log data0
      obtain ⟨c', k1, _, _⟩ := ctor_flash e clash true id valid cells data0
      rw [hN] at k1
      simp only [runActs]
      rw [g1, show (flash e clash) = flash e clash true id from rfl, k1]
      obtain ⟨q1, q2⟩ := quiet_levelled _ g2 (since [] (log.map (·.1)))
      refine ih (fun d hd => hall d (by simpa [writes] using hd)) cells c' _ hN ?_ ?_
      · rw [List.map_append, levelled_append]; exact ⟨h1, q1⟩
      · rw [List.map_append, since_append, q2]; exact h2
    | write d =>
      have hd : valid d = true := hall d (by simp [writes])
      have hde : d ≠ e := by rintro rfl; rw [he] at hd; cases hd
      subst hN
      simp only [runActs]
      have hrec := ih (fun d hd => hall d (by simp [writes, hd]))
      rcases write_flash e clash id v cells hp d c log with ⟨p, ps, g1, g2, g3, g4, g5, g6⟩ | ⟨g1, ps, g2, g3⟩
      · rw [show (flash e clash) = flash e clash true id from rfl, g6]
        obtain ⟨q1, q2⟩ := quiet_levelled _ g1.quiet (since [] (log.map (·.1)))
        refine hrec _ _ _ (by simp) ?_ ?_
        · simp only [List.map_append, List.append_assoc]
          rw [levelled_append, levelled_append]
          refine ⟨h1, q1, ?_⟩
          rw [q2]
          simp only [List.map_cons, List.map_nil, levelled, and_true]
          exact fun hm => h2 p hm g4
        · simp only [List.map_append, List.append_assoc]
          rw [since_append, since_append, q2]
          simp only [List.map_cons, List.map_nil, since]
          intro p' hp'
          by_cases hpp : p = p'
          · subst hpp; rw [List.getElem?_set_self g3]; simpa using hde
          · rw [List.getElem?_set_ne hpp]
            rcases List.mem_cons.mp hp' with rfl | hp'
            · exact absurd rfl hpp
            · exact h2 p' hp'
      · rw [show (flash e clash) = flash e clash true id from rfl, g3]
        obtain ⟨q1, q2⟩ := quiet_levelled _ g2.quiet (since [] (log.map (·.1)))
        refine hrec _ _ _ (by simp) ?_ ?_
        · simp only [List.map_append, List.append_assoc]
          rw [levelled_append, levelled_append]
          refine ⟨h1, q1, ?_⟩
          rw [q2]
          simp [levelled]
        · simp only [List.map_append, List.append_assoc]
          rw [since_append, since_append, q2]
          simp only [List.map_cons, List.map_nil, since]
          intro p' hp'
          simp only [List.mem_singleton] at hp'
          subst hp'
          rw [List.getElem?_set_self (by simpa using hp)]; simpa using hde

/-- **C33**: on a fault-free block with any contents, in any history of writes of valid records and restarts, each cell is
written at most once between two erases. -/
theorem C33_each_cell_once (e : D) (clash : D → D → D) (valid : D → Bool) (he : valid e = false) (v : Variant) (cells : List D)
    (hp : 0 < cells.length) (data0 : D) (acts : List (Act D)) (hall : ∀ d ∈ writes acts, valid d = true) (c : Nat) :
    levelled [] (((runActs (logged (flash e clash)) valid v cells.length data0 acts ((cells, []), c)).1.2).map (·.1)) :=
  levelled_run e clash valid he v cells.length hp data0 acts hall cells c [] rfl trivial (by simp [since])

example := C33_each_cell_once 0 (fun a _ => a) (fun d => d == 2) (by decide) .level [0, 0] (by decide) 1 [.write 2, .write 2, .restart, .write 2] (by decide) 0

/-- erases and low-level writes of a log -/
def effects (log : List (Event × List D)) : List Event := (log.map (·.1)).filter (fun x => x.isErase || x.isWrite)

theorem effects_append (a b : List (Event × List D)) : effects (a ++ b) = effects a ++ effects b := by simp [effects]

theorem effects_quiet {ps : List (Event × List D)} (h : ∀ x ∈ ps.map (·.1), x.isErase = false ∧ x.isWrite = false) : effects ps = [] := by
  unfold effects
  rw [List.filter_eq_nil_iff]
  intro x hx
  simp [h x hx]

/-- State after `n` writes to a blank block. -/
def Filled (e : D) (valid : D → Bool) (N n : Nat) (cells : List D) (c : Nat) : Prop :=
  cells.length = N ∧ c = (if n = 0 then 0 else (n - 1) % N + 1) ∧
  (∀ i : Nat, i < c → ∃ x, cells[i]? = some x ∧ valid x = true) ∧ (∀ i : Nat, c ≤ i → i < N → cells[i]? = some e)

theorem schedule_run (e : D) (clash : D → D → D) (valid : D → Bool) (he : valid e = false) (v : Variant) (N : Nat)
    (hp : 0 < N) (data0 : D) (acts : List (Act D)) (hall : ∀ d ∈ writes acts, valid d = true) :
    ∀ (cells : List D) (c n : Nat) (log : List (Event × List D)), Filled e valid N n cells c → effects log = schedule N n →
      effects (runActs (logged (flash e clash)) valid v N data0 acts ((cells, log), c)).1.2 = schedule N (n + (writes acts).length) := by
  induction acts with
  | nil => intro cells c n log _ h; exact h
  | cons a acts ih =>
    intro cells c n log hF hS
    obtain ⟨hN, hc, hlow, hhigh⟩ := hF
    have hcN : c ≤ N := by
      rw [hc]
      split
      · omega
      · exact Nat.mod_lt _ hp
    cases a with
    | restart =>
      obtain ⟨rs, g1, g2⟩ := ctor_logged (flash e clash) valid N cells log data0
      obtain ⟨c', k1, k2, k3, k4⟩ := scan_flash e clash true id valid cells data0 cells.length (Nat.le_refl _)
      have hcc : c' = c := by
        rcases Nat.lt_trichotomy c' c with h | h | h
        · obtain ⟨x, hx, hv⟩ := hlow c' h
          rw [k3 c' x (Nat.le_refl _) (by omega) hx] at hv; cases hv
        · exact h
        · rcases k4 with k4 | ⟨x, hx, hv⟩
          · omega
          · rw [hhigh (c' - 1) (by omega) (by omega)] at hx
            cases hx
            rw [he] at hv; cases hv
      have k1' : ctor (flash e clash) valid N cells data0 = (cells, c) := by
        rw [← hcc, ← hN]; exact k1
      simp only [runActs]
      rw [g1, k1']
      refine ih (fun d hd => hall d (by simpa [writes] using hd)) cells c n _ ⟨hN, hc, hlow, hhigh⟩ ?_
      rw [effects_append, effects_quiet g2, List.append_nil]; exact hS
    | write d =>
      have hd : valid d = true := hall d (by simp [writes])
      simp only [runActs, writes, List.length_cons]
      rw [show n + ((writes acts).length + 1) = n + 1 + (writes acts).length by omega]
      have hrec := ih (fun d hd => hall d (by simp [writes, hd]))
      subst hN
      have hcn : c < cells.length → n % cells.length = c := by
        intro hlt
        rw [hc] at hlt ⊢
        split
        · next h => subst h; simp
        · next h =>
          rw [if_neg h] at hlt
          conv => lhs; rw [show n = (n - 1) + 1 by omega, Nat.add_mod]
          have h1 : (n - 1) % cells.length < cells.length := Nat.mod_lt _ hp
          have : 1 % cells.length = 1 := Nat.mod_eq_of_lt (by omega)
          rw [this, Nat.mod_eq_of_lt hlt]
      rcases write_flash e clash id v cells hp d c log with ⟨p, ps, g1, g2, g3, g4, g5, g6⟩ | ⟨g1, ps, g2, g3⟩
      · have hpc : p = c := by
          rcases Nat.lt_or_ge c p with h | h
          · exact absurd (hhigh c (Nat.le_refl _) (by omega)) (g5 c (Nat.le_refl _) h)
          · omega
        subst hpc
        rw [show (flash e clash) = flash e clash true id from rfl, g6]
        have hcn := hcn g3
        refine hrec _ _ _ _ ⟨by simp, ?_, ?_, ?_⟩ ?_
        · rw [if_neg (by omega), Nat.add_sub_cancel, hcn]
        · intro i hi
          simp only at hi
          by_cases hip : p = i
          · subst hip; exact ⟨d, List.getElem?_set_self g3, hd⟩
          · rw [List.getElem?_set_ne hip]; exact hlow i (by omega)
        · intro i hi hi2
          simp only at hi
          rw [List.getElem?_set_ne (by omega)]; exact hhigh i (by omega) hi2
        · rw [effects_append, effects_append, effects_quiet g1.quiet, List.append_nil, hS, schedule, hcn]
          have : ¬ (n > 0 ∧ p = 0) := by
            rintro ⟨h1, h2⟩
            rw [if_neg (by omega)] at hc; omega
          rw [if_neg this]
          simp [effects, Event.isErase, Event.isWrite]
      · have hcN' : c = cells.length := by
          rcases Nat.lt_or_ge c cells.length with h | h
          · exact absurd (hhigh c (Nat.le_refl _) h) (g1 c (Nat.le_refl _))
          · omega
        have hn0 : n ≠ 0 := by rintro rfl; simp at hc; omega
        have hmod : n % cells.length = 0 := by
          rw [hcN', if_neg hn0] at hc
          have h1 : (n - 1) % cells.length = cells.length - 1 := by omega
          have h2 := Nat.div_add_mod (n - 1) cells.length
          rw [h1] at h2
          have h3 : n = cells.length * ((n - 1) / cells.length + 1) := by rw [Nat.mul_add]; omega
          rw [h3]; exact Nat.mul_mod_right _ _
        rw [show (flash e clash) = flash e clash true id from rfl, g3]
        refine hrec _ _ _ _ ⟨by simp, ?_, ?_, ?_⟩ ?_
        · rw [if_neg (by omega), Nat.add_sub_cancel, hmod]
        · intro i hi
          simp only at hi
          have : i = 0 := by omega
          subst this
          exact ⟨d, List.getElem?_set_self (by simpa using hp), hd⟩
        · intro i hi hi2
          simp only at hi
          rw [List.getElem?_set_ne (by omega), List.getElem?_replicate, if_pos hi2]
        · rw [effects_append, effects_append, effects_quiet g2.quiet, List.append_nil, hS, schedule, hmod, if_pos ⟨by omega, rfl⟩]
          simp [effects, Event.isErase, Event.isWrite]

/-- **C33**: on a blank fault-free block of `N` cells, writing `n` valid records with restarts anywhere in between causes
exactly these erases and low-level writes: the `i`-th record goes to cell `i mod N`, with an erase exactly before records
N, 2N, 3N, ... (counting from 0). -/
theorem C33_schedule (e : D) (clash : D → D → D) (valid : D → Bool) (he : valid e = false) (v : Variant) (N : Nat)
    (hp : 0 < N) (data0 : D) (acts : List (Act D)) (hall : ∀ d ∈ writes acts, valid d = true) :
    effects (runActs (logged (flash e clash)) valid v N data0 (.restart :: acts) ((List.replicate N e, []), N)).1.2
      = schedule N (writes acts).length := by
  obtain ⟨rs, g1, g2⟩ := ctor_logged (flash e clash) valid N (List.replicate N e) [] data0
  obtain ⟨c', k1, k2, k3, k4⟩ := scan_flash e clash true id valid (List.replicate N e) data0 N (by simp)
  have hc : c' = 0 := by
    rcases k4 with k4 | ⟨x, hx, hv⟩
    · exact k4
    · rw [List.getElem?_replicate] at hx
      split at hx
      · cases hx; rw [he] at hv; cases hv
      · cases hx
  subst hc
  have k1' : ctor (flash e clash) valid N (List.replicate N e) data0 = (List.replicate N e, 0) := k1
  simp only [runActs]
  rw [g1, k1']
  have := schedule_run e clash valid he v N hp data0 acts hall (List.replicate N e) 0 0 ([] ++ rs)
    ⟨by simp, by simp, by intro i hi; omega, by intro i _ hi; rw [List.getElem?_replicate, if_pos hi]⟩
    (by rw [List.nil_append, effects_quiet g2]; rfl)
  rw [Nat.zero_add] at this
  exact this

example : schedule 3 5 = [.write 0 true, .write 1 true, .write 2 true, .erase true, .write 0 true, .write 1 true] := by decide

/-! ### reading -/

/-- A block whose low-level reads fail for the cells in `bad`, leaving the caller's variable alone. -/
def flaky (e : D) (clash : D → D → D) (bad : Nat → Bool) : Storage (List D) D :=
  { flash e clash with
    read := fun s d c => if bad c then (s, false, d) else (flash e clash).read s d c }

/-- **C35 (partial)**: if the caller's variable does not itself hold a valid record, then whatever reads fail and whatever
`cell_` is, a record returned by `read` is valid and is in the block. Missing: variables that already hold a valid record. -/
theorem C35_read_partial (e : D) (clash : D → D → D) (bad : Nat → Bool) (valid : D → Bool) (cells : List D) (c : Nat) :
    ∀ (d x : D), valid d = false → result (read (flaky e clash bad) valid c cells d) = some x → x ∈ cells ∧ valid x = true := by
  induction c with
  | zero => intro d x _ h; simp [read, result] at h
  | succ c ih =>
    intro d x hd h
    unfold read at h
    simp only [flaky] at h
    by_cases hb : bad c = true
    · simp only [hb, if_true, hd, Bool.false_eq_true, if_false] at h
      exact ih d x hd h
    · simp only [hb, if_false, Bool.false_eq_true] at h
      cases hx : cells[c]? with
      | none =>
        have hr : (flash e clash).read cells d c = (cells, false, d) := by simp [flash, hx]
        simp only [hr, hd, Bool.false_eq_true, if_false] at h
        exact ih d x hd h
      | some y =>
        rw [flash_read hx] at h
        simp only at h
        by_cases hv : valid y = true
        · simp only [hv, if_true, result, Option.some.injEq] at h
          subst h
          exact ⟨List.mem_of_getElem? hx, hv⟩
        · simp only [hv, if_false, Bool.false_eq_true] at h
          exact ih y x (by simpa using hv) h

/-- **C35 (partial)**: without failing reads, also when the caller's variable holds a valid record. -/
theorem C35_read_no_fault_partial (e : D) (clash : D → D → D) (valid : D → Bool) (cells : List D) (c : Nat) (hc : c ≤ cells.length)
    (d x : D) (h : result (read (flash e clash) valid c cells d) = some x) : x ∈ cells ∧ valid x = true := by
  rw [(read_flash e clash true id valid cells d c hc).2, latest] at h
  exact ⟨List.mem_of_mem_take (List.mem_reverse.mp (List.mem_of_find?_eq_some h)), List.find?_some h⟩

/-- a record is found behind an unreadable and a garbage cell; an unreadable cell is skipped -/
example : result (read (flaky 0 (fun a _ => a) (fun c => c == 2)) (fun d => d == 8) 3 [8, 5, 8] 1) = some 8 := by decide

/-- **C35 is violated**: a failing low-level read makes `read` return true with whatever valid-looking record the caller's
variable held before the call, although no cell of the block contains it. -/
theorem C35_read_violated : result (read (flaky 0 (fun a _ => a) (fun c => c == 1)) (fun d => decide (d = 8 ∨ d = 6)) 2 [8, 0, 0] 6) = some 6 := by
  decide

/-! ### failing erase -/

/-- **C36 (partial)**: WearLevel, after any history: if the block is used up and the erase fails leaving the block unchanged,
`write` returns false and `read` into a variable that does not hold a valid record returns what it returned before. -/
theorem C36_failed_erase_partial (e : D) (clash : D → D → D) (valid : D → Bool) (cells : List D) (c : Nat) (hc : c ≤ cells.length)
    (ha : Above valid cells c) (hfull : ∀ j : Nat, c ≤ j → cells[j]? ≠ some e) (d d1 d2 : D) (hd : valid d2 = false) :
    ∃ c', write (flash e clash false) .level cells.length d c cells = (cells, c', false) ∧
      result (read (flash e clash false) valid c' cells d2) = result (read (flash e clash false) valid c cells d1) := by
  refine ⟨_, full_loop_fail e clash id .level cells.length d cells rfl _ c (Nat.le_refl _) hfull, ?_⟩
  rw [(read_flash_invalid e clash false id valid cells d2 hd _).2, (read_flash e clash false id valid cells d1 c hc).2]
  rw [show max cells.length (c + 1) = c + (max cells.length (c + 1) - c) by omega]
  exact latest_skip valid _ (fun i x h1 _ hx => ha i x h1 hx)

/-- a used-up block -/
example : Above (fun d => d == 6) [6, 5] 1 ∧ (∀ j : Nat, 1 ≤ j → ([6, 5] : List Nat)[j]? ≠ some 0) ∧
    latest (fun d => d == 6) [6, 5] 1 = some 6 := by
  refine ⟨?_, ?_, by decide⟩
  · intro i x hi hx
    match i, hi with
    | 1, _ => simp at hx; subst hx; rfl
    | i + 2, _ => simp at hx
  · intro j hj
    match j, hj with
    | 1, _ => simp
    | j + 2, _ => simp

/-- **C36 is violated** by WearLeveler: after the failed erase `read` reports that there is no data, whatever is stored. -/
theorem C36_leveler_failed_erase_violated (e : D) (clash : D → D → D) (valid : D → Bool) (cells : List D) (c : Nat)
    (hfull : ∀ j : Nat, c ≤ j → cells[j]? ≠ some e) (d d2 : D) :
    ∃ c', write (flash e clash false) .leveler cells.length d c cells = (cells, c', false) ∧
      result (read (flash e clash false) valid c' cells d2) = none :=
  ⟨_, full_loop_fail e clash id .leveler cells.length d cells rfl _ c (Nat.le_refl _) hfull, by simp [read, result]⟩

/-- **C36 is violated** by WearLevel when the block was filled to the top and the caller's variable holds a valid record:
after the failed erase `read` returns the caller's own old data instead of the stored record. -/
theorem C36_level_failed_erase_violated :
    ∃ c', write (flash 0 (fun a _ => a) false) .level 2 4 2 [2, 6] = ([2, 6], c', false) ∧
      result (read (flash 0 (fun a _ => a) false) (fun d => d % 2 == 0) 2 [2, 6] 8) = some 6 ∧
      result (read (flash 0 (fun a _ => a) false) (fun d => d % 2 == 0) c' [2, 6] 8) = some 8 := by
  refine ⟨3, ?_, by decide, by decide⟩
  simp [write, writeLoop, flash]

end WearLevel
