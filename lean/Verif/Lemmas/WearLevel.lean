import Verif.Spec.WearLevel
/-! # Lemmas about the wear levellers -/
set_option linter.unusedSectionVars false
set_option linter.unusedVariables false
set_option linter.unusedSimpArgs false
namespace WearLevel
variable {σ D : Type}

/-! ### the five ways through one iteration of the write loop -/

section steps
variable (S : Storage σ D) (v : Variant) (N : Nat) (d : D) (b : Bool) (c : Nat) (s : σ)

theorem loop_write (h : (S.writeable s c).2 = true) :
    writeLoop S v N d b c s = ((S.write (S.writeable s c).1 d c).1, c + 1, (S.write (S.writeable s c).1 d c).2) := by
  rw [writeLoop.eq_def]; simp [h]

theorem loop_next (h : (S.writeable s c).2 = false) (hc : c + 1 < N) :
    writeLoop S v N d b c s = writeLoop S v N d b (c + 1) (S.writeable s c).1 := by
  rw [writeLoop.eq_def]
  have : ¬ N ≤ c + 1 := by omega
  simp [h, this]

theorem loop_giveup (h : (S.writeable s c).2 = false) (hc : N ≤ c + 1) :
    writeLoop S v N d true c s = ((S.writeable s c).1, c + 1, false) := by
  rw [writeLoop.eq_def]; simp [h, hc]

theorem loop_erase (h : (S.writeable s c).2 = false) (hc : N ≤ c + 1) (he : (S.erase (S.writeable s c).1).2 = true) :
    writeLoop S v N d false c s = writeLoop S v N d true 0 (S.erase (S.writeable s c).1).1 := by
  rw [writeLoop.eq_def]; simp [h, hc, he]

theorem loop_erase_fail (h : (S.writeable s c).2 = false) (hc : N ≤ c + 1) (he : (S.erase (S.writeable s c).1).2 = false) :
    writeLoop S v N d false c s = ((S.erase (S.writeable s c).1).1, (match v with | .leveler => 0 | .level => c + 1), false) := by
  rw [writeLoop.eq_def]; cases v <;> simp [h, hc, he]

theorem logged_writeable (log : List (Event × σ)) :
    (logged S).writeable (s, log) c = (((S.writeable s c).1, log ++ [(.probe c (S.writeable s c).2, (S.writeable s c).1)]), (S.writeable s c).2) := rfl
theorem logged_erase (log : List (Event × σ)) :
    (logged S).erase (s, log) = (((S.erase s).1, log ++ [(.erase (S.erase s).2, (S.erase s).1)]), (S.erase s).2) := rfl
theorem logged_write (log : List (Event × σ)) :
    (logged S).write (s, log) d c = (((S.write s d c).1, log ++ [(.write c (S.write s d c).2, (S.write s d c).1)]), (S.write s d c).2) := rfl
theorem logged_read (log : List (Event × σ)) :
    (logged S).read (s, log) d c = (((S.read s d c).1, log ++ [(.read c (S.read s d c).2.1, (S.read s d c).1)]), (S.read s d c).2) := rfl

end steps

/-- Induction along the write loop. -/
theorem loop_cases (S : Storage σ D) (v : Variant) (N : Nat) (d : D) (P : Bool → Nat → σ → Prop)
    (h1 : ∀ b c s, (S.writeable s c).2 = true → P b c s)
    (h2 : ∀ b c s, (S.writeable s c).2 = false → c + 1 < N → P b (c + 1) (S.writeable s c).1 → P b c s)
    (h3 : ∀ c s, (S.writeable s c).2 = false → N ≤ c + 1 → P true c s)
    (h4 : ∀ c s, (S.writeable s c).2 = false → N ≤ c + 1 → (S.erase (S.writeable s c).1).2 = true →
      P true 0 (S.erase (S.writeable s c).1).1 → P false c s)
    (h5 : ∀ c s, (S.writeable s c).2 = false → N ≤ c + 1 → (S.erase (S.writeable s c).1).2 = false → P false c s)
    (b : Bool) (c : Nat) (s : σ) : P b c s := by
  induction b, c, s using writeLoop.induct S v N d with
  | case1 b c s w h => exact h1 b c s h
  | case2 c s w h h' => exact h3 c s (by simpa using h) h'
  | case3 b c s w h h' hb r hr ih =>
    obtain rfl : b = false := by simpa using hb
    exact h4 c s (by simpa using h) h' hr ih
  | case4 b c s w h h' hb r hr =>
    obtain rfl : b = false := by simpa using hb
    exact h5 c s (by simpa using h) h' (by simpa using hr)
  | case5 b c s w h h' hb r hr =>
    obtain rfl : b = false := by simpa using hb
    exact h5 c s (by simpa using h) h' (by simpa using hr)
  | case6 b c s w h h' ih => exact h2 b c s (by simpa using h) (by simpa using h') ih

theorem writeLoop_logged (S : Storage σ D) (v : Variant) (N : Nat) (d : D) (b : Bool) (c : Nat) (s : σ) :
    ∀ log, (writeLoop (logged S) v N d b c (s, log)).1.1 = (writeLoop S v N d b c s).1 ∧
      (writeLoop (logged S) v N d b c (s, log)).2 = (writeLoop S v N d b c s).2 := by
  refine loop_cases S v N d (fun b c s => ∀ log, (writeLoop (logged S) v N d b c (s, log)).1.1 = (writeLoop S v N d b c s).1 ∧
      (writeLoop (logged S) v N d b c (s, log)).2 = (writeLoop S v N d b c s).2) ?_ ?_ ?_ ?_ ?_ b c s
  · intro b c s h log
    rw [loop_write (logged S) v N d b c _ (by rw [logged_writeable]; exact h), loop_write S v N d b c s h]
    exact ⟨rfl, rfl⟩
  · intro b c s h hc ih log
    rw [loop_next (logged S) v N d b c _ (by rw [logged_writeable]; exact h) hc, loop_next S v N d b c s h hc]
    exact ih _
  · intro c s h hc log
    rw [loop_giveup (logged S) v N d c _ (by rw [logged_writeable]; exact h) hc, loop_giveup S v N d c s h hc]
    exact ⟨rfl, rfl⟩
  · intro c s h hc he ih log
    rw [loop_erase (logged S) v N d c _ (by rw [logged_writeable]; exact h) hc (by rw [logged_writeable, logged_erase]; exact he),
      loop_erase S v N d c s h hc he]
    exact ih _
  · intro c s h hc he log
    rw [loop_erase_fail (logged S) v N d c _ (by rw [logged_writeable]; exact h) hc (by rw [logged_writeable, logged_erase]; exact he),
      loop_erase_fail S v N d c s h hc he]
    exact ⟨rfl, rfl⟩

/-! ### the fault-free block -/

section flash
variable [DecidableEq D] (e : D) (clash : D → D → D) (eo : Bool) (put : D → D)

@[simp] theorem flash_writeable (s : List D) (c : Nat) : (flash e clash eo put).writeable s c = (s, decide (s[c]? = some e)) := rfl
@[simp] theorem flash_erase (s : List D) :
    (flash e clash eo put).erase s = if eo then (List.replicate s.length e, true) else (s, false) := rfl
theorem flash_read {e : D} {clash : D → D → D} {eo : Bool} {put : D → D} {s : List D} {c : Nat} {d x : D} (h : s[c]? = some x) :
    (flash e clash eo put).read s d c = (s, true, x) := by
  simp [flash, h]
theorem flash_write {s : List D} {c : Nat} (d : D) (h : s[c]? = some e) :
    (flash e clash eo put).write s d c = (s.set c (put d), true) := by
  simp [flash, h]

/-- all events of a list are probes that left the block as it was -/
def AllProbes (cells : List D) (ps : List (Event × List D)) : Prop := ∀ x ∈ ps, x.1.isProbe = true ∧ x.2 = cells

theorem find_loop (v : Variant) (N : Nat) (d : D) (b : Bool) (cells : List D) (hN : cells.length = N) (k : Nat) :
    ∀ (c : Nat) (log : List (Event × List D)), (∀ j : Nat, j < k → cells[c + j]? ≠ some e) → cells[c + k]? = some e →
    ∃ ps, AllProbes cells ps ∧ writeLoop (logged (flash e clash eo put)) v N d b c (cells, log)
      = ((cells.set (c + k) (put d), log ++ ps ++ [(.write (c + k) true, cells.set (c + k) (put d))]), c + k + 1, true) := by
  induction k with
  | zero =>
    intro c log _ hw
    refine ⟨[(.probe c true, cells)], by simp [AllProbes, Event.isProbe], ?_⟩
    rw [Nat.add_zero] at hw ⊢
    rw [loop_write]
    · rw [logged_writeable, logged_write]
      simp only [flash_writeable, hw, decide_true]
      rw [flash_write _ _ _ _ _ hw]
    · rw [logged_writeable]; simp [hw]
  | succ k ih =>
    intro c log hne hw
    have hlt := (List.getElem?_eq_some_iff.mp hw).1
    have h0 : cells[c]? ≠ some e := by have := hne 0 (by omega); simpa using this
    rw [loop_next _ _ _ _ _ _ _ (by rw [logged_writeable]; simp [h0]) (by omega), logged_writeable]
    simp only [flash_writeable, h0, decide_false]
    obtain ⟨ps, hp, hl⟩ := ih (c + 1) (log ++ [(.probe c false, cells)]) (by
      intro j hj
      have := hne (j + 1) (by omega)
      rwa [show c + (j + 1) = c + 1 + j by omega] at this) (by rwa [show c + 1 + k = c + (k + 1) by omega])
    refine ⟨(.probe c false, cells) :: ps, ?_, ?_⟩
    · intro x hx
      rcases List.mem_cons.mp hx with rfl | hx
      · exact ⟨rfl, rfl⟩
      · exact hp x hx
    · rw [hl, show c + 1 + k = c + (k + 1) by omega]
      simp

theorem full_loop (v : Variant) (N : Nat) (d : D) (cells : List D) (hN : cells.length = N) (hp : 0 < N) (k : Nat) :
    ∀ (c : Nat) (log : List (Event × List D)), N - c ≤ k → (∀ j : Nat, c ≤ j → cells[j]? ≠ some e) →
    ∃ ps, AllProbes cells ps ∧ writeLoop (logged (flash e clash true put)) v N d false c (cells, log)
      = (((List.replicate N e).set 0 (put d), log ++ ps ++ [(.erase true, List.replicate N e), (.probe 0 true, List.replicate N e), (.write 0 true, (List.replicate N e).set 0 (put d))]), 1, true) := by
  have herase : ∀ (c : Nat) (log : List (Event × List D)), N ≤ c + 1 → cells[c]? ≠ some e →
    ∃ ps, AllProbes cells ps ∧ writeLoop (logged (flash e clash true put)) v N d false c (cells, log)
      = (((List.replicate N e).set 0 (put d), log ++ ps ++ [(.erase true, List.replicate N e), (.probe 0 true, List.replicate N e), (.write 0 true, (List.replicate N e).set 0 (put d))]), 1, true) := by
    intro c log hc h0
    refine ⟨[(.probe c false, cells)], by simp [AllProbes, Event.isProbe], ?_⟩
    have hr : (List.replicate N e)[0]? = some e := by rw [List.getElem?_replicate, if_pos hp]
    rw [loop_erase _ _ _ _ _ _ (by rw [logged_writeable]; simp [h0]) hc (by rw [logged_writeable, logged_erase]; simp)]
    rw [logged_writeable, logged_erase]
    simp only [flash_writeable, flash_erase, if_true, hN, h0, decide_false]
    rw [loop_write _ _ _ _ _ _ _ (by rw [logged_writeable]; simp [hr]), logged_writeable, logged_write]
    simp only [flash_writeable, hr, decide_true]
    rw [flash_write _ _ _ _ _ hr]
    simp
  induction k with
  | zero => intro c log hc hne; exact herase c log (by omega) (hne c (by omega))
  | succ k ih =>
    intro c log hc hne
    by_cases h1 : N ≤ c + 1
    · exact herase c log h1 (hne c (by omega))
    · have h0 := hne c (by omega)
      rw [loop_next _ _ _ _ _ _ _ (by rw [logged_writeable]; simp [h0]) (by omega), logged_writeable]
      simp only [flash_writeable, h0, decide_false]
      obtain ⟨ps, hp, hl⟩ := ih (c + 1) (log ++ [(.probe c false, cells)]) (by omega) (fun j hj => hne j (by omega))
      refine ⟨(.probe c false, cells) :: ps, ?_, by rw [hl]; simp⟩
      intro x hx
      rcases List.mem_cons.mp hx with rfl | hx
      · exact ⟨rfl, rfl⟩
      · exact hp x hx

theorem full_loop_fail (v : Variant) (N : Nat) (d : D) (cells : List D) (hN : cells.length = N) (k : Nat) :
    ∀ (c : Nat), N - c ≤ k → (∀ j : Nat, c ≤ j → cells[j]? ≠ some e) →
    writeLoop (flash e clash false put) v N d false c cells
      = (cells, (match v with | .leveler => 0 | .level => max N (c + 1)), false) := by
  have herase : ∀ (c : Nat), N ≤ c + 1 → cells[c]? ≠ some e → writeLoop (flash e clash false put) v N d false c cells
      = (cells, (match v with | .leveler => 0 | .level => max N (c + 1)), false) := by
    intro c hc h0
    rw [loop_erase_fail _ _ _ _ _ _ (by simp [h0]) hc (by simp)]
    simp only [flash_writeable, flash_erase, Nat.max_eq_right hc]
    rfl
  induction k with
  | zero => intro c hc hne; exact herase c (by omega) (hne c (by omega))
  | succ k ih =>
    intro c hc hne
    by_cases h1 : N ≤ c + 1
    · exact herase c h1 (hne c (by omega))
    · have h0 := hne c (by omega)
      rw [loop_next _ _ _ _ _ _ _ (by simp [h0]) (by omega)]
      simp only [flash_writeable]
      rw [ih (c + 1) (by omega) (fun j hj => hne j (by omega))]
      cases v <;> simp; omega

/-- The first erased cell at or above `c`, if any. -/
theorem first_blank (cells : List D) (c : Nat) :
    (∃ k, (∀ j : Nat, j < k → cells[c + j]? ≠ some e) ∧ cells[c + k]? = some e) ∨ (∀ j : Nat, c ≤ j → cells[j]? ≠ some e) := by
  by_cases h : ∃ k, cells[c + k]? = some e
  · left
    obtain ⟨k, hk⟩ := h
    induction k using Nat.strongRecOn with
    | ind k ih =>
      by_cases h2 : ∃ j, j < k ∧ cells[c + j]? = some e
      · obtain ⟨j, hj, hj2⟩ := h2
        exact ih j hj hj2
      · exact ⟨k, fun j hj hj2 => h2 ⟨j, hj, hj2⟩, hk⟩
  · right
    intro j hj hj2
    exact h ⟨j - c, by rwa [show c + (j - c) = j by omega]⟩

/-- What `write` does to a fault-free block. -/
theorem write_flash (v : Variant) (cells : List D) (hp : 0 < cells.length) (d : D) (c : Nat) (log : List (Event × List D)) :
    (∃ p ps, AllProbes cells ps ∧ c ≤ p ∧ p < cells.length ∧ cells[p]? = some e ∧ (∀ j : Nat, c ≤ j → j < p → cells[j]? ≠ some e) ∧
      write (logged (flash e clash true put)) v cells.length d c (cells, log)
        = ((cells.set p (put d), log ++ ps ++ [(.write p true, cells.set p (put d))]), p + 1, true)) ∨
    ((∀ j : Nat, c ≤ j → cells[j]? ≠ some e) ∧ ∃ ps, AllProbes cells ps ∧
      write (logged (flash e clash true put)) v cells.length d c (cells, log)
        = (((List.replicate cells.length e).set 0 (put d), log ++ ps ++ [(.erase true, List.replicate cells.length e), (.probe 0 true, List.replicate cells.length e), (.write 0 true, (List.replicate cells.length e).set 0 (put d))]), 1, true)) := by
  rcases first_blank e cells c with ⟨k, h1, h2⟩ | h
  · left
    obtain ⟨ps, h3, h4⟩ := find_loop e clash true put v cells.length d false cells rfl k c log h1 h2
    refine ⟨c + k, ps, h3, by omega, (List.getElem?_eq_some_iff.mp h2).1, h2, ?_, h4⟩
    intro j hj hj2
    have := h1 (j - c) (by omega)
    rwa [show c + (j - c) = j by omega] at this
  · right
    exact ⟨h, full_loop e clash put v cells.length d cells rfl hp _ c log (Nat.le_refl _) h⟩

theorem write_unlogged (v : Variant) (N : Nat) (cells : List D) (d : D) (c : Nat) (log log' : List (Event × List D))
    (cells' : List D) (c' : Nat) (r : Bool) (h : write (logged (flash e clash eo put)) v N d c (cells, log) = ((cells', log'), c', r)) :
    write (flash e clash eo put) v N d c cells = (cells', c', r) := by
  have := writeLoop_logged (flash e clash eo put) v N d false c cells log
  simp only [write] at h ⊢
  rw [h] at this
  obtain ⟨h1, h2⟩ := this
  rw [← Prod.eta (writeLoop (flash e clash eo put) v N d false c cells), ← h1, ← h2]

variable (valid : D → Bool)

theorem latest_zero (cells : List D) : latest valid cells 0 = none := by simp [latest]

theorem latest_succ {cells : List D} {c : Nat} {x : D} (h : cells[c]? = some x) :
    latest valid cells (c + 1) = if valid x then some x else latest valid cells c := by
  have hlt := (List.getElem?_eq_some_iff.mp h).1
  have hx := (List.getElem?_eq_some_iff.mp h).2
  unfold latest
  rw [List.take_add_one, h]
  simp only [Option.toList_some, List.reverse_append, List.reverse_cons, List.reverse_nil, List.nil_append,
    List.singleton_append, List.find?_cons]
  cases valid x <;> rfl

theorem latest_succ_none {cells : List D} {c : Nat} (h : cells[c]? = none) :
    latest valid cells (c + 1) = latest valid cells c := by
  unfold latest
  rw [List.take_add_one, h]; simp

theorem latest_skip {cells : List D} {c : Nat} (k : Nat) (h : ∀ (i : Nat) (x : D), c ≤ i → i < c + k → cells[i]? = some x → valid x = false) :
    latest valid cells (c + k) = latest valid cells c := by
  induction k with
  | zero => rfl
  | succ k ih =>
    rw [← Nat.add_assoc]
    cases hx : cells[c + k]? with
    | none => rw [latest_succ_none valid hx]; exact ih (fun i x h1 h2 => h i x h1 (by omega))
    | some x =>
      rw [latest_succ valid hx, if_neg (by rw [h (c + k) x (by omega) (by omega) hx]; simp)]
      exact ih (fun i x h1 h2 => h i x h1 (by omega))

theorem latest_congr {cells cells' : List D} {c : Nat} (h : ∀ i : Nat, i < c → cells'[i]? = cells[i]?) :
    latest valid cells' c = latest valid cells c := by
  unfold latest
  have : cells'.take c = cells.take c := by
    apply List.ext_getElem?
    intro i
    rw [List.getElem?_take, List.getElem?_take]
    split
    · next hi => exact h i hi
    · rfl
  rw [this]

theorem read_flash (cells : List D) (d : D) (c : Nat) (h : c ≤ cells.length) :
    (read (flash e clash eo put) valid c cells d).1 = cells ∧
    result (read (flash e clash eo put) valid c cells d) = latest valid cells c := by
  induction c generalizing d with
  | zero => exact ⟨rfl, by simp [read, result, latest_zero]⟩
  | succ c ih =>
    have hc : cells[c]? = some cells[c] := List.getElem?_eq_getElem (by omega)
    rw [latest_succ valid hc]
    unfold read
    simp only [flash_read hc]
    by_cases hv : valid cells[c] = true
    · simp [hv, result]
    · simp only [hv, if_false]
      exact ih _ (by omega)

theorem read_flash_invalid (cells : List D) (d : D) (hd : valid d = false) (c : Nat) :
    (read (flash e clash eo put) valid c cells d).1 = cells ∧
    result (read (flash e clash eo put) valid c cells d) = latest valid cells c := by
  induction c generalizing d with
  | zero => exact ⟨rfl, by simp [read, result, latest_zero]⟩
  | succ c ih =>
    by_cases h : c < cells.length
    · exact read_flash e clash eo put valid cells d (c + 1) h
    · have hn : cells[c]? = none := List.getElem?_eq_none (by omega)
      rw [latest_succ_none valid hn]
      unfold read
      simp only [flash, hn, hd, Bool.false_eq_true, if_false]
      exact ih d hd

theorem scan_flash (cells : List D) (d : D) (c : Nat) (h : c ≤ cells.length) :
    ∃ c', scan (flash e clash eo put) valid c cells d = (cells, c') ∧ c' ≤ c ∧
      (∀ (i : Nat) (x : D), c' ≤ i → i < c → cells[i]? = some x → valid x = false) ∧
      (c' = 0 ∨ ∃ x, cells[c' - 1]? = some x ∧ valid x = true) := by
  induction c generalizing d with
  | zero => exact ⟨0, rfl, Nat.le_refl _, by intros; omega, .inl rfl⟩
  | succ c ih =>
    have hc : cells[c]? = some cells[c] := List.getElem?_eq_getElem (by omega)
    unfold scan
    simp only [flash_read hc]
    by_cases hv : valid cells[c] = true
    · refine ⟨c + 1, by simp [hv], Nat.le_refl _, by intros; omega, .inr ⟨cells[c], by simpa using hc, hv⟩⟩
    · obtain ⟨c', h1, h2, h3, h4⟩ := ih cells[c] (by omega)
      refine ⟨c', by simp only [hv, if_true]; exact h1, by omega, ?_, h4⟩
      intro i x hi hi2 hx
      by_cases hic : i = c
      · subst hic; rw [hc] at hx; cases hx; simpa using hv
      · exact h3 i x hi (by omega) hx

end flash

end WearLevel
