import Verif.Model.WearShared
import Verif.Spec.WearShared
import Verif.Props.WearLevel
/-! # C261: several wear levellers over one block -/
namespace WearLevel
open WearLevel.Spec
variable {D : Type} [DecidableEq D]

/-- **C261 (partial)**: any number of objects over one fault-free block whose first `k` cells are used and whose others are blank, each
standing at or below `k`. As long as the writes of all of them together fit in the blank cells, a newly constructed object reads the
record written last by anyone, and each object reads the record that was last when it was constructed or itself wrote. Missing:
histories in which the block is erased (next theorem). -/
theorem C261_shared_partial (e : D) (clash : D → D → D) (valid : D → Bool) (he : valid e = false) (v : Variant) (data0 : D)
    (acts : List (SharedAct D)) : ∀ (cells : List D) (k : Nat) (pos : Nat → Nat) (w : View D),
    (∀ j : Nat, j < k → cells[j]? ≠ some e) → (∀ j : Nat, k ≤ j → j < cells.length → cells[j]? = some e) →
    (∀ i, pos i ≤ k) → (∀ d ∈ records acts, valid d = true) → k + (records acts).length ≤ cells.length →
    w.last = latest valid cells cells.length → (∀ i, w.seen i = latest valid cells (pos i)) →
    let st := sharedRun (flash e clash) valid v cells.length data0 acts (cells, pos)
    (∀ i d1, result (read (flash e clash) valid (st.2 i) st.1 d1) = (view acts w).seen i) ∧
    ∀ d1, let fresh := ctor (flash e clash) valid cells.length st.1 data0
      result (read (flash e clash) valid fresh.2 fresh.1 d1) = (view acts w).last := by
  induction acts with
  | nil =>
    intro cells k pos w _ _ hpos _ hlen hlast hseen
    simp only [records, List.length_nil, Nat.add_zero] at hlen
    refine ⟨fun i d1 => ?_, fun d1 => ?_⟩
    · simp only [sharedRun, view]
      rw [(read_flash e clash true id valid cells d1 (pos i) (by have := hpos i; omega)).2, hseen]
    · obtain ⟨c1, m1, m2, _, m4⟩ := ctor_flash e clash true id valid cells data0
      simp only [sharedRun, view]
      rw [show ctor (flash e clash) valid cells.length cells data0 = (cells, c1) from m1]
      simp only
      rw [(read_flash e clash true id valid cells d1 c1 m2).2, m4, hlast]
  | cons a acts ih =>
    intro cells k pos w hused hblank hpos hval hlen hlast hseen
    cases a with
    | construct i =>
      obtain ⟨c1, m1, m2, m3, m4⟩ := ctor_flash e clash true id valid cells data0
      obtain ⟨c2, n1, n2, _, n4⟩ := scan_flash e clash true id valid cells data0 cells.length (Nat.le_refl _)
      have hc : c2 = c1 := by
        have : ctor (flash e clash) valid cells.length cells data0 = (cells, c2) := n1
        rw [show ctor (flash e clash) valid cells.length cells data0 = (cells, c1) from m1] at this
        cases this; rfl
      subst hc
      have hck : c2 ≤ k := by
        rcases n4 with h0 | ⟨x, hx, hvx⟩
        · omega
        · rcases Nat.lt_or_ge k c2 with h | h
          · rw [hblank (c2 - 1) (by omega) (by omega)] at hx
            cases hx
            rw [he] at hvx; cases hvx
          · exact h
      simp only [sharedRun, view]
      rw [show ctor (flash e clash) valid cells.length cells data0 = (cells, c2) from m1]
      simp only
      refine ih cells k (fun j => if j = i then c2 else pos j) ⟨w.last, fun j => if j = i then w.last else w.seen j⟩ hused hblank ?_ hval hlen
        hlast ?_
      · intro j
        by_cases hj : j = i
        · rw [if_pos hj]; exact hck
        · rw [if_neg hj]; exact hpos j
      · intro j
        by_cases hj : j = i
        · simp only [if_pos hj]; rw [hlast, m4]
        · simp only [if_neg hj]; exact hseen j
    | write i d =>
      simp only [records, List.length_cons] at hlen
      have hd : valid d = true := hval d (by simp [records])
      have hde : d ≠ e := fun h => by rw [h, he] at hd; cases hd
      have hp : 0 < cells.length := by omega
      have hw : write (flash e clash) v cells.length d (pos i) cells = (cells.set k d, k + 1, true) := by
        rcases write_flash e clash id v cells hp d (pos i) [] with ⟨p, ps, _, h2, h3, h4, h5, h6⟩ | ⟨h1, _⟩
        · have hpk : p = k := by
            have h7 : k ≤ p := by
              rcases Nat.lt_or_ge p k with h | h
              · exact absurd h4 (hused p h)
              · exact h
            rcases Nat.lt_or_ge k p with h | h
            · exact absurd (hblank k (Nat.le_refl _) (by omega)) (h5 k (hpos i) h)
            · omega
          subst hpk
          exact write_unlogged _ _ _ _ _ _ _ _ _ _ _ _ _ _ h6
        · exact absurd (hblank k (Nat.le_refl _) (by omega)) (h1 k (hpos i))
      simp only [sharedRun, view]
      rw [hw]
      simp only
      have hk : k < cells.length := by omega
      have habove : Above valid (cells.set k d) (k + 1) := by
        intro j x hj hx
        rw [List.getElem?_set_ne (by omega)] at hx
        rw [hblank j (by omega) (List.getElem?_eq_some_iff.mp hx).1] at hx
        cases hx; exact he
      have hl1 : latest valid (cells.set k d) (k + 1) = some d := by
        rw [latest_succ valid (List.getElem?_set_self hk), if_pos hd]
      have := ih (cells.set k d) (k + 1) (fun j => if j = i then k + 1 else pos j) ⟨some d, fun j => if j = i then some d else w.seen j⟩
        (by
          intro j hj
          rcases Nat.lt_or_ge j k with h | h
          · rw [List.getElem?_set_ne (by omega)]; exact hused j h
          · rw [show j = k by omega, List.getElem?_set_self hk]
            intro h2; cases h2; exact hde rfl)
        (by
          intro j hj hj2
          rw [List.length_set] at hj2
          rw [List.getElem?_set_ne (by omega)]; exact hblank j (by omega) hj2)
        (by
          intro j
          by_cases hj : j = i
          · rw [if_pos hj]; omega
          · rw [if_neg hj]; have := hpos j; omega)
        (fun x hx => hval x (by simp [records, hx])) (by rw [List.length_set]; omega)
        (by rw [habove.latest (by rw [List.length_set]; omega), hl1])
        (by
          intro j
          by_cases hj : j = i
          · simp only [if_pos hj]; rw [hl1]
          · simp only [if_neg hj]
            rw [latest_congr (cells := cells) valid (fun n hn => List.getElem?_set_ne (by have := hpos j; omega))]
            exact hseen j)
      rw [List.length_set] at this
      exact this

/-- two objects, constructed on a block with one record; both write, the first one is behind when it writes again -/
example : let valid := fun d : Nat => decide (d % 2 = 0 ∧ d ≠ 0)
    let acts : List (SharedAct Nat) := [.construct 0, .construct 1, .write 1 4, .write 0 6, .write 1 8]
    (∀ j : Nat, j < 1 → [2, 0, 0, 0][j]? ≠ some 0) ∧ valid 0 = false ∧ (∀ d ∈ records acts, valid d = true) ∧
    1 + (records acts).length ≤ 4 ∧ (view acts ⟨some 2, fun _ => some 2⟩).last = some 8 ∧
    (sharedRun (flash 0 (fun a _ => a)) valid .level 4 0 acts ([2, 0, 0, 0], fun _ => 0)).1 = [2, 4, 6, 8] := by
  refine ⟨fun j hj => by rw [show j = 0 by omega]; decide, by decide, by decide, by decide, by decide, ?_⟩
  simp [sharedRun, ctor, scan, write, writeLoop, flash]

/-- **C261 (violated)**: once one object has erased the block, another one that stands further up writes there, and every record the
first one writes below it is lost at the next restart: here 12 was written last, and the restarted device reads 10. -/
theorem C261_shared_violated :
    let valid := fun d : Nat => decide (d % 2 = 0 ∧ d ≠ 0)
    let acts : List (SharedAct Nat) := [.construct 0, .construct 1, .write 1 6, .write 1 8, .write 0 10, .write 1 12]
    let st := sharedRun (flash 0 (fun a _ => a)) valid .level 3 0 acts ([2, 4, 0], fun _ => 0)
    let fresh := ctor (flash 0 (fun a _ => a)) valid 3 st.1 0
    (view acts ⟨some 4, fun _ => none⟩).last = some 12 ∧ st.1 = [8, 12, 10] ∧
      result (read (flash 0 (fun a _ => a)) valid fresh.2 fresh.1 0) = some 10 := by
  refine ⟨by decide, ?_, ?_⟩
  · simp [sharedRun, ctor, scan, write, writeLoop, flash]
  · simp [sharedRun, ctor, scan, write, writeLoop, flash, read, result]

/-- what a history in which every write follows a construction does to the block -/
theorem fresh_cells (e : D) (clash : D → D → D) (valid : D → Bool) (v : Variant) (N : Nat) (data0 : D) (l : List (Nat × D)) :
    ∀ (cells : List D) (pos : Nat → Nat) (c : Nat),
    (sharedRun (flash e clash) valid v N data0 (freshWrites l) (cells, pos)).1 =
      (runActs (flash e clash) valid v N data0 (l.flatMap fun p => [Act.restart, .write p.2]) (cells, c)).1 := by
  induction l with
  | nil => intro cells pos c; rfl
  | cons p l ih =>
    intro cells pos c
    simp only [freshWrites, List.flatMap_cons, List.cons_append, List.nil_append, sharedRun, runActs, if_true]
    exact ih _ _ _

theorem fresh_last (l : List (Nat × D)) : ∀ (o : Option D) (s : Nat → Option D),
    lastWritten o (l.flatMap fun p => [Act.restart, .write p.2]) = (view (freshWrites l) ⟨o, s⟩).last := by
  induction l with
  | nil => intro o s; rfl
  | cons p l ih =>
    intro o s
    simp only [freshWrites, List.flatMap_cons, List.cons_append, List.nil_append, view, lastWritten]
    exact ih _ _

theorem fresh_writes (l : List (Nat × D)) : writes (l.flatMap fun p => [Act.restart, .write p.2]) = records (freshWrites l) := by
  induction l with
  | nil => rfl
  | cons p l ih => simp only [freshWrites, List.flatMap_cons, List.cons_append, List.nil_append, writes, records]; rw [ih]; rfl

/-- **C261 (partial)**: objects that are constructed anew before each write may share a block of any contents for ever: a newly
constructed object reads the record written last by anyone, through all erases. -/
theorem C261_fresh_partial (e : D) (clash : D → D → D) (valid : D → Bool) (he : valid e = false) (v : Variant) (cells : List D)
    (hp : 0 < cells.length) (data0 : D) (l : List (Nat × D)) (hval : ∀ d ∈ records (freshWrites l), valid d = true) (pos : Nat → Nat) (d1 : D) :
    let st := sharedRun (flash e clash) valid v cells.length data0 (freshWrites l) (cells, pos)
    let fresh := ctor (flash e clash) valid cells.length st.1 data0
    result (read (flash e clash) valid fresh.2 fresh.1 d1) = (view (freshWrites l) ⟨latest valid cells cells.length, fun _ => none⟩).last := by
  intro st fresh
  have h1 := C30_last_record e clash valid he v cells hp data0 ((l.flatMap fun p => [Act.restart, .write p.2])) (by rw [fresh_writes]; exact hval) d1
  have h2 := C30_restart e clash valid he v cells hp data0 ((l.flatMap fun p => [Act.restart, .write p.2])) d1 d1
  simp only [runActs] at h1 h2
  obtain ⟨c1, m1, _, _, _⟩ := ctor_flash e clash true id valid cells data0
  rw [show ctor (flash e clash) valid cells.length cells data0 = (cells, c1) from m1] at h1 h2
  rw [← fresh_cells e clash valid v cells.length data0 l cells pos c1] at h1 h2
  rw [← fresh_last l _ (fun _ => none), ← h1, ← h2]

example : let valid := fun d : Nat => decide (d % 2 = 0 ∧ d ≠ 0)
    valid 0 = false ∧ (∀ d ∈ records (freshWrites [(0, 2), (1, 4), (0, 6)]), valid d = true) ∧
    (sharedRun (flash 0 (fun a _ => a)) valid .level 2 0 (freshWrites [(0, 2), (1, 4), (0, 6)]) ([0, 0], fun _ => 0)).1 = [6, 0] := by
  refine ⟨by decide, by decide, ?_⟩
  simp [freshWrites, sharedRun, ctor, scan, write, writeLoop, flash]

end WearLevel
