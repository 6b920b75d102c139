import Verif.Props.WearLevel
import Verif.Props.DoubleBuf
import Verif.Props.Poll
/-! # Exact behaviour behind the partial properties C35, C36, C71 and C77 -/

namespace WearLevel
variable {D : Type} [DecidableEq D]

theorem find_range_succ (f : Nat → Option D) (valid : D → Bool) (c : Nat) :
    ((List.range (c + 1)).reverse.filterMap f).find? valid =
      match f c with
      | some x => if valid x then some x else ((List.range c).reverse.filterMap f).find? valid
      | none => ((List.range c).reverse.filterMap f).find? valid := by
  rw [List.range_succ, List.reverse_append, List.reverse_singleton, List.singleton_append, List.filterMap_cons]
  cases hf : f c with
  | none => rfl
  | some x =>
    simp only [List.find?_cons]
    cases valid x <;> rfl

theorem read_flaky_invalid (e : D) (clash : D → D → D) (bad : Nat → Bool) (valid : D → Bool) (cells : List D) (c : Nat) : ∀ d : D, valid d = false →
    result (read (flaky e clash bad) valid c cells d) = ((List.range c).reverse.filterMap (fun i => if bad i then none else cells[i]?)).find? valid := by
  induction c with
  | zero => intro d _; simp [read, result]
  | succ c ih =>
    intro d hd
    rw [find_range_succ]
    unfold read
    simp only [flaky]
    by_cases hb : bad c = true
    · simp only [hb, if_true, hd, Bool.false_eq_true, if_false]
      exact ih d hd
    · simp only [hb, if_false, Bool.false_eq_true]
      cases hx : cells[c]? with
      | none =>
        have hr : (flash e clash).read cells d c = (cells, false, d) := by simp [flash, hx]
        simp only [hr, hd, Bool.false_eq_true, if_false]
        exact ih d hd
      | some y =>
        rw [flash_read hx]
        by_cases hv : valid y = true
        · simp only [hv, if_true, result]
        · simp only [hv, if_false, Bool.false_eq_true]
          exact ih y (by simpa using hv)

/-- **C35** (exact behaviour): for all blocks, all sets of unreadable cells, all positions `c` and all contents `d` of the caller's variable: if `d` looks valid and
the first cell looked at cannot be read (or is outside the block), `read` returns the caller's own `d`; otherwise it returns the topmost valid record in a readable
cell below `c`, if there is one. -/
theorem C35_read_exact (e : D) (clash : D → D → D) (bad : Nat → Bool) (valid : D → Bool) (cells : List D) (c : Nat) (d : D) :
    result (read (flaky e clash bad) valid c cells d) =
      if valid d = true ∧ 0 < c ∧ (bad (c - 1) = true ∨ cells.length ≤ c - 1) then some d
      else ((List.range c).reverse.filterMap (fun i => if bad i then none else cells[i]?)).find? valid := by
  by_cases hd : valid d = true
  · cases c with
    | zero => simp [read, result]
    | succ c =>
      rw [find_range_succ]
      simp only [hd, Nat.add_sub_cancel, Nat.zero_lt_succ, true_and]
      unfold read
      simp only [flaky]
      by_cases hb : bad c = true
      · simp [hb, hd, result]
      · simp only [hb, if_false, Bool.false_eq_true, false_or]
        cases hx : cells[c]? with
        | none =>
          have hr : (flash e clash).read cells d c = (cells, false, d) := by simp [flash, hx]
          have hlen : cells.length ≤ c := List.getElem?_eq_none_iff.mp hx
          simp [hr, hd, hlen, result]
        | some y =>
          have hlen : ¬ cells.length ≤ c := fun h => by rw [List.getElem?_eq_none h] at hx; cases hx
          rw [flash_read hx, if_neg hlen]
          by_cases hv : valid y = true
          · simp only [hv, if_true, result]
          · simp only [hv, if_false, Bool.false_eq_true]
            exact read_flaky_invalid e clash bad valid cells c y (by simpa using hv)
  · rw [if_neg (fun h => hd h.1)]
    exact read_flaky_invalid e clash bad valid cells c d (by simpa using hd)

/-- The unreadable top cell hides nothing but the caller's stale record. -/
example : result (read (flaky 0 (fun a _ => a) (fun c => c == 1)) (fun d => d % 2 == 0) 2 [8, 4] 6) = some 6 ∧
    result (read (flaky 0 (fun a _ => a) (fun c => c == 1)) (fun d => d % 2 == 0) 2 [8, 4] 7) = some 8 := by decide

/-- **C36** (exact behaviour of WearLevel): when the block is used up and the erase fails, `write` returns false, and a `read` into a variable holding `d2` returns
`d2` itself if the last record had filled the block to the top and `d2` looks valid, and otherwise the stored record, as before. -/
theorem C36_level_exact (e : D) (clash : D → D → D) (valid : D → Bool) (cells : List D) (c : Nat) (hc : c ≤ cells.length)
    (ha : Above valid cells c) (hfull : ∀ j : Nat, c ≤ j → cells[j]? ≠ some e) (d d1 d2 : D) :
    ∃ c', write (flash e clash false) .level cells.length d c cells = (cells, c', false) ∧
      result (read (flash e clash false) valid c' cells d2) =
        if c = cells.length ∧ valid d2 = true then some d2 else result (read (flash e clash false) valid c cells d1) := by
  refine ⟨_, full_loop_fail e clash id .level cells.length d cells rfl _ c (Nat.le_refl _) hfull, ?_⟩
  rw [(read_flash e clash false id valid cells d1 c hc).2]
  by_cases hd : valid d2 = true
  · by_cases hcl : c = cells.length
    · simp only [hcl, hd, and_self, if_true]
      rw [show max cells.length (cells.length + 1) = cells.length + 1 by omega, read]
      have hr : (flash e clash false).read cells d2 cells.length = (cells, false, d2) := by simp [flash]
      simp [hr, hd, result]
    · rw [if_neg (fun h => hcl h.1)]
      simp only
      rw [show max cells.length (c + 1) = cells.length by omega, (read_flash e clash false id valid cells d2 _ (Nat.le_refl _)).2]
      rw [show cells.length = c + (cells.length - c) by omega]
      exact latest_skip valid _ (fun i x h1 _ hx => ha i x h1 hx)
  · rw [if_neg (fun h => hd h.2)]
    simp only
    rw [(read_flash_invalid e clash false id valid cells d2 (by simpa using hd) _).2]
    rw [show max cells.length (c + 1) = c + (max cells.length (c + 1) - c) by omega]
    exact latest_skip valid _ (fun i x h1 _ hx => ha i x h1 hx)

/-- A block filled to the top. -/
example : Above (fun d => d % 2 == 0) [2, 6] 2 ∧ (∀ j : Nat, 2 ≤ j → ([2, 6] : List Nat)[j]? ≠ some 0) := by
  constructor
  · intro i x h hx; rw [List.getElem?_eq_none (by simpa using h)] at hx; cases hx
  · intro j h hx; rw [List.getElem?_eq_none (by simpa using h)] at hx; cases hx

end WearLevel

namespace PollEvent

/-- **C71** (exact behaviour): in real time, the last run being at `L` and the poll at `t`, any later time: with the time since the last run taken modulo the range `W`
of the clock (`e`), the action runs exactly if the period has elapsed and no overflow of the clock lies between the due time `L + period` and the poll. -/
theorem C71_exact (W period L t : Nat) (hp : period < W) (hLt : L ≤ t) :
    let e := (t - L) % W
    poll W period (L % W) (t % W) =
      if period ≤ e ∧ (L + period) / W = (L + e) / W then (true, t % W) else (false, L % W) := by
  intro e
  have hW : 0 < W := by omega
  have he : e < W := Nat.mod_lt _ hW
  obtain ⟨a, ha⟩ : ∃ a, L % W = a := ⟨_, rfl⟩
  have haW : a < W := by rw [← ha]; exact Nat.mod_lt _ hW
  have hL : L = W * (L / W) + a := by rw [← ha]; exact (Nat.div_add_mod L W).symm
  have htm : t % W = (a + e) % W := by
    rw [← ha]
    show t % W = (L % W + (t - L) % W) % W
    rw [← Nat.add_mod]; congr 1; omega
  have hdiv : ∀ x, (L + x) / W = L / W + (a + x) / W := by
    intro x
    have h : L + x = W * (L / W) + (a + x) := by omega
    rw [h, Nat.mul_add_div hW]
  have hq : ∀ x, x < W → (a + x) / W = if a + x < W then 0 else 1 := by
    intro x hx
    split
    · next h => exact Nat.div_eq_of_lt h
    · next h => rw [Nat.div_eq_iff hW]; omega
  have hmod : ∀ x, x < W → (a + x) % W = if a + x < W then a + x else a + x - W := by
    intro x hx
    split
    · next h => exact Nat.mod_eq_of_lt h
    · next h => rw [Nat.mod_eq_sub_mod (by omega), Nat.mod_eq_of_lt (by omega)]
  rw [htm, ha, hdiv, hdiv, hq e he, hq period hp]
  unfold poll
  rw [hmod e he, hmod period hp]
  clear hdiv hL htm hq hmod
  generalize L / W = q
  generalize e = e at *
  by_cases h1 : a + e < W <;> by_cases h2 : a + period < W <;> by_cases h3 : period ≤ e <;>
    simp only [h1, h2, h3, if_true, if_false, true_and, false_and] <;> (repeat' split) <;> first | rfl | (exfalso; omega) | (simp_all; done)

/-- A due time just before the overflow is missed by a poll just after it. -/
example : poll 256 50 (200 % 256) (250 % 256) = (true, 250) ∧ poll 256 50 (200 % 256) (259 % 256) = (false, 200) := by decide

end PollEvent

namespace DoubleBuf
open DoubleBuf.Spec
variable {T : Type}

/-- **C77** (exact behaviour, failing transmit functions included): after any history there is a queue `q` of accepted elements not handed over yet, and the next call behaves
as follows. transmit(w): if w does not fit beside q, false and nothing is handed over; otherwise, if nothing is in flight, w is handed over at once and the answer is that of the transmit
function, and if something is in flight, true, whatever the transmit function would answer. The callback hands over q as a whole if something is in flight and q is not empty. -/
theorem C77_exact (size : Nat) (ops : List (Op T)) : let evs := (run size {} ops).1
    ∃ q, accepted evs = sent evs ++ q ∧
      (∀ w res, (step size (run size {} ops).2 (.transmit w res)).1 =
        if w.length + q.length ≤ size then (if inFlight none evs = none then ⟨some w, res, some w, res⟩ else ⟨some w, true, none, res⟩)
        else ⟨some w, false, none, res⟩) ∧
      (∀ res, (step size (run size {} ops).2 (.done res)).1 =
        ⟨none, true, if inFlight none evs = none ∨ q = [] then none else some q, res⟩) := by
  intro evs
  have hinv : Inv size (run size {} ops).2 := run_inv size ops {} (init_inv size)
  have hfl : inFlight none evs = active (run size {} ops).2 := (C76_in_flight size ops).symm
  refine ⟨queued (run size {} ops).2, (C75_fifo size ops).1.symm, ?_, ?_⟩
  · intro w res
    obtain ⟨t1, t2⟩ := transmit_spec size (run size {} ops).2 w res hinv
    rw [hfl]
    by_cases h : w.length + (queued (run size {} ops).2).length ≤ size
    · rw [if_pos h]
      cases hi : (run size {} ops).2.idx with
      | none => simp only [step, (t1 h).1 hi, active, hi, Option.map_none, if_true]
      | some i => simp [step, (t1 h).2 i hi, active, hi]
    · rw [if_neg h]; simp only [step, t2 h]
  · intro res
    rw [hfl]
    cases hi : (run size {} ops).2.idx with
    | none => simp [step, DoubleBuf.done, active, hi]
    | some i =>
      have := (C75_progress size ops _ rfl).2 (by rw [hi]; simp) res
      have he : (step size (run size {} ops).2 (.done res)).1 = ⟨none, true, (step size (run size {} ops).2 (.done res)).1.handed, res⟩ := rfl
      rw [he, this.1]
      simp [active, hi]

end DoubleBuf
