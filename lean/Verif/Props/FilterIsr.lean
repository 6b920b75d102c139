import Verif.Model.FilterIsr
import Verif.Spec.FilterIsr
import Verif.Spec.ReadIsr
import Verif.Props.Filter
/-! # Property C253: filters shared with an interrupt -/

namespace FilterIsr
open Filter Filter.Spec FilterIsrSpec ReadIsrSpec

/-! ## The steps are those of the calls -/

/-- `add_val` of a moving average leaves what its last store leaves. -/
theorem avgSteps_final (size : Nat) (m : MovingAverage) (x : Nat) (tr : List MovingAverage) (h : avgSteps size m x = .ok tr) :
    MovingAverage.addVal size m x = .ok (ReadIsr.final m tr, (ReadIsr.final m tr).val size) := by
  unfold avgSteps at h
  unfold MovingAverage.addVal
  by_cases hi : m.idx < m.buff.length
  · rw [arrGet_lt hi, R.bind_ok] at h ⊢
    simp only at h
    rw [arrSet_lt hi, R.bind_ok] at h
    rw [arrSet_lt hi, R.bind_ok]
    injection h with h
    subst h
    rfl
  · rw [(arrGet_ub ..).mpr (by omega)] at h
    cases h

example : avgSteps 2 ⟨3, [1, 2], 0⟩ 5 = .ok [⟨2, [1, 2], 0⟩, ⟨2, [5, 2], 0⟩, ⟨7, [5, 2], 0⟩, ⟨7, [5, 2], 1⟩] := by decide +kernel

theorem overSteps_final (size : Nat) (o : Oversampler) (x : Nat) : ReadIsr.final o (overSteps size o x) = Oversampler.addVal size o x := by
  unfold overSteps Oversampler.addVal
  by_cases h : o.idx + 1 ≥ size <;> simp [h, ReadIsr.final]

theorem smoothSteps_final (size : Nat) (o : Smooth) (x : Nat) : ReadIsr.final o (smoothSteps size o x) = Smooth.addVal size o x := by
  unfold smoothSteps Smooth.addVal
  by_cases h : o.idx + 1 ≥ size <;> simp [h, ReadIsr.final]

theorem resetSteps_final (o : Resizing) : ReadIsr.final o (resetSteps o) = Resizing.reset o := rfl

/-- Without interrupts they are the plain calls. -/
theorem resetI_nil (o : Resizing) : resetI o [] [] = .ok (Resizing.reset o) := rfl

theorem setSizeI_nil (o : Resizing) (n : Nat) : setSizeI o n [] [] [] [] [] [] = Resizing.setSize o n := by
  unfold setSizeI Resizing.setSize feed
  by_cases h : o.idx ≥ n
  · rw [if_pos h, if_pos h]
    by_cases h0 : o.idx = 0
    · simp [R.bind_ok, h0]
    · simp [R.bind_ok, h0]
  · rw [if_neg h, if_neg h]; rfl

/-! ## An interrupt reads -/

/-- **C253**, reading: an interrupt that reads an `Oversampler` while the main program adds a sample, at whatever
moment, reads the average of before or of after; so it does with a `SmoothOversampler`, and with a
`ResizingOversampler` that is being reset. -/
theorem C253_read_partial :
    (∀ (size : Nat) (o : Oversampler) (x : Nat), BeforeOrAfter Oversampler.val o (overSteps size o x)) ∧
    (∀ (size : Nat) (o : Smooth) (x : Nat), BeforeOrAfter Smooth.val o (smoothSteps size o x)) ∧
    (∀ o : Resizing, BeforeOrAfter Resizing.val o (resetSteps o)) := by
  refine ⟨?_, ?_, ?_⟩
  · intro size o x t ht
    rw [overSteps_final]
    unfold overSteps at ht
    unfold Oversampler.addVal Oversampler.val
    by_cases h : o.idx + 1 ≥ size
    · simp only [if_pos h, List.mem_cons, List.not_mem_nil, or_false] at ht ⊢
      rcases ht with h | h | h | h | h <;> subst h <;> simp
    · simp only [if_neg h, List.mem_cons, List.not_mem_nil, or_false] at ht ⊢
      rcases ht with h | h <;> subst h <;> simp
  · intro size o x t ht
    rw [smoothSteps_final]
    unfold smoothSteps at ht
    unfold Smooth.addVal Smooth.val
    by_cases h : o.idx + 1 ≥ size
    · simp only [if_pos h, List.mem_cons, List.not_mem_nil, or_false] at ht ⊢
      rcases ht with h | h | h | h | h <;> subst h <;> simp
    · simp only [if_neg h, List.mem_cons, List.not_mem_nil, or_false] at ht ⊢
      rcases ht with h | h <;> subst h <;> simp
  · intro o t ht
    rw [resetSteps_final]
    unfold resetSteps at ht
    unfold Resizing.reset Resizing.val
    simp only [List.mem_cons, List.not_mem_nil, or_false] at ht
    rcases ht with h | h | h <;> subst h <;> simp

example : (overSteps 2 ⟨10, 3, 1⟩ 20).map Oversampler.val = [3, 3, 15, 15, 15] := by decide +kernel

/-- The invariant after any samples. -/
theorem run_inv (size bits : Nat) (hc : compiles true size bits = true) (xs : List Nat) : ∀ (pre : List Nat) (m m' : MovingAverage) (vs : List Nat),
    MovingAverage.Inv size m pre → (∀ x ∈ pre, x < 2 ^ bits) → (∀ x ∈ xs, x < 2 ^ bits) → MovingAverage.run size xs m = .ok (m', vs) →
    MovingAverage.Inv size m' (pre ++ xs) := by
  induction xs with
  | nil =>
    intro pre m m' vs hm _ _ h
    injection h with h
    rw [← (Prod.mk.inj h).1]
    simpa using hm
  | cons x xs ih =>
    intro pre m m' vs hm hp hxx h
    obtain ⟨m1, e1, i1⟩ := MovingAverage.inv_step size bits hc m pre x hm hp (hxx x List.mem_cons_self)
    rw [MovingAverage.run, e1, R.bind_ok] at h
    cases h2 : MovingAverage.run size xs m1 with
    | ub => simp only [h2] at h; cases h
    | ok p =>
      simp only [h2] at h
      rw [R.bind_ok] at h
      injection h with h
      have h3 := (Prod.mk.inj h).1
      have := ih (pre ++ [x]) m1 p.1 p.2 i1 (by
        intro y hy
        rcases List.mem_append.mp hy with h | h
        · exact hp y h
        · rw [List.mem_singleton.mp h]; exact hxx x List.mem_cons_self) (fun y hy => hxx y (List.mem_cons_of_mem _ hy)) h2
      rw [← h3]
      simpa [List.append_assoc] using this

/-- **C253**, reading a `MovingAverage`, exactly: after the samples `xs`, while the main program adds `x`, an interrupt
reads, after the first and the second store, the average of the last `size - 1` samples and a zero; after the third and
the fourth the average of after. -/
theorem C253_average_exact (size bits : Nat) (hc : compiles true size bits = true) (xs : List Nat) (hx : ∀ y ∈ xs, y < 2 ^ bits) (x : Nat)
    (hxb : x < 2 ^ bits) (m : MovingAverage) (vs : List Nat) (hm : MovingAverage.run size xs (MovingAverage.init size) = .ok (m, vs)) :
    ∃ tr, avgSteps size m x = .ok tr ∧
      tr.map (MovingAverage.val size) =
        [((lastN size xs).drop 1).sum / size, ((lastN size xs).drop 1).sum / size, (lastN size (xs ++ [x])).sum / size,
          (lastN size (xs ++ [x])).sum / size] := by
  obtain ⟨hk, _⟩ := compiles_pow2 hc
  have h0 : 0 < size := by rw [hk]; exact Nat.two_pow_pos _
  have inv : MovingAverage.Inv size m xs := by
    simpa using run_inv size bits hc xs [] _ m vs (MovingAverage.inv_init size h0) (by simp) hx hm
  obtain ⟨m', e, inv'⟩ := MovingAverage.inv_step size bits hc m xs x inv hx hxb
  obtain ⟨i1, i2, i3, i4⟩ := inv
  have hlt : m.idx < m.buff.length := by omega
  have hwin : lastN size xs = m.buff[m.idx] :: (m.buff.drop (m.idx + 1) ++ m.buff.take m.idx) := by
    rw [← i3, List.drop_eq_getElem_cons hlt]; rfl
  have hsum : m.sum = m.buff[m.idx] + ((lastN size xs).drop 1).sum := by rw [i4, hwin, List.sum_cons]; rfl
  have hb : m.sum < W := by
    have := sum_le (lastN size xs) (2 ^ bits) (lastN_lt size xs _ (Nat.two_pow_pos _) hx)
    rw [lastN_length] at this
    have h32 := (compiles_pow2 hc).2
    rw [i4, W_val]
    omega
  have hs1 : (m.sum + W - m.buff[m.idx]) % W = ((lastN size xs).drop 1).sum := by
    rw [W_val] at *
    omega
  have hst : ∃ tr, avgSteps size m x = .ok tr ∧ tr = [⟨((lastN size xs).drop 1).sum, m.buff, m.idx⟩,
      ⟨((lastN size xs).drop 1).sum, m.buff.set m.idx x, m.idx⟩,
      ⟨(((lastN size xs).drop 1).sum + x) % W, m.buff.set m.idx x, m.idx⟩,
      ⟨(((lastN size xs).drop 1).sum + x) % W, m.buff.set m.idx x, (m.idx + 1) &&& (size - 1)⟩] := by
    refine ⟨_, ?_, rfl⟩
    unfold avgSteps
    rw [arrGet_lt hlt, R.bind_ok]
    simp only
    rw [arrSet_lt hlt, R.bind_ok, hs1]
  obtain ⟨tr, t1, t2⟩ := hst
  have hf := avgSteps_final size m x tr t1
  rw [e] at hf
  have hv : (lastN size (xs ++ [x])).sum / size = (ReadIsr.final m tr).val size := by
    injection hf with hf
    exact (Prod.mk.inj hf).2
  refine ⟨tr, t1, ?_⟩
  rw [hv]
  have hd : ∀ s : Nat, s / size = s >>> IntMath.log2T size := by intro s; rw [Nat.shiftRight_eq_div_pow, ← hk]
  rw [hd, t2]
  rfl

example : compiles true 4 12 = true ∧ ∃ m vs, MovingAverage.run 4 [8, 8, 8, 8, 12] (MovingAverage.init 4) = .ok (m, vs) ∧ m.val 4 = 9 :=
  ⟨by decide +kernel, _, _, rfl, by decide +kernel⟩

/-! ## An interrupt adds samples -/

theorem feed_append (o : Resizing) (a b : List ℚ) : feed o (a ++ b) = (feed o a) >>= fun o => feed o b := by
  induction a generalizing o with
  | nil => rfl
  | cons x a ih =>
    simp only [List.cons_append, feed]
    cases h : Resizing.addVal o x with
    | ub => rfl
    | ok o' => exact ih o'

/-- `buff_`, `idx_` and `size_` after samples, whatever `val_` was. -/
theorem feed_state (size : Nat) (hs : 0 < size) (xs : List ℚ) : ∀ (o : Resizing), o.size = size → o.idx < size → ∃ o', feed o xs = .ok o' ∧
    o'.size = size ∧ o'.idx = (o.idx + xs.length) % size ∧
    o'.buff = (if o.idx + xs.length < size then o.buff else 0) + (openBlock size o.idx xs).sum := by
  induction xs with
  | nil =>
    intro o h1 h2
    refine ⟨o, rfl, h1, ?_, ?_⟩
    · simp [Nat.mod_eq_of_lt h2]
    · simp [openBlock, h2]
  | cons x xs ih =>
    intro o h1 h2
    simp only [feed, Resizing.addVal, h1]
    by_cases h : o.idx + 1 ≥ size
    · rw [if_pos h, if_neg (by omega), R.bind_ok]
      obtain ⟨o', e1, e2, e3, e4⟩ := ih ⟨0, (o.buff + x) / size, 0, size⟩ rfl hs
      refine ⟨o', e1, e2, ?_, ?_⟩
      · rw [e3, List.length_cons, show o.idx + (xs.length + 1) = xs.length + size by omega, Nat.add_mod_right]
        simp
      · rw [e4]
        have hle : (xs.length + size) % size ≤ xs.length := by rw [Nat.add_mod_right]; exact Nat.mod_le _ _
        rw [if_neg (show ¬ o.idx + (x :: xs).length < size by simp only [List.length_cons]; omega)]
        unfold openBlock
        rw [List.length_cons, show o.idx + (xs.length + 1) = xs.length + size by omega,
          show xs.length + 1 - (xs.length + size) % size = (xs.length - (xs.length + size) % size) + 1 by omega, List.drop_succ_cons,
          Nat.add_mod_right]
        simp
    · rw [if_neg h, R.bind_ok]
      obtain ⟨o', e1, e2, e3, e4⟩ := ih ⟨o.buff + x, o.value, o.idx + 1, size⟩ rfl (show o.idx + 1 < size by omega)
      refine ⟨o', e1, e2, ?_, ?_⟩
      · rw [e3, List.length_cons]; simp only; rw [show o.idx + 1 + xs.length = o.idx + (xs.length + 1) by omega]
      · rw [e4]
        simp only [List.length_cons]
        rw [show o.idx + 1 + xs.length = o.idx + (xs.length + 1) by omega]
        unfold openBlock
        simp only [List.length_cons]
        rw [show o.idx + 1 + xs.length = o.idx + (xs.length + 1) by omega]
        by_cases hl : o.idx + (xs.length + 1) < size
        · rw [if_pos hl, if_pos hl, Nat.mod_eq_of_lt hl, show xs.length - (o.idx + (xs.length + 1)) = 0 by omega,
            show xs.length + 1 - (o.idx + (xs.length + 1)) = 0 by omega]
          simp [add_assoc]
        · rw [if_neg hl, if_neg hl]
          have hq : (o.idx + (xs.length + 1)) % size ≤ xs.length := by
            have h3 : (o.idx + (xs.length + 1)) % size = (o.idx + (xs.length + 1) - size) % size := by
              conv_lhs => rw [show o.idx + (xs.length + 1) = (o.idx + (xs.length + 1) - size) + size by omega]
              rw [Nat.add_mod_right]
            rw [h3]
            exact Nat.le_trans (Nat.mod_le _ _) (by omega)
          rw [show xs.length + 1 - (o.idx + (xs.length + 1)) % size = (xs.length - (o.idx + (xs.length + 1)) % size) + 1 by omega,
            List.drop_succ_cons]

/-- A whole block of samples, from the start of a block. -/
theorem feed_block (size : Nat) (ys : List ℚ) : ∀ (o : Resizing), o.size = size → ys ≠ [] →
    o.idx + ys.length = size → feed o ys = .ok ⟨0, (o.buff + ys.sum) / size, 0, size⟩ := by
  induction ys with
  | nil => intro _ _ h; exact absurd rfl h
  | cons y ys ih =>
    intro o h1 _ h2
    simp only [feed, Resizing.addVal, h1]
    simp only [List.length_cons] at h2
    cases ys with
    | nil =>
      simp only [List.length_nil] at h2
      rw [if_pos (by omega), if_neg (by omega), R.bind_ok]
      simp [feed]
    | cons z zs =>
      simp only [List.length_cons] at h2
      rw [if_neg (by omega), R.bind_ok, ih ⟨o.buff + y, o.value, o.idx + 1, size⟩ rfl (by simp) (by simp only [List.length_cons]; omega)]
      simp [add_assoc]

/-- **C253**, `reset()` of a `ResizingOversampler` that interrupts feed, exactly: of the samples that came during the
call, those after the last full block stay in the sum although the count is 0; the first average after the reset is that
of a whole block of new samples `ys` with those samples added on top, and it is right exactly if their sum is 0. -/
theorem C253_reset_exact (o : Resizing) (hi : o.idx < o.size) (g1 g2 ys : List ℚ) (hy : ys.length = o.size) :
    ∃ o', resetI o g1 g2 = .ok o' ∧ ∃ o'', feed o' ys = .ok o'' ∧
      Resizing.val o'' = ((openBlock o.size o.idx (g1 ++ g2)).sum + ys.sum) / o.size ∧
      (Resizing.val o'' = ys.sum / o.size ↔ (openBlock o.size o.idx (g1 ++ g2)).sum = 0) := by
  have hs : 0 < o.size := by omega
  obtain ⟨a, ea, sa, ia, ba⟩ := feed_state o.size hs g1 { o with buff := 0 } rfl hi
  obtain ⟨b, eb, sb, ib, bb⟩ := feed_state o.size hs g2 { a with value := 0 } sa (by simp only [ia]; exact Nat.mod_lt _ hs)
  have hbuff : b.buff = (openBlock o.size o.idx (g1 ++ g2)).sum := by
    obtain ⟨c, ec, sc, ic, bc⟩ := feed_state o.size hs (g1 ++ g2) { o with buff := 0 } rfl hi
    have hc0 : c.buff = (openBlock o.size o.idx (g1 ++ g2)).sum := by rw [bc]; simp
    rw [← hc0]
    rw [feed_append, ea, R.bind_ok] at ec
    obtain ⟨d, ed, _, _, bd⟩ := feed_state o.size hs g2 a sa (by simp only [ia]; exact Nat.mod_lt _ hs)
    rw [ed] at ec
    injection ec with ec
    rw [← ec, bd, bb]
  refine ⟨{ b with idx := 0 }, ?_, ?_⟩
  · unfold resetI
    rw [ea, R.bind_ok, eb, R.bind_ok]
  · have hne : ys ≠ [] := by intro h; rw [h] at hy; simp at hy; omega
    refine ⟨_, feed_block o.size ys { b with idx := 0 } sb hne (by simpa using hy), ?_, ?_⟩
    · simp only [Resizing.val, hbuff]
    · simp only [Resizing.val, hbuff]
      have hq : (o.size : ℚ) ≠ 0 := by exact_mod_cast hs.ne'
      rw [div_left_inj' hq]
      constructor
      · intro h; linarith
      · intro h; linarith

/-- Without samples during the call the first average after the reset is that of the new samples. -/
theorem C253_reset_partial (o : Resizing) (hi : o.idx < o.size) (ys : List ℚ) (hy : ys.length = o.size) :
    ∃ o', resetI o [] [] = .ok o' ∧ Resizing.val o' = 0 ∧ ∃ o'', feed o' ys = .ok o'' ∧ Resizing.val o'' = ys.sum / o.size := by
  refine ⟨⟨0, 0, 0, o.size⟩, rfl, rfl, _, feed_block o.size ys ⟨0, 0, 0, o.size⟩ rfl (by intro h; rw [h] at hy; simp at hy; omega) (by simpa using hy), ?_⟩
  simp [Resizing.val]

example : ∃ o : Resizing, o.idx < o.size ∧ o.buff ≠ 0 := ⟨⟨30, 7, 2, 4⟩, by decide, by norm_num⟩

/-- **C253**, `set_size()` of a `ResizingOversampler` that interrupts feed, exactly, when the block under way (samples
`pre`) is shorter than the new size `n` and the samples `g` come between the comparison and the store to `size_`: if the
next sample ends the block, the average is the sum of all of them divided by `n`, however many more than `n` they are. -/
theorem C253_set_size_exact (pre g : List ℚ) (x v : ℚ) (size n : Nat) (h1 : pre.length < n) (h2 : pre.length + g.length < size)
    (h3 : n ≤ pre.length + g.length + 1) (g1 g2 g3 g4 g5 : List ℚ) :
    ∃ o', setSizeI ⟨pre.sum, v, pre.length, size⟩ n g g1 g2 g3 g4 g5 = .ok o' ∧ ∃ o'', feed o' [x] = .ok o'' ∧
      Resizing.val o'' = (pre ++ g ++ [x]).sum / n := by
  obtain ⟨a, ea, sa, ia, ba⟩ := feed_state size (by omega) g ⟨pre.sum, v, pre.length, size⟩ rfl (show pre.length < size by omega)
  simp only at ia ba
  rw [if_pos h2] at ba
  rw [Nat.mod_eq_of_lt h2] at ia
  have hob : openBlock size pre.length g = g := by
    unfold openBlock
    rw [Nat.mod_eq_of_lt h2, show g.length - (pre.length + g.length) = 0 by omega, List.drop_zero]
  rw [hob] at ba
  refine ⟨{ a with size := n }, ?_, ?_⟩
  · unfold setSizeI
    rw [if_neg (by simp only; omega), ea, R.bind_ok]
  · refine ⟨⟨0, (a.buff + x) / n, 0, n⟩, ?_, ?_⟩
    · simp only [feed, Resizing.addVal]
      rw [if_pos (by omega), if_neg (by omega), R.bind_ok]
    · simp only [Resizing.val, ba]
      simp [add_assoc]

example : ([10] : List ℚ).length < 2 ∧ ([10] : List ℚ).length + ([10] : List ℚ).length < 4 ∧
    2 ≤ ([10] : List ℚ).length + ([10] : List ℚ).length + 1 := by decide

/-- **C253** fails as claimed: the average of a constant 4095 reads 3071 in between; after a reset that an interrupt
hits, a silent input reads 250; and a constant 10 reads 15 after the size has been set. -/
theorem C253_violated :
    (∃ tr, avgSteps 4 ⟨16380, [4095, 4095, 4095, 4095], 0⟩ 4095 = .ok tr ∧ tr.map (MovingAverage.val 4) = [3071, 3071, 4095, 4095]) ∧
    (∃ o', resetI ⟨0, 0, 0, 4⟩ [1000] [] = .ok o' ∧ ∃ o'', feed o' [0, 0, 0, 0] = .ok o'' ∧ Resizing.val o'' = 250) ∧
    (∃ o', setSizeI ⟨10, 10, 1, 4⟩ 2 [10] [] [] [] [] [] = .ok o' ∧ ∃ o'', feed o' [10] = .ok o'' ∧ Resizing.val o'' = 15) := by
  refine ⟨⟨_, rfl, by decide +kernel⟩, ?_, ?_⟩
  · obtain ⟨o', e1, o'', e2, e3, _⟩ := C253_reset_exact ⟨0, 0, 0, 4⟩ (by decide) [1000] [] [0, 0, 0, 0] rfl
    refine ⟨o', e1, o'', e2, ?_⟩
    rw [e3]
    norm_num [openBlock]
  · obtain ⟨o', e1, o'', e2, e3⟩ := C253_set_size_exact [10] [10] 10 10 4 2 (by decide) (by decide) (by decide) [] [] [] [] []
    refine ⟨o', by simpa using e1, o'', e2, ?_⟩
    rw [e3]
    norm_num

/-- Samples that do not end a block only add up. -/
theorem feed_short (size : Nat) (xs : List ℚ) : ∀ (o : Resizing), o.size = size → o.idx + xs.length < size →
    feed o xs = .ok ⟨o.buff + xs.sum, o.value, o.idx + xs.length, size⟩ := by
  induction xs with
  | nil => rintro ⟨b, v, i, s⟩ rfl _; simp [feed]
  | cons x xs ih =>
    intro o h1 h2
    simp only [List.length_cons] at h2
    simp only [feed, Resizing.addVal, h1]
    rw [if_neg (by omega), R.bind_ok, ih ⟨o.buff + x, o.value, o.idx + 1, size⟩ rfl (by simp only; omega)]
    simp only [List.sum_cons, List.length_cons, R.ok.injEq, Resizing.mk.injEq, true_and, and_true]
    exact ⟨by ring, by omega⟩

/-- **C253**, `set_size()` to a size `n` that the block under way (samples `pre`) already has reached, exactly, for samples that come at any of the six
moments of the call and do not end a block of the old size: the average shown lacks the samples `g1` that are counted; the samples `g2` and `g3`
are in no average; the samples `g4` count for the next block but are not in its sum. If the next block ends with the samples `ys`, its average is
that of `g5` and `ys` divided by `n`, so without samples during the call it is right. -/
theorem C253_shrink_exact (pre g0 g1 g2 g3 g4 g5 ys : List ℚ) (v : ℚ) (size n : Nat) (hn : n ≤ pre.length) (hp : pre ≠ [])
    (h1 : pre.length + g0.length + g1.length + g2.length + g3.length < size) (h2 : g4.length + g5.length < size)
    (hy : ys ≠ []) (h3 : g4.length + g5.length + ys.length = n) :
    ∃ o', setSizeI ⟨pre.sum, v, pre.length, size⟩ n g0 g1 g2 g3 g4 g5 = .ok o' ∧
      Resizing.val o' = (pre ++ g0).sum / ((pre ++ g0 ++ g1).length : Nat) ∧
      ∃ o'', feed o' ys = .ok o'' ∧ Resizing.val o'' = (g5 ++ ys).sum / n := by
  have hl : 0 < pre.length := List.length_pos_iff.mpr hp
  have e0 := feed_short size g0 ⟨pre.sum, v, pre.length, size⟩ rfl (by simp only; omega)
  have e1 := feed_short size g1 ⟨pre.sum + g0.sum, v, pre.length + g0.length, size⟩ rfl (by simp only; omega)
  have e2 := feed_short size g2 ⟨pre.sum + g0.sum + g1.sum, v, pre.length + g0.length + g1.length, size⟩ rfl (by simp only; omega)
  have e3 := feed_short size g3 ⟨pre.sum + g0.sum + g1.sum + g2.sum, (pre.sum + g0.sum) / ((pre.length + g0.length + g1.length : Nat) : ℚ),
    pre.length + g0.length + g1.length + g2.length, size⟩ rfl (by simp only; omega)
  have e4 := feed_short size g4 ⟨pre.sum + g0.sum + g1.sum + g2.sum + g3.sum, (pre.sum + g0.sum) / ((pre.length + g0.length + g1.length : Nat) : ℚ), 0, size⟩
    rfl (by simp only; omega)
  have e5 := feed_short size g5 ⟨0, (pre.sum + g0.sum) / ((pre.length + g0.length + g1.length : Nat) : ℚ), 0 + g4.length, size⟩ rfl (by simp only; omega)
  refine ⟨⟨0 + g5.sum, (pre.sum + g0.sum) / ((pre.length + g0.length + g1.length : Nat) : ℚ), 0 + g4.length + g5.length, n⟩, ?_, ?_, ?_⟩
  · unfold setSizeI
    rw [if_pos (show pre.length ≥ n from hn), e0, R.bind_ok]
    simp only
    rw [e1, R.bind_ok]
    simp only
    rw [if_neg (by omega), e2, R.bind_ok]
    simp only
    rw [e3, R.bind_ok]
    simp only
    rw [e4, R.bind_ok]
    simp only
    rw [e5, R.bind_ok]
  · simp only [Resizing.val, List.sum_append, List.length_append]
  · refine ⟨_, feed_block n ys _ rfl hy (by simp only; omega), ?_⟩
    simp only [Resizing.val, List.sum_append, zero_add]

example : (2 : Nat) ≤ ([10, 10, 10] : List ℚ).length ∧ ([10, 10, 10] : List ℚ).length + 0 + 1 + 0 + 0 < 8 ∧ ([10] : List ℚ).length + 0 + ([10] : List ℚ).length = 2 := by decide

/-- A constant 10 reads 7.5 after `set_size(2)` that one interrupt hits, and 5 one sample later if one comes just before the sum is cleared. -/
theorem C253_shrink_violated :
    (∃ o', setSizeI ⟨30, 10, 3, 8⟩ 2 [] [10] [] [] [] [] = .ok o' ∧ Resizing.val o' = 15 / 2) ∧
    (∃ o', setSizeI ⟨30, 10, 3, 8⟩ 2 [] [] [] [] [10] [] = .ok o' ∧ ∃ o'', feed o' [10] = .ok o'' ∧ Resizing.val o'' = 5) := by
  constructor
  · obtain ⟨o', e1, e2, _⟩ := C253_shrink_exact [10, 10, 10] [] [10] [] [] [] [] [10, 10] 10 8 2 (by decide) (by simp) (by decide) (by decide) (by simp) rfl
    refine ⟨o', by norm_num at e1; exact e1, ?_⟩
    rw [e2]
    norm_num
  · obtain ⟨o', e1, _, o'', e3, e4⟩ := C253_shrink_exact [10, 10, 10] [] [] [] [] [10] [] [10] 10 8 2 (by decide) (by simp) (by decide) (by decide) (by simp) rfl
    refine ⟨o', by norm_num at e1; exact e1, o'', e3, ?_⟩
    rw [e4]
    norm_num

end FilterIsr
