import Verif.Props.Calib
/-! # Property C183: recalibrating without a reset -/

namespace Voct

theorem solve_keeps (u : Voct) : u.solve.num = u.num ∧ u.solve.pt0 = u.pt0 ∧ u.solve.pt1 = u.pt1 ∧ u.solve.measuredC0 = u.measuredC0 := by
  unfold solve
  split
  · simp only
    split <;> split <;> exact ⟨rfl, rfl, rfl, rfl⟩
  · exact ⟨rfl, rfl, rfl, rfl⟩

theorem noteC0_keeps (u : Voct) (n : Nat) (m : ℚ) : (u.noteC0 n m).num = u.num ∧ (u.noteC0 n m).pt0 = u.pt0 ∧ (u.noteC0 n m).pt1 = u.pt1 ∧ (u.noteC0 n m).slope = u.slope ∧
    (u.noteC0 n m).measuredC0 = (u.measuredC0 || decide (n = 0)) ∧ (u.noteC0 n m).offset = if n = 0 then m else u.offset := by
  unfold noteC0
  split
  · next h => simp [h]
  · next h => simp [h]

theorem push_spec (u : Voct) (n : Nat) (m : ℚ) : (u.push n m).slope = u.slope ∧ (u.push n m).offset = u.offset ∧ (u.push n m).measuredC0 = u.measuredC0 ∧
    (u.num = 0 → (u.push n m).num = 1 ∧ (u.push n m).pt0 = (n, m)) ∧ (u.num = 1 → (u.push n m).num = 2 ∧ (u.push n m).pt0 = u.pt0 ∧ (u.push n m).pt1 = (n, m)) ∧
    (2 ≤ u.num → (u.push n m).num = 2 ∧ (u.push n m).pt0 = u.pt1 ∧ (u.push n m).pt1 = (n, m)) := by
  unfold push
  by_cases h2 : u.num ≥ 2
  · simp only [if_pos h2]
    refine ⟨rfl, rfl, rfl, fun h => by omega, fun h => by omega, fun _ => ⟨rfl, rfl, rfl⟩⟩
  · simp only [if_neg h2]
    by_cases h0 : u.num = 0
    · simp only [if_pos h0]
      exact ⟨trivial, trivial, trivial, fun _ => ⟨trivial, trivial⟩, fun h => by omega, fun h => by omega⟩
    · simp only [if_neg h0]
      exact ⟨trivial, trivial, trivial, fun h => absurd h h0, fun h => ⟨by omega, trivial, trivial⟩, fun h => by omega⟩

/-- After a measurement it is the latest data point. -/
theorem record_latest (v : Voct) (n : Nat) (m : ℚ) (hn : n ≠ 11) :
    ((v.record n m).num = 1 ∧ (v.record n m).pt0 = (n, m)) ∨ ((v.record n m).num = 2 ∧ (v.record n m).pt1 = (n, m)) := by
  unfold record
  rw [if_neg hn]
  obtain ⟨a, b, c, _⟩ := solve_keeps ((v.noteC0 n m).push n m)
  obtain ⟨_, _, _, p0, p1, p2⟩ := push_spec (v.noteC0 n m) n m
  rw [a, b, c]
  rcases Nat.lt_or_ge (v.noteC0 n m).num 2 with h | h
  · rcases Nat.lt_or_ge (v.noteC0 n m).num 1 with h1 | h1
    · exact .inl (p0 (by omega))
    · obtain ⟨q1, _, q3⟩ := p1 (by omega)
      exact .inr ⟨q1, q3⟩
  · obtain ⟨q1, _, q3⟩ := p2 h
    exact .inr ⟨q1, q3⟩

/-- The next measurement leaves these two as the data points to be solved for. -/
theorem record_two (u : Voct) (n1 n2 : Nat) (m1 m2 : ℚ) (hu : (u.num = 1 ∧ u.pt0 = (n1, m1)) ∨ (u.num = 2 ∧ u.pt1 = (n1, m1))) (hn : n2 ≠ 11) :
    ∃ w : Voct, u.record n2 m2 = w.solve ∧ w.num = 2 ∧ w.pt0 = (n1, m1) ∧ w.pt1 = (n2, m2) ∧ w.slope = u.slope ∧ w.measuredC0 = (u.measuredC0 || decide (n2 = 0)) ∧ w.offset = if n2 = 0 then m2 else u.offset := by
  refine ⟨(u.noteC0 n2 m2).push n2 m2, by unfold record; rw [if_neg hn], ?_⟩
  obtain ⟨k1, k2, k3, k4, k5, k6⟩ := noteC0_keeps u n2 m2
  obtain ⟨s1, s2, s3, _, p1, p2⟩ := push_spec (u.noteC0 n2 m2) n2 m2
  rw [s1, s2, s3, k4, k5, k6]
  rcases hu with ⟨h1, h2⟩ | ⟨h1, h2⟩
  · obtain ⟨q1, q2, q3⟩ := p1 (by omega)
    exact ⟨q1, by rw [q2, k2, h2], q3, rfl, rfl, rfl⟩
  · obtain ⟨q1, q2, q3⟩ := p2 (by omega)
    exact ⟨q1, by rw [q2, k3, h2], q3, rfl, rfl, rfl⟩

/-- **C183** (partial): whatever was measured before, without any reset: two measurements of different notes with different values give the slope of the line through them; the offset is that of the same line if C0 was not measured, or if it is
one of the two. Missing: equal values, below (and an earlier C0, which by design fixes the offset). -/
theorem C183_latest_partial (v : Voct) (n1 n2 : Nat) (m1 m2 : ℚ) (h1 : n1 ≠ 11) (h2 : n2 ≠ 11) (hne : n1 ≠ n2) (hm : m1 ≠ m2) (w : Voct) (hw : w = (v.record n1 m1).record n2 m2) :
    w.slope = (m1 - m2) / ((n1 : ℚ) - n2) ∧ (w.measuredC0 = false ∨ n1 = 0 ∨ n2 = 0 → w.offset + w.slope * n1 = m1 ∧ w.offset + w.slope * n2 = m2) := by
  obtain ⟨w', e, q1, q2, q3, _, q5, q6⟩ := record_two _ n1 n2 m1 m2 (record_latest v n1 m1 h1) h2
  have hsp : ((n1 : Int) - n2) ≠ 0 := by omega
  have hd : m1 - m2 ≠ 0 := sub_ne_zero.mpr hm
  have hq : ((n1 : ℚ) - n2) ≠ 0 := by
    intro h
    apply hne
    have : (n1 : ℚ) = n2 := by linarith
    exact_mod_cast this
  have hs : w'.solve.slope = (m1 - m2) / ((n1 : ℚ) - n2) ∧ w'.solve.offset = (if w'.measuredC0 then w'.offset else (m1 - (m1 - m2) / ((n1 : ℚ) - n2) * n1 + (m2 - (m1 - m2) / ((n1 : ℚ) - n2) * n2)) / 2) := by
    unfold solve
    rw [if_pos (by omega)]
    simp only [q2, q3]
    rw [if_pos (show ((n1 : Int) - n2) ≠ 0 ∧ m1 - m2 ≠ 0 from ⟨hsp, hd⟩)]
    simp only
    cases w'.measuredC0
    · simp only [Bool.false_eq_true, if_false]; push_cast; exact ⟨rfl, rfl⟩
    · simp
  have hwc : w.measuredC0 = w'.measuredC0 := by rw [hw, e, (solve_keeps w').2.2.2]
  have hoff : w.offset = w'.solve.offset := by rw [hw, e]
  have hsl : w.slope = (m1 - m2) / ((n1 : ℚ) - n2) := by rw [hw, e]; exact hs.1
  refine ⟨hsl, fun hc => ?_⟩
  have key : ∀ o : ℚ, (o + (m1 - m2) / ((n1 : ℚ) - n2) * n1 = m1) → o + (m1 - m2) / ((n1 : ℚ) - n2) * n1 = m1 ∧ o + (m1 - m2) / ((n1 : ℚ) - n2) * n2 = m2 := by
    intro o ho
    refine ⟨ho, ?_⟩
    have : (m1 - m2) / ((n1 : ℚ) - n2) * (n1 - n2) = m1 - m2 := div_mul_cancel₀ _ hq
    linarith
  rw [hsl, hoff, hs.2]
  apply key
  have hmul : (m1 - m2) / ((n1 : ℚ) - n2) * (n1 - n2) = m1 - m2 := div_mul_cancel₀ _ hq
  by_cases hb : w'.measuredC0 = true
  · rw [if_pos hb, q6]
    rcases hc with hc | rfl | rfl
    · rw [hwc, hb] at hc; cases hc
    · have hn2 : n2 ≠ 0 := fun h => hne h.symm
      rw [if_neg hn2, (C104_C0 v m1).1]
      push_cast
      ring
    · simp only [if_true]
      push_cast at hmul ⊢
      linarith
  · rw [if_neg hb]
    linarith

/-- recalibrated from slope 10 to slope 5 -/
example := C183_latest_partial (((init.record 1 10).record 2 20).record 3 30) 4 6 20 30 (by decide) (by decide) (by decide) (by norm_num) _ rfl

/-- **C183, violated**: if the two latest measurements are equal, the slope stays what it was before: after a line of slope 10, the measurements 30 at C3 and 30 at C4 leave the slope 10, and the line gives 25 at C3 and 35 at C4. -/
theorem C183_equal_violated :
    ((((init.record 1 10).record 2 20).record 3 30).record 4 30).slope = 10 ∧ ((((init.record 1 10).record 2 20).record 3 30).record 4 30).offset = -5 := by decide +kernel

end Voct
