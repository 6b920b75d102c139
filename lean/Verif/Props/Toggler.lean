import Verif.Spec.Toggler
/-! # Properties C63 to C69 and C74: togglers, debouncers, triggers, RotaryMotion -/

/-! ### C63 -/
namespace Debouncer
open Spec

theorem sampleAgo_zero (h : List Bool) (b : Bool) : sampleAgo (h ++ [b]) 0 = b := by simp [sampleAgo]
theorem sampleAgo_succ (h : List Bool) (b : Bool) (i : Nat) : sampleAgo (h ++ [b]) (i + 1) = sampleAgo h i := by simp [sampleAgo]

theorem samples_append (l m : List Op) : samples (l ++ m) = samples l ++ samples m := by
  induction l with
  | nil => rfl
  | cons o l ih => cases o <;> simp [samples, ih]

theorem shift_bit (st mask : BitVec 32) (b : Bool) (n : Nat) (hist : List Bool) (hm : ∀ i, i < 32 → mask.getLsbD i = decide (i < n))
    (h : ∀ i, i < 32 → st.getLsbD i = (decide (i < n) && sampleAgo hist i)) :
    ∀ i, i < 32 → (((st <<< 1) ||| BitVec.ofNat 32 b.toNat) &&& mask).getLsbD i = (decide (i < n) && sampleAgo (hist ++ [b]) i) := by
  intro i hi
  rw [BitVec.getLsbD_and, BitVec.getLsbD_or, BitVec.getLsbD_shiftLeft, hm i hi]
  cases i with
  | zero => rw [sampleAgo_zero]; cases b <;> simp
  | succ i =>
    rw [sampleAgo_succ]
    have hb : (BitVec.ofNat 32 b.toNat).getLsbD (i + 1) = false := by
      cases b
      · simp
      · simp [BitVec.getLsbD_ofNat, Nat.testBit_succ]
    rw [hb]
    simp only [hi, decide_true, Bool.not_false, Bool.true_and, Bool.or_false, Nat.add_sub_cancel]
    rw [h i (by omega)]
    by_cases h1 : i + 1 < n
    · have : i < n := by omega
      simp [h1, this]
    · simp [h1]

theorem run_append (c : DebounceCfg) (l m : List Op) (d : Debouncer) : run c (l ++ m) d = run c m (run c l d) := by
  simp [run, List.foldl_append]

theorem run_state (c : DebounceCfg) (n : Nat) (hm : ∀ i, i < 32 → c.stateMask.getLsbD i = decide (i < n)) (ops : List Op) :
    ∀ i, i < 32 → (run c ops {}).state.getLsbD i = (decide (i < n) && sampleAgo (samples ops) i) := by
  suffices key : ∀ (l : List Op) (d : Debouncer) (hist : List Bool),
      (∀ i, i < 32 → d.state.getLsbD i = (decide (i < n) && sampleAgo hist i)) →
      ∀ i, i < 32 → (run c l d).state.getLsbD i = (decide (i < n) && sampleAgo (hist ++ samples l) i) by
    have := key ops {} [] (by intro i _; simp [sampleAgo])
    simpa using this
  intro l
  induction l with
  | nil => intro d hist h; simpa [run, samples] using h
  | cons o l ih =>
    intro d hist h
    have e : run c (o :: l) d = run c l (step c d o) := rfl
    rw [e]
    cases o with
    | sample b =>
      have := ih (step c d (.sample b)) (hist ++ [b]) (by
        have e2 : (step c d (.sample b)).state = (((d.state <<< 1) ||| BitVec.ofNat 32 b.toNat) &&& c.stateMask) := by
          simp only [step, registerState]
          split
          · rfl
          · split
            · rfl
            · split <;> rfl
        rw [e2]; exact shift_bit _ _ b n hist hm h)
      simpa [samples] using this
    | isJustPressed => exact ih _ hist h
    | isJustReleased => exact ih _ hist h
    | clearEvents => exact ih _ hist h
    | reset => exact ih _ hist h

theorem state_eq_iff (st pat mask : BitVec 32) (n : Nat) (hn : n ≤ 32) (hist : List Bool) (hm : ∀ i, i < 32 → mask.getLsbD i = decide (i < n))
    (h : ∀ i, i < 32 → st.getLsbD i = (decide (i < n) && sampleAgo hist i)) : st = (pat &&& mask) ↔ Matches n pat hist := by
  constructor
  · intro he i hi
    have := h i (by omega)
    rw [he, BitVec.getLsbD_and, hm i (by omega)] at this
    simp [hi] at this
    exact this.symm
  · intro hM
    apply BitVec.eq_of_getLsbD_eq
    intro i hi
    rw [h i hi, BitVec.getLsbD_and, hm i hi]
    by_cases h1 : i < n
    · rw [hM i h1]; simp [h1]
    · simp [h1]

/-- The state of the shift register after one more sample, in terms of the history. -/
theorem state_sample (c : DebounceCfg) (n : Nat) (hn : n ≤ 32) (hm : ∀ i, i < 32 → c.stateMask.getLsbD i = decide (i < n)) (ops : List Op) (b : Bool)
    (pat : BitVec 32) : ((((run c ops {}).state <<< 1) ||| BitVec.ofNat 32 b.toNat) &&& c.stateMask) = (pat &&& c.stateMask) ↔
      Matches n pat (samples ops ++ [b]) :=
  state_eq_iff _ _ _ n hn _ hm (shift_bit _ _ b n _ hm (run_state c n hm ops))

/-- **C63**: after any calls, one more sample `b` makes a rising event exactly if the last `n` samples match the rising pattern, else a
falling event exactly if they match the falling pattern, else leaves the events alone and sets the state only without DebounceRawState. -/
theorem C63_debounce (c : DebounceCfg) (n : Nat) (hn : n ≤ 32) (hm : ∀ i, i < 32 → c.stateMask.getLsbD i = decide (i < n)) (ops : List Op) (b : Bool) :
    (Matches n c.risingPattern (samples ops ++ [b]) → (run c (ops ++ [.sample b]) {}).t = ⟨true, true, false⟩) ∧
    (¬ Matches n c.risingPattern (samples ops ++ [b]) → Matches n c.fallingPattern (samples ops ++ [b]) →
      (run c (ops ++ [.sample b]) {}).t = ⟨false, false, true⟩) ∧
    (¬ Matches n c.risingPattern (samples ops ++ [b]) → ¬ Matches n c.fallingPattern (samples ops ++ [b]) →
      (run c (ops ++ [.sample b]) {}).t.rising = (run c ops {}).t.rising ∧ (run c (ops ++ [.sample b]) {}).t.falling = (run c ops {}).t.falling ∧
      (run c (ops ++ [.sample b]) {}).t.isHigh = if c.debounceRawState then (run c ops {}).t.isHigh else b) := by
  have e : run c (ops ++ [.sample b]) {} = registerState c (run c ops {}) (BitVec.ofNat 32 b.toNat) := by rw [run_append]; rfl
  rw [e]
  have k1 := state_sample c n hn hm ops b c.risingPattern
  have k2 := state_sample c n hn hm ops b c.fallingPattern
  refine ⟨?_, ?_, ?_⟩
  · intro h
    simp only [registerState]
    rw [if_pos (k1.mpr h)]; rfl
  · intro h1 h2
    simp only [registerState]
    rw [if_neg (fun h => h1 (k1.mp h)), if_pos (k2.mpr h2)]; rfl
  · intro h1 h2
    simp only [registerState]
    rw [if_neg (fun h => h1 (k1.mp h)), if_neg (fun h => h2 (k2.mp h))]
    cases hr : c.debounceRawState
    · simp only [Bool.not_false, if_true]
      refine ⟨rfl, rfl, ?_⟩
      cases b <;> rfl
    · simp

/-- **C63**, default template arguments: a rising event on the first high sample after eleven low ones, a falling event on the first low
after eleven high. -/
theorem C63_default (hist : List Bool) (b : Bool) :
    (∀ i, i < 32 → (DebounceCfg.mk 0x00000001 0xFFFFFFFE 0x00000FFF false).stateMask.getLsbD i = decide (i < 12)) ∧
    (Matches 12 0x00000001 (hist ++ [b]) ↔ b = true ∧ ∀ i, i < 11 → sampleAgo hist i = false) ∧
    (Matches 12 0xFFFFFFFE (hist ++ [b]) ↔ b = false ∧ ∀ i, i < 11 → sampleAgo hist i = true) := by
  have one : ∀ i, i < 11 → (0x00000001 : BitVec 32).getLsbD (i + 1) = false := by decide
  have big : ∀ i, i < 11 → (0xFFFFFFFE : BitVec 32).getLsbD (i + 1) = true := by decide
  refine ⟨by decide, ⟨?_, ?_⟩, ⟨?_, ?_⟩⟩
  · intro h
    refine ⟨by have := h 0 (by omega); rw [sampleAgo_zero] at this; simpa using this, ?_⟩
    intro i hi
    have := h (i + 1) (by omega)
    rw [sampleAgo_succ, one i hi] at this; exact this
  · rintro ⟨rfl, h⟩ i hi
    cases i with
    | zero => rw [sampleAgo_zero]; rfl
    | succ i => rw [sampleAgo_succ, one i (by omega)]; exact h i (by omega)
  · intro h
    refine ⟨by have := h 0 (by omega); rw [sampleAgo_zero] at this; simpa using this, ?_⟩
    intro i hi
    have := h (i + 1) (by omega)
    rw [sampleAgo_succ, big i hi] at this; exact this
  · rintro ⟨rfl, h⟩ i hi
    cases i with
    | zero => rw [sampleAgo_zero]; rfl
    | succ i => rw [sampleAgo_succ, big i (by omega)]; exact h i (by omega)

/-- eleven lows, then a high: a rising event; then nothing new -/
example : (run {} (List.replicate 11 (.sample false) ++ [.sample true]) {}).t = ⟨true, true, false⟩ ∧
    (run {} (List.replicate 11 (.sample false) ++ [.sample true, .isJustPressed, .sample true]) {}).t = ⟨true, false, false⟩ := by decide +kernel

end Debouncer

namespace DebouncerCounter

/-- **C63**: DebouncerCounter reports exactly the same events and states as Debouncer ... -/
theorem C63_counter_same (c : DebounceCfg) (ops : List Debouncer.Op) :
    (run c ops {}).t = (Debouncer.run c ops {}).t ∧ (run c ops {}).state = (Debouncer.run c ops {}).state := by
  suffices key : ∀ (l : List Debouncer.Op) (d : DebouncerCounter) (e : Debouncer), d.t = e.t → d.state = e.state →
      (run c l d).t = (Debouncer.run c l e).t ∧ (run c l d).state = (Debouncer.run c l e).state from key ops {} {} rfl rfl
  intro l
  induction l with
  | nil => intro d e h1 h2; exact ⟨h1, h2⟩
  | cons o l ih =>
    intro d e h1 h2
    apply ih
    · cases o <;> simp only [step, Debouncer.step, h1]
      simp only [registerState, Debouncer.registerState, h1, h2]
      split
      · rfl
      · split
        · rfl
        · split <;> simp [h1]
    · cases o <;> simp only [step, Debouncer.step, h2]
      simp only [registerState, Debouncer.registerState, h2]
      split
      · rfl
      · split
        · rfl
        · split <;> rfl

/-- ... and its counter is 0 at an event and one more than before (modulo 2^32) at any other sample. -/
theorem C63_counter_count (c : DebounceCfg) (n : Nat) (hn : n ≤ 32) (hm : ∀ i, i < 32 → c.stateMask.getLsbD i = decide (i < n))
    (ops : List Debouncer.Op) (b : Bool) (h : List Bool) (hh : h = Debouncer.Spec.samples ops ++ [b]) :
    ((Debouncer.Spec.Matches n c.risingPattern h ∨ Debouncer.Spec.Matches n c.fallingPattern h) → (run c (ops ++ [.sample b]) {}).ctr = 0) ∧
    (¬ (Debouncer.Spec.Matches n c.risingPattern h ∨ Debouncer.Spec.Matches n c.fallingPattern h) →
      (run c (ops ++ [.sample b]) {}).ctr = (run c ops {}).ctr + 1) := by
  subst hh
  have e : run c (ops ++ [.sample b]) {} = registerState c (run c ops {}) (BitVec.ofNat 32 b.toNat) := by
    simp [run, List.foldl_append, step]
  have k1 := Debouncer.state_sample c n hn hm ops b c.risingPattern
  have k2 := Debouncer.state_sample c n hn hm ops b c.fallingPattern
  rw [← (C63_counter_same c ops).2] at k1 k2
  rw [e, ← k1, ← k2]
  simp only [registerState]
  constructor
  · rintro (h | h)
    · rw [if_pos h]
    · split
      · rfl
      · rfl
  · intro h
    rw [if_neg (fun g => h (Or.inl g)), if_neg (fun g => h (Or.inr g))]
    split <;> rfl

example : (run {} (List.replicate 11 (.sample false) ++ [.sample true, .sample true, .sample true]) {}).ctr = 2 := by decide +kernel

end DebouncerCounter

/-! ### C64, C65, C66 -/
namespace Toggler
open Spec

theorem run_append (l m : List Op) (s : Toggler × Toggler) : run (l ++ m) s = run m (run l s) := by
  induction l generalizing s with
  | nil => rfl
  | cons o l ih => exact ih _

theorem step_pressed (i : Bool) (s : Toggler × Toggler) (o : Op) (h : own o = true) :
    (if o = .isJustPressed i ∧ (step s o).1 = some true then 1 else 0) + (get (step s o).2 i).rising.toNat ≤
      (get s i).rising.toNat + (if isRise i s o then 1 else 0) := by
  obtain ⟨⟨a1, a2, a3⟩, ⟨b1, b2, b3⟩⟩ := s
  cases o with
  | copyState j => simp [own] at h
  | updateState j => simp [own] at h
  | transferEvents j => simp [own] at h
  | clearEvents j | reset j | isHigh j | isJustPressed j | isJustReleased j | rising j | falling j =>
    revert i j a1 a2 a3 b1 b2 b3; decide
  | registerState j b => revert i j b a1 a2 a3 b1 b2 b3; decide
  | setStateNoEvents j x => cases i <;> cases j <;> simp [step, put, get, setStateNoEvents]

theorem step_released (i : Bool) (s : Toggler × Toggler) (o : Op) (h : own o = true) :
    (if o = .isJustReleased i ∧ (step s o).1 = some true then 1 else 0) + (get (step s o).2 i).falling.toNat ≤
      (get s i).falling.toNat + (if isFall i s o then 1 else 0) := by
  obtain ⟨⟨a1, a2, a3⟩, ⟨b1, b2, b3⟩⟩ := s
  cases o with
  | copyState j => simp [own] at h
  | updateState j => simp [own] at h
  | transferEvents j => simp [own] at h
  | clearEvents j | reset j | isHigh j | isJustPressed j | isJustReleased j | rising j | falling j =>
    revert i j a1 a2 a3 b1 b2 b3; decide
  | registerState j b => revert i j b a1 a2 a3 b1 b2 b3; decide
  | setStateNoEvents j x => cases i <;> cases j <;> simp [step, put, get, setStateNoEvents]

/-- **C64**: is_just_pressed (is_just_released) answers true at most once per registered rising (falling) edge. -/
theorem C64_at_most_once (i : Bool) (ops : List Op) (h : ∀ o ∈ ops, own o = true) :
    pressed i ops ({}, {}) ≤ rises i ops ({}, {}) ∧ released i ops ({}, {}) ≤ falls i ops ({}, {}) := by
  have k1 : ∀ (l : List Op) (s : Toggler × Toggler), (∀ o ∈ l, own o = true) → pressed i l s ≤ (get s i).rising.toNat + rises i l s := by
    intro l
    induction l with
    | nil => intro s _; simp [pressed]
    | cons o l ih =>
      intro s h
      have g1 := step_pressed i s o (h o (by simp))
      have g2 := ih (step s o).2 (fun x hx => h x (by simp [hx]))
      rw [pressed, rises]; omega
  have k2 : ∀ (l : List Op) (s : Toggler × Toggler), (∀ o ∈ l, own o = true) → released i l s ≤ (get s i).falling.toNat + falls i l s := by
    intro l
    induction l with
    | nil => intro s _; simp [released]
    | cons o l ih =>
      intro s h
      have g1 := step_released i s o (h o (by simp))
      have g2 := ih (step s o).2 (fun x hx => h x (by simp [hx]))
      rw [released, falls]; omega
  have e1 := k1 ops ({}, {}) h
  have e2 := k2 ops ({}, {}) h
  cases i <;> (simp [get] at e1 e2; exact ⟨e1, e2⟩)

example := C64_at_most_once false [.registerState false true, .isJustPressed false, .isJustPressed false, .registerState false false] (by decide)

theorem keep_rising (i : Bool) (o : Op) (s : Toggler × Toggler) (h : own o = true)
    (hk : o ≠ .isJustPressed i ∧ o ≠ .clearEvents i ∧ o ≠ .reset i ∧ o ≠ .falling i) (hp : (get s i).rising = true) :
    (get (step s o).2 i).rising = true := by
  obtain ⟨⟨a1, a2, a3⟩, ⟨b1, b2, b3⟩⟩ := s
  cases o with
  | copyState j => simp [own] at h
  | updateState j => simp [own] at h
  | transferEvents j => simp [own] at h
  | clearEvents j | reset j | isHigh j | isJustPressed j | isJustReleased j | rising j | falling j =>
    revert i j a1 a2 a3 b1 b2 b3; decide
  | registerState j b => revert i j b a1 a2 a3 b1 b2 b3; decide
  | setStateNoEvents j x => cases i <;> cases j <;> simpa [step, put, get, setStateNoEvents] using hp

theorem keep_falling (i : Bool) (o : Op) (s : Toggler × Toggler) (h : own o = true)
    (hk : o ≠ .isJustReleased i ∧ o ≠ .clearEvents i ∧ o ≠ .reset i ∧ o ≠ .rising i) (hp : (get s i).falling = true) :
    (get (step s o).2 i).falling = true := by
  obtain ⟨⟨a1, a2, a3⟩, ⟨b1, b2, b3⟩⟩ := s
  cases o with
  | copyState j => simp [own] at h
  | updateState j => simp [own] at h
  | transferEvents j => simp [own] at h
  | clearEvents j | reset j | isHigh j | isJustPressed j | isJustReleased j | rising j | falling j =>
    revert i j a1 a2 a3 b1 b2 b3; decide
  | registerState j b => revert i j b a1 a2 a3 b1 b2 b3; decide
  | setStateNoEvents j x => cases i <;> cases j <;> simpa [step, put, get, setStateNoEvents] using hp

theorem rise_sets (i : Bool) (o : Op) (s : Toggler × Toggler) (h : isRise i s o = true) : (get (step s o).2 i).rising = true := by
  simp only [isRise, Bool.or_eq_true, Bool.and_eq_true, beq_iff_eq] at h
  obtain ⟨⟨a1, a2, a3⟩, ⟨b1, b2, b3⟩⟩ := s
  rcases h with rfl | ⟨rfl, h⟩
  · cases i <;> rfl
  · revert i a1 a2 a3 b1 b2 b3; decide

theorem fall_sets (i : Bool) (o : Op) (s : Toggler × Toggler) (h : isFall i s o = true) : (get (step s o).2 i).falling = true := by
  simp only [isFall, Bool.or_eq_true, Bool.and_eq_true, beq_iff_eq] at h
  obtain ⟨⟨a1, a2, a3⟩, ⟨b1, b2, b3⟩⟩ := s
  rcases h with rfl | ⟨rfl, h⟩
  · cases i <;> rfl
  · revert i a1 a2 a3 b1 b2 b3; decide

theorem answer_pressed (i : Bool) (s : Toggler × Toggler) : (step s (.isJustPressed i)).1 = some (get s i).rising := by
  obtain ⟨⟨a1, a2, a3⟩, ⟨b1, b2, b3⟩⟩ := s
  revert i a1 a2 a3 b1 b2 b3; decide

theorem answer_released (i : Bool) (s : Toggler × Toggler) : (step s (.isJustReleased i)).1 = some (get s i).falling := by
  obtain ⟨⟨a1, a2, a3⟩, ⟨b1, b2, b3⟩⟩ := s
  revert i a1 a2 a3 b1 b2 b3; decide

/-- **C64**: after a rising edge, and calls that are no query for it, clear or reset of this toggler, opposite edge announced with
register_falling_edge, nor a move of events between togglers, the next is_just_pressed answers true; the same for falling edges. -/
theorem C64_delivered (i : Bool) (pre mid : List Op) (o : Op) (s : Toggler × Toggler) :
    (isRise i (run pre s) o = true → (∀ x ∈ mid, own x = true ∧ x ≠ .isJustPressed i ∧ x ≠ .clearEvents i ∧ x ≠ .reset i ∧ x ≠ .falling i) →
      (step (run (pre ++ o :: mid) s) (.isJustPressed i)).1 = some true) ∧
    (isFall i (run pre s) o = true → (∀ x ∈ mid, own x = true ∧ x ≠ .isJustReleased i ∧ x ≠ .clearEvents i ∧ x ≠ .reset i ∧ x ≠ .rising i) →
      (step (run (pre ++ o :: mid) s) (.isJustReleased i)).1 = some true) := by
  constructor
  · intro h1 h2
    rw [answer_pressed, run_append]
    have key : ∀ (l : List Op) (s : Toggler × Toggler), (get s i).rising = true →
        (∀ x ∈ l, own x = true ∧ x ≠ .isJustPressed i ∧ x ≠ .clearEvents i ∧ x ≠ .reset i ∧ x ≠ .falling i) → (get (run l s) i).rising = true := by
      intro l
      induction l with
      | nil => intro s h _; exact h
      | cons x l ih =>
        intro s h hx
        exact ih _ (keep_rising i x s (hx x (by simp)).1 (hx x (by simp)).2 h) (fun y hy => hx y (by simp [hy]))
    have := key mid _ (rise_sets i o (run pre s) h1) h2
    exact congrArg some this
  · intro h1 h2
    rw [answer_released, run_append]
    have key : ∀ (l : List Op) (s : Toggler × Toggler), (get s i).falling = true →
        (∀ x ∈ l, own x = true ∧ x ≠ .isJustReleased i ∧ x ≠ .clearEvents i ∧ x ≠ .reset i ∧ x ≠ .rising i) → (get (run l s) i).falling = true := by
      intro l
      induction l with
      | nil => intro s h _; exact h
      | cons x l ih =>
        intro s h hx
        exact ih _ (keep_falling i x s (hx x (by simp)).1 (hx x (by simp)).2 h) (fun y hy => hx y (by simp [hy]))
    have := key mid _ (fall_sets i o (run pre s) h1) h2
    exact congrArg some this

example := (C64_delivered false [] [.registerState false true] (.registerState false true) ({}, {})).1 (by decide) (by decide)

/-- **C64**: a query with no new edge since the last such query answers false; clear_events and reset discard pending edges. -/
theorem C64_no_new_edge (i : Bool) (pre mid : List Op) (s : Toggler × Toggler) (hown : ∀ x ∈ mid, own x = true) :
    (∀ o, o = .isJustPressed i ∨ o = .clearEvents i ∨ o = .reset i → rises i mid (run (pre ++ [o]) s) = 0 →
      (step (run (pre ++ o :: mid) s) (.isJustPressed i)).1 = some false) ∧
    (∀ o, o = .isJustReleased i ∨ o = .clearEvents i ∨ o = .reset i → falls i mid (run (pre ++ [o]) s) = 0 →
      (step (run (pre ++ o :: mid) s) (.isJustReleased i)).1 = some false) := by
  constructor
  · intro o ho h
    rw [answer_pressed, show pre ++ o :: mid = (pre ++ [o]) ++ mid by simp, run_append]
    have h0 : (get (run (pre ++ [o]) s) i).rising = false := by
      rw [run_append]
      obtain ⟨⟨⟨a1, a2, a3⟩, ⟨b1, b2, b3⟩⟩, hs⟩ : ∃ t, run pre s = t := ⟨_, rfl⟩
      rw [hs]
      clear hs
      rcases ho with rfl | rfl | rfl <;> clear h <;> (revert a1 a2 a3 b1 b2 b3; cases i <;> decide)
    have key : ∀ (l : List Op) (s : Toggler × Toggler), (∀ x ∈ l, own x = true) → (get s i).rising = false → rises i l s = 0 → (get (run l s) i).rising = false := by
      intro l
      induction l with
      | nil => intro s _ h _; exact h
      | cons x l ih =>
        intro s ho h hr
        rw [rises] at hr
        have hk := step_pressed i s x (ho x (by simp))
        refine ih _ (fun y hy => ho y (by simp [hy])) ?_ (by omega)
        rw [h] at hk
        cases hb : (get (step s x).2 i).rising with
        | false => rfl
        | true => rw [hb] at hk; simp only [Bool.toNat_true, Bool.toNat_false] at hk; omega
    exact congrArg some (key mid _ hown h0 h)
  · intro o ho h
    rw [answer_released, show pre ++ o :: mid = (pre ++ [o]) ++ mid by simp, run_append]
    have h0 : (get (run (pre ++ [o]) s) i).falling = false := by
      rw [run_append]
      obtain ⟨⟨⟨a1, a2, a3⟩, ⟨b1, b2, b3⟩⟩, hs⟩ : ∃ t, run pre s = t := ⟨_, rfl⟩
      rw [hs]
      clear hs
      rcases ho with rfl | rfl | rfl <;> clear h <;> (revert a1 a2 a3 b1 b2 b3; cases i <;> decide)
    have key : ∀ (l : List Op) (s : Toggler × Toggler), (∀ x ∈ l, own x = true) → (get s i).falling = false → falls i l s = 0 → (get (run l s) i).falling = false := by
      intro l
      induction l with
      | nil => intro s _ h _; exact h
      | cons x l ih =>
        intro s ho h hr
        rw [falls] at hr
        have hk := step_released i s x (ho x (by simp))
        refine ih _ (fun y hy => ho y (by simp [hy])) ?_ (by omega)
        rw [h] at hk
        cases hb : (get (step s x).2 i).falling with
        | false => rfl
        | true => rw [hb] at hk; simp only [Bool.toNat_true, Bool.toNat_false] at hk; omega
    exact congrArg some (key mid _ hown h0 h)

example := (C64_no_new_edge false [.registerState false true] [.registerState false true] ({}, {}) (by decide)).1 (.isJustPressed false) (.inl rfl) (by decide)

example : answers [.registerState false true, .registerState false true, .isJustPressed false, .isJustPressed false, .registerState false false,
    .isHigh false, .isJustReleased false] ({}, {}) = [none, none, some true, some false, none, some false, some true] := by decide

/-- **C64**, effect of each way to register on the state: after register_rising_edge the state is high and only the rising event is
pending; register_state sets the state, and set_state_no_events sets it without any event. -/
theorem C64_states (t : Toggler) (b : Bool) (x : Nat) : registerRisingEdge t = ⟨true, true, false⟩ ∧ registerFallingEdge t = ⟨false, false, true⟩ ∧
    (registerState t b).isHigh = b ∧ setStateNoEvents t x = ⟨decide (x ≠ 0), t.rising, t.falling⟩ ∧ reset t = ⟨false, false, false⟩ ∧
    clearEvents t = ⟨t.high, false, false⟩ := by
  obtain ⟨a1, a2, a3⟩ := t
  refine ⟨rfl, rfl, ?_, ?_, rfl, rfl⟩
  · revert b a1 a2 a3; decide
  · simp [setStateNoEvents]

/-- **C65** (partial): if not both events are pending in the source, update_state and transfer_events make every event pending in the
source or the destination pending in the destination, copy the state, and transfer_events clears the source's events. Missing: both pending. -/
theorem C65_transfer_partial (dst src : Toggler) (h : ¬ (src.rising = true ∧ src.falling = true)) :
    updateState dst src = ⟨src.high, dst.rising || src.rising, dst.falling || src.falling⟩ ∧
    (transferEvents dst src).1 = ⟨src.high, dst.rising || src.rising, dst.falling || src.falling⟩ ∧
    (transferEvents dst src).2 = ⟨src.high, false, false⟩ := by
  obtain ⟨a1, a2, a3⟩ := dst
  obtain ⟨b1, b2, b3⟩ := src
  revert a1 a2 a3 b1 b2 b3; decide

example := C65_transfer_partial ⟨false, false, true⟩ ⟨true, true, false⟩ (by decide)

/-- **C65, violated**: press and release between two transfers: both events are pending, and the rising one is lost. -/
theorem C65_transfer_violated : (run [.registerState true true, .registerState true false] ({}, {})).2 = ⟨false, true, true⟩ ∧
    answers [.registerState true true, .registerState true false, .transferEvents false, .isJustPressed false, .isJustPressed true, .isJustReleased false]
      ({}, {}) = [none, none, none, some false, some false, some true] := by decide

/-- **C65**: copy_state and assignment copy everything. -/
theorem C65_copy (dst src : Toggler) : copyState dst src = src := rfl

end Toggler

namespace TogglerCompact

/-- What the bits mean. -/
def abs (t : TogglerCompact) : Toggler := ⟨t.high ≠ 0, t.rising ≠ 0, t.falling ≠ 0⟩

theorem bv1 (x : BitVec 1) : x = 0 ∨ x = 1 := by
  have := x.isLt
  rcases Nat.lt_or_ge x.toNat 1 with h | h
  · left; apply BitVec.eq_of_toNat_eq; simp; omega
  · right; apply BitVec.eq_of_toNat_eq; simp; omega

theorem step_sim (s : TogglerCompact × TogglerCompact) (o : Toggler.Op) :
    (step s o).1 = (Toggler.step (abs s.1, abs s.2) o).1 ∧ (abs (step s o).2.1, abs (step s o).2.2) = (Toggler.step (abs s.1, abs s.2) o).2 := by
  obtain ⟨⟨a1, a2, a3⟩, ⟨b1, b2, b3⟩⟩ := s
  cases o with
  | setStateNoEvents j x =>
    by_cases hx : x = 0 <;> cases j <;> simp [step, Toggler.step, get, put, Toggler.get, Toggler.put, setStateNoEvents, Toggler.setStateNoEvents, abs, hx]
  | registerState j b =>
    rcases bv1 a1 with rfl | rfl <;> rcases bv1 a2 with rfl | rfl <;> rcases bv1 a3 with rfl | rfl <;> rcases bv1 b1 with rfl | rfl <;>
      rcases bv1 b2 with rfl | rfl <;> rcases bv1 b3 with rfl | rfl <;> cases j <;> cases b <;> decide
  | _ j =>
    rcases bv1 a1 with rfl | rfl <;> rcases bv1 a2 with rfl | rfl <;> rcases bv1 a3 with rfl | rfl <;> rcases bv1 b1 with rfl | rfl <;>
      rcases bv1 b2 with rfl | rfl <;> rcases bv1 b3 with rfl | rfl <;> cases j <;> decide

/-- **C66**: for every sequence of calls (on two of them, with copies and transfers), TogglerCompact gives the answers of Toggler. -/
theorem C66_compact (ops : List Toggler.Op) : answers ops ({}, {}) = Toggler.answers ops ({}, {}) := by
  suffices key : ∀ (l : List Toggler.Op) (s : TogglerCompact × TogglerCompact), answers l s = Toggler.answers l (abs s.1, abs s.2) from key ops ({}, {})
  intro l
  induction l with
  | nil => intro s; rfl
  | cons o l ih =>
    intro s
    rw [answers, Toggler.answers, (step_sim s o).1, ih, (step_sim s o).2]

example : answers [.registerState false true, .transferEvents true, .isJustPressed true, .isJustPressed false] ({}, {}) = [none, none, some true, some false] := by
  decide

end TogglerCompact

/-! ### C67 -/
namespace TogglerCounter
open Spec

theorem run_append (l m : List Op) (s : TogglerCounter) : run (l ++ m) s = run m (run l s) := by simp [run, List.foldl_append]

theorem step_high (s : TogglerCounter) (o : Op) : (step s o).t.high = match o with | .sample b => b | _ => s.t.high := by
  obtain ⟨⟨a1, a2, a3⟩, c⟩ := s
  cases o with
  | sample b => cases a1 <;> cases b <;> simp [step, registerState]
  | resetCount => rfl
  | isJustPressed => cases a2 <;> rfl
  | isJustReleased => cases a3 <;> rfl
  | clearEvents => rfl

/-- **C67**: the state is that of the last sample. -/
theorem C67_level (l : List Op) : (run l {}).t.isHigh = level l false := by
  suffices key : ∀ (l : List Op) (s : TogglerCounter), (run l s).t.high = level l s.t.high from key l {}
  intro l
  induction l with
  | nil => intro s; rfl
  | cons o l ih =>
    intro s
    have e : run (o :: l) s = run l (step s o) := rfl
    rw [e, ih, step_high]
    cases o <;> rfl

theorem steady_run (b : Bool) : ∀ (l : List Op) (s : TogglerCounter), s.t.high = b → Steady b l →
    (run l s).ctr = s.ctr + BitVec.ofNat 32 (count l) := by
  intro l
  induction l with
  | nil => intro s _ _; simp [run, count]
  | cons o l ih =>
    intro s hs hst
    have e : run (o :: l) s = run l (step s o) := rfl
    have ho := hst o (by simp)
    have hl : Steady b l := fun x hx => hst x (by simp [hx])
    cases o with
    | sample x =>
      have hx : x = b := by
        cases x <;> cases b <;> simp_all
      subst hx
      have h1 : step s (.sample x) = { s with ctr := s.ctr + 1 } := by simp only [step, registerState]; rw [if_pos (by rw [hs])]
      rw [e, h1, ih { s with ctr := s.ctr + 1 } hs hl]
      simp only [count, BitVec.ofNat_add]
      rw [BitVec.add_assoc, BitVec.add_comm (1 : BitVec 32)]
      rfl
    | resetCount => exact absurd rfl ho.1
    | isJustPressed => rw [e, ih _ (by rw [step_high]; exact hs) hl]; rfl
    | isJustReleased => rw [e, ih _ (by rw [step_high]; exact hs) hl]; rfl
    | clearEvents => rw [e, ih _ (by rw [step_high]; exact hs) hl]; rfl

/-- **C67**: steady_state_count is the number of samples since the last change of state, reset_count() or construction, modulo 2^32. -/
theorem C67_count (pre suf : List Op) (b : Bool) :
    (level pre false = !b → Steady b suf → (run (pre ++ .sample b :: suf) {}).steadyStateCount = BitVec.ofNat 32 (count suf)) ∧
    (level pre false = b → Steady b suf → (run (pre ++ .resetCount :: suf) {}).steadyStateCount = BitVec.ofNat 32 (count suf)) ∧
    (Steady false suf → (run suf {}).steadyStateCount = BitVec.ofNat 32 (count suf)) := by
  refine ⟨?_, ?_, ?_⟩
  · intro h1 h2
    have hl := C67_level pre
    rw [h1, Toggler.isHigh] at hl
    rw [run_append, steadyStateCount]
    have e : run (.sample b :: suf) (run pre {}) = run suf (step (run pre {}) (.sample b)) := rfl
    rw [e, steady_run b suf _ (by rw [step_high]) h2]
    have : (step (run pre {}) (.sample b)).ctr = 0 := by
      simp only [step, registerState]
      rw [if_neg (by rw [hl]; cases b <;> simp)]
      split <;> rfl
    rw [this]; simp
  · intro h1 h2
    have hl := C67_level pre
    rw [h1, Toggler.isHigh] at hl
    rw [run_append, steadyStateCount]
    have e : run (.resetCount :: suf) (run pre {}) = run suf (step (run pre {}) .resetCount) := rfl
    rw [e, steady_run b suf _ (by rw [step_high]; exact hl) h2]
    simp [step, resetCount]
  · intro h
    rw [steadyStateCount, steady_run false suf {} rfl h]; simp

/-- **C67**: an event is registered exactly on a change. -/
theorem C67_event (s : TogglerCounter) (b : Bool) : (registerState s b.toNat).t = (if s.t.high = b then s.t else
    if b then ⟨true, true, s.t.falling⟩ else ⟨false, s.t.rising, true⟩) := by
  obtain ⟨⟨a1, a2, a3⟩, c⟩ := s
  cases a1 <;> cases b <;> simp [registerState]

/-- low, high, high, query, high: two samples since the change -/
example : (run [.sample false, .sample true, .sample true, .isJustPressed, .sample true] {}).steadyStateCount = 2 ∧
    Steady true [.sample true, .isJustPressed, .sample true] := by
  refine ⟨by decide, by intro o ho; simp at ho; rcases ho with rfl | rfl | rfl <;> simp⟩

/-- Samples other than 0 and 1 count as a change every time: with the value 2 (e.g. a masked pin register) each sample is a rising event. -/
theorem C67_not_boolean (s : TogglerCounter) : (registerState s 2).t.rising = true ∧ (registerState s 2).ctr = 0 := by
  obtain ⟨⟨a1, a2, a3⟩, c⟩ := s
  cases a1 <;> simp [registerState]

end TogglerCounter

/-! ### C68 -/
namespace Schmitt
open Spec

variable {α : Type} (lt : α → α → Bool) (low high : α)

/-- A toggler whose events have been taken. -/
def clean (b : Bool) : Toggler := ⟨b, false, false⟩

theorem trace_cons (b : Bool) (v : α) (l : List α) : trace lt low high (clean b) (v :: l) =
    (!b && lt high v, b && lt v low, if b then !lt v low else lt high v) :: trace lt low high (clean (if b then !lt v low else lt high v)) l := by
  cases b <;> cases h1 : lt high v <;> cases h2 : lt v low <;>
    simp [trace, process, clean, h1, h2, Toggler.registerRisingEdge, Toggler.registerFallingEdge, Toggler.isJustPressed, Toggler.isJustReleased, Toggler.isHigh]

/-- The state before sample `k`. -/
def before (b : Bool) (tr : List (Bool × Bool × Bool)) : Nat → Bool
  | 0 => b
  | k + 1 => match tr[k]? with
    | some (_, _, h) => h
    | none => b

/-- **C68**: for every sample, with the state reported before it: a rising event is reported exactly if the state was low and the sample
is above `high`; a falling event exactly if it was high and the sample is below `low`; otherwise the state stays. -/
theorem C68_events (samples : List α) (k : Nat) (v : α) (r f h : Bool) (hv : samples[k]? = some v)
    (ht : (trace lt low high {} samples)[k]? = some (r, f, h)) (b : Bool) (hb : b = before false (trace lt low high {} samples) k) :
    (r = true ↔ b = false ∧ lt high v = true) ∧ (f = true ↔ b = true ∧ lt v low = true) ∧
    (h = if r then true else if f then false else b) := by
  suffices key : ∀ (l : List α) (b0 : Bool) (k : Nat) (v : α) (r f h : Bool), l[k]? = some v →
      (trace lt low high (clean b0) l)[k]? = some (r, f, h) → ∀ b, b = before b0 (trace lt low high (clean b0) l) k →
      (r = true ↔ b = false ∧ lt high v = true) ∧ (f = true ↔ b = true ∧ lt v low = true) ∧ (h = if r then true else if f then false else b) by
    exact key samples false k v r f h hv ht b hb
  intro l
  induction l with
  | nil => intro b0 k v r f h hv; simp at hv
  | cons x l ih =>
    intro b0 k v r f h hv ht b hb
    rw [trace_cons] at ht hb
    cases k with
    | zero =>
      simp only [List.getElem?_cons_zero, Option.some.injEq, Prod.mk.injEq] at hv ht
      obtain ⟨rfl, rfl, rfl⟩ := ht
      subst hv
      simp only [before] at hb
      subst hb
      cases b <;> cases lt high x <;> cases lt x low <;> simp
    | succ k =>
      simp only [List.getElem?_cons_succ] at hv ht
      refine ih _ k v r f h hv ht b ?_
      rw [hb]
      cases k with
      | zero => simp [before]
      | succ k =>
        simp only [before, List.getElem?_cons_succ]
        have hk : k < (trace lt low high (clean (if b0 then !lt x low else lt high x)) l).length := by
          have := (List.getElem?_eq_some_iff.mp ht).1; omega
        rw [List.getElem?_eq_getElem hk]

example := C68_events (fun a b : Int => decide (a < b)) 4 6 [5, 7, 5, 3, 5, 9] 3 3 false true false (by decide) (by decide) true (by decide)

/-- **C68**: a sample that is neither above `high` nor below `low` changes nothing. -/
theorem C68_inside (t : Toggler) (v : α) (h1 : lt high v = false) (h2 : lt v low = false) : process lt low high t v = t := by
  simp [process, h1, h2]

theorem events_alt (l : List α) : ∀ b : Bool, ∀ (i : Nat) (x : Bool), (events (trace lt low high (clean b) l))[i]? = some x → x = (decide (i % 2 = 0) != b) := by
  induction l with
  | nil => intro b i x h; simp [trace, events] at h
  | cons v l ih =>
    intro b i x h
    rw [trace_cons] at h
    cases b <;> cases h1 : lt high v <;> cases h2 : lt v low <;> simp only [h1, h2, events, Bool.not_false, Bool.not_true, Bool.true_and, Bool.false_and, Bool.and_true,
        Bool.and_false, if_true, Bool.false_eq_true, if_false, List.nil_append, List.append_nil, List.cons_append] at h
    all_goals first
      | exact ih _ i x h
      | (cases i with
        | zero => simp at h; simp [h.symm]
        | succ i =>
          rw [List.getElem?_cons_succ] at h
          rw [ih _ i x h]
          by_cases hi : i % 2 = 0
          · simp [hi, show (i + 1) % 2 = 1 by omega]
          · simp [show i % 2 = 1 by omega, show (i + 1) % 2 = 0 by omega])

/-- **C68**: the events alternate, starting with a rising one. -/
theorem C68_alternate (samples : List α) : Alternates (events (trace lt low high {} samples)) := by
  intro i b h
  have := events_alt lt low high samples false i b h
  simpa using this

/-- **C68**: RisingSchmittTrigger::update answers true exactly at the rising events of a SchmittTrigger fed the same samples. -/
theorem C68_rising_only (samples : List α) : updates lt low high false samples = (trace lt low high {} samples).map (·.1) := by
  suffices key : ∀ (l : List α) (b : Bool), updates lt low high b l = (trace lt low high (clean b) l).map (·.1) from key samples false
  intro l
  induction l with
  | nil => intro b; rfl
  | cons v l ih =>
    intro b
    rw [trace_cons, updates, List.map_cons]
    cases b <;> cases h1 : lt high v <;> cases h2 : lt v low <;> simp [update, h1, h2, ih]

example : trace (fun a b : Int => decide (a < b)) 4 6 {} [5, 7, 5, 3, 5, 9] =
    [(false, false, false), (true, false, true), (false, false, true), (false, true, false), (false, false, false), (true, false, true)] := by decide

end Schmitt

/-! ### C69 -/

/-- **C69**: EdgeStateDetector, from any state, after two updates (the state before the first counts as low if there is none). -/
theorem EdgeState.C69_edge_state (hist : List Bool) (s : Bool) (e : EdgeState) (p : Bool)
    (he : e = (hist ++ [s]).foldl EdgeState.update {}) (hp : p = hist.getLast?.getD false) :
    e.isHigh = s ∧ (e.changed = true ↔ p ≠ s) ∧ (e.wentHigh = true ↔ p = false ∧ s = true) ∧ (e.wentLow = true ↔ p = true ∧ s = false) ∧
    (e.stayingHigh = true ↔ p = true ∧ s = true) ∧ (e.stayingLow = true ↔ p = false ∧ s = false) ∧ e.reset = {} := by
  have hs : (hist.foldl EdgeState.update {}).state = p := by
    rw [hp]
    rcases List.eq_nil_or_concat hist with rfl | ⟨l, b, rfl⟩
    · rfl
    · simp [EdgeState.update]
  have : e = ⟨s, p⟩ := by
    rw [he, List.foldl_append]
    simp [EdgeState.update, hs]
  subst this
  refine ⟨rfl, ?_⟩
  simp only [EdgeState.changed, EdgeState.wentHigh, EdgeState.wentLow, EdgeState.stayingHigh, EdgeState.stayingLow, EdgeState.reset]
  clear he hp hs
  revert s p; decide

/-- **C69**: RisingEdgeDetector and FallingEdgeDetector, fed any samples. -/
theorem EdgeState.C69_edges (hist : List Bool) (s p : Bool) (hp : p = hist.getLast?.getD false) :
    ((EdgeState.risingUpdate (hist.foldl (fun l x => (EdgeState.risingUpdate l x).2) false) s).1 = true ↔ p = false ∧ s = true) ∧
    ((EdgeState.fallingUpdate (hist.foldl (fun l x => (EdgeState.fallingUpdate l x).2) false) s).1 = true ↔ p = true ∧ s = false) := by
  have h : hist.foldl (fun _ x => x) false = p := by
    rw [hp]
    rcases List.eq_nil_or_concat hist with rfl | ⟨l, b, rfl⟩
    · rfl
    · simp
  simp only [EdgeState.risingUpdate, EdgeState.fallingUpdate, h]
  clear h hp
  revert s p; decide

/-- A history of a ChangeDetector: updates, and calls of changed() written `none`. -/
def ChangeDet.run (l : List (Option Bool)) (c : ChangeDet) : ChangeDet :=
  l.foldl (fun c o => match o with | some b => c.update b | none => c.takeChanged.2) c

/-- **C69**: after any history that is empty or ends with a call of changed(), and then any updates: changed() answers true iff some of
these updates differed from the state before it; and the state is that of the last update ever. -/
theorem ChangeDet.C69_changed (pre : List (Option Bool)) (ups : List Bool) (hpre : pre = [] ∨ pre.getLast? = some none) :
    ((ChangeDet.run (pre ++ ups.map some) {}).takeChanged.1 = true ↔
      ∃ a b c, ups = a ++ b :: c ∧ b ≠ a.getLast?.getD (ChangeDet.run pre {}).last) ∧
    (ChangeDet.run (pre ++ ups.map some) {}).last = ups.getLast?.getD (ChangeDet.run pre {}).last := by
  have h0 : (ChangeDet.run pre {}).changed = false := by
    rcases hpre with rfl | h
    · rfl
    · obtain ⟨l, rfl⟩ := List.getLast?_eq_some_iff.mp h
      simp only [ChangeDet.run, List.foldl_append, List.foldl_cons, List.foldl_nil, ChangeDet.takeChanged]
      split <;> simp_all
  have key : ∀ (ups : List Bool) (c : ChangeDet), (ChangeDet.run (ups.map some) c).last = ups.getLast?.getD c.last ∧
      ((ChangeDet.run (ups.map some) c).changed = true ↔ c.changed = true ∨ ∃ a b d, ups = a ++ b :: d ∧ b ≠ a.getLast?.getD c.last) := by
    intro ups
    induction ups with
    | nil => intro c; simp [ChangeDet.run]
    | cons x ups ih =>
      intro c
      have e : ChangeDet.run ((x :: ups).map some) c = ChangeDet.run (ups.map some) (c.update x) := rfl
      have hl : (c.update x).last = x := by
        simp only [ChangeDet.update]
        split
        · rfl
        · simp_all
      have hc : (c.update x).changed = true ↔ c.changed = true ∨ c.last ≠ x := by
        simp only [ChangeDet.update]
        split <;> simp_all
      obtain ⟨i1, i2⟩ := ih (c.update x)
      have hg : ∀ (l : List Bool), (x :: l).getLast? = some (l.getLast?.getD x) := by
        intro l; rw [List.getLast?_cons]
      refine ⟨by rw [e, i1, hl, hg]; rfl, ?_⟩
      rw [e, i2, hc, hl]
      constructor
      · rintro ((h | h) | ⟨a, b, d, rfl, h⟩)
        · exact Or.inl h
        · exact Or.inr ⟨[], x, ups, rfl, fun h' => h h'.symm⟩
        · exact Or.inr ⟨x :: a, b, d, rfl, by rw [hg]; exact h⟩
      · rintro (h | ⟨a, b, d, h, h'⟩)
        · exact Or.inl (Or.inl h)
        · cases a with
          | nil =>
            simp only [List.nil_append, List.cons.injEq] at h
            obtain ⟨rfl, rfl⟩ := h
            exact Or.inl (Or.inr (fun g => h' g.symm))
          | cons y a =>
            simp only [List.cons_append, List.cons.injEq] at h
            obtain ⟨rfl, rfl⟩ := h
            rw [hg] at h'
            exact Or.inr ⟨a, b, d, rfl, h'⟩
  have hrun : ChangeDet.run (pre ++ ups.map some) {} = ChangeDet.run (ups.map some) (ChangeDet.run pre {}) := by
    simp [ChangeDet.run, List.foldl_append]
  rw [hrun]
  obtain ⟨k1, k2⟩ := key ups (ChangeDet.run pre {})
  refine ⟨?_, k1⟩
  have : (ChangeDet.run (ups.map some) (ChangeDet.run pre {})).takeChanged.1 = (ChangeDet.run (ups.map some) (ChangeDet.run pre {})).changed := by
    unfold ChangeDet.takeChanged
    cases hb : (ChangeDet.run (ups.map some) (ChangeDet.run pre {})).changed <;> simp
  rw [this, k2, h0]; simp

example : (ChangeDet.run [some true, none, some false, some true] {}).takeChanged.1 = true ∧ (ChangeDet.run [some true, none, some true] {}).takeChanged.1 = false := by
  decide

/-! ### C74 -/
namespace Rotary

/-- What happens to a source (e.g. written by an interrupt) and a target (read by the application). -/
inductive Op where
  | add (d : Int)      -- source.add_motion({0, d})
  | transfer           -- target.transfer_motion(source)
  | use                -- target.use_motion()
  deriving DecidableEq, Repr

/-- The state: source, target, motions used so far. -/
def stepR (st : Rotary × Rotary × List Int) : Op → R (Rotary × Rotary × List Int)
  | .add d => do let s ← addMotion st.1 ⟨0, d⟩; .ok (s, st.2.1, st.2.2)
  | .transfer => do let (t, s) ← transferMotion st.2.1 st.1; .ok (s, t, st.2.2)
  | .use => .ok (st.1, (useMotion st.2.1).2, st.2.2 ++ [(useMotion st.2.1).1])

def runR : List Op → Rotary × Rotary × List Int → R (Rotary × Rotary × List Int)
  | [], st => .ok st
  | o :: l, st => do let st ← stepR st o; runR l st

/-- The total motion added, and the total distance. -/
def added : List Op → Int
  | [] => 0
  | .add d :: l => d + added l
  | _ :: l => added l
def distance : List Op → Nat
  | [] => 0
  | .add d :: l => d.natAbs + distance l
  | _ :: l => distance l

/-- **C74**: as long as the distance turned stays below 2^31, no call overflows, and the motions used plus those pending in target and source
equal the motions added; the source's absolute position is the sum of all motions, the target's is that of all but those still pending in the source. -/
theorem C74_conserved (ops : List Op) (h : distance ops < 2147483648) :
    ∃ s t used, runR ops ({}, {}, []) = .ok (s, t, used) ∧ used.sum + t.motion + s.motion = added ops ∧ s.absPos = added ops ∧
      t.absPos + s.motion = added ops := by
  suffices key : ∀ (l : List Op) (s t : Rotary) (used : List Int) (D : Nat) (A : Int),
      used.sum + t.motion + s.motion = A → s.absPos = A → t.absPos + s.motion = A →
      (s.motion.natAbs + t.motion.natAbs ≤ D ∧ s.absPos.natAbs ≤ D ∧ s.motion.natAbs + t.absPos.natAbs ≤ D) → D + distance l < 2147483648 →
      ∃ s' t' used', runR l (s, t, used) = .ok (s', t', used') ∧ used'.sum + t'.motion + s'.motion = A + added l ∧ s'.absPos = A + added l ∧
        t'.absPos + s'.motion = A + added l by
    have := key ops {} {} [] 0 0 (by decide) rfl (by decide) (by decide) (by omega)
    simpa using this
  intro l
  induction l with
  | nil => intro s t used D A h1 h2 h3 _ _; exact ⟨s, t, used, rfl, by simp [added, h1], by simp [added, h2], by simp [added, h3]⟩
  | cons o l ih =>
    intro s t used D A h1 h2 h3 h4 h5
    cases o with
    | add d =>
      simp only [distance, added] at h5 ⊢
      have e : stepR (s, t, used) (.add d) = .ok (⟨s.absPos + d, s.motion + d⟩, t, used) := by
        simp only [stepR, addMotion, addI]
        rw [if_pos (by omega), R.bind_ok, if_pos (by omega)]; rfl
      obtain ⟨s', t', u', g1, g2, g3, g4⟩ := ih ⟨s.absPos + d, s.motion + d⟩ t used (D + d.natAbs) (A + d)
        (by simp only; omega) (by simp only; omega) (by simp only; omega) (by simp only; omega) (by omega)
      exact ⟨s', t', u', by rw [runR, e, R.bind_ok, g1], by omega, by omega, by omega⟩
    | transfer =>
      simp only [distance, added] at h5 ⊢
      have e : stepR (s, t, used) .transfer = .ok (⟨s.absPos, 0⟩, ⟨t.absPos + s.motion, t.motion + s.motion⟩, used) := by
        have a1 : addI t.motion s.motion = .ok (t.motion + s.motion) := by rw [addI, if_pos (by omega)]
        have a2 : addI t.absPos s.motion = .ok (t.absPos + s.motion) := by rw [addI, if_pos (by omega)]
        have a3 : transferMotion t s = .ok (⟨t.absPos + s.motion, t.motion + s.motion⟩, ⟨s.absPos, 0⟩) := by
          show (do let m ← addI t.motion s.motion; let a ← addI t.absPos s.motion; R.ok (Rotary.mk a m, Rotary.mk s.absPos 0)) = _
          rw [a1, R.bind_ok, a2, R.bind_ok]
        show (do let x ← transferMotion t s; R.ok (x.2, x.1, used)) = _
        rw [a3, R.bind_ok]
      obtain ⟨s', t', u', g1, g2, g3, g4⟩ := ih ⟨s.absPos, 0⟩ ⟨t.absPos + s.motion, t.motion + s.motion⟩ used D A
        (by simp only; omega) (by simp only; omega) (by simp only; omega) (by simp only; omega) (by omega)
      exact ⟨s', t', u', by rw [runR, e, R.bind_ok, g1], g2, g3, g4⟩
    | use =>
      simp only [distance, added] at h5 ⊢
      have e : stepR (s, t, used) .use = .ok (s, ⟨t.absPos, 0⟩, used ++ [t.motion]) := rfl
      obtain ⟨s', t', u', g1, g2, g3, g4⟩ := ih s ⟨t.absPos, 0⟩ (used ++ [t.motion]) D A
        (by simp only [List.sum_append, List.sum_cons, List.sum_nil]; omega) h2 (by simp only; omega) (by simp only; omega) (by omega)
      exact ⟨s', t', u', by rw [runR, e, R.bind_ok, g1], g2, g3, g4⟩

example : runR [.add 3, .add (-1), .transfer, .use, .add 4, .transfer, .transfer, .use] ({}, {}, []) = .ok (⟨6, 0⟩, ⟨6, 0⟩, [2, 4]) ∧
    distance [.add 3, .add (-1), .transfer, .use, .add 4] = 8 := by decide

end Rotary
