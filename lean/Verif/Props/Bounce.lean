import Verif.Spec.Bounce
import Verif.Props.Toggler
/-! # C219: a bouncing contact is reported once per stroke -/

namespace Debouncer.Bounce
open Spec

/-- The last samples of a history. -/
def Tail (hist : List Bool) (m : Nat) (v : Bool) : Prop := ∀ i, i < m → sampleAgo hist i = v

theorem cfg_mask {n : Nat} {c : DebounceCfg} (h : firstAfter n c = true) : ∀ i, i < 32 → c.stateMask.getLsbD i = decide (i < n) := by
  simp only [firstAfter, Bool.and_eq_true, List.all_eq_true, List.mem_range, beq_iff_eq] at h
  exact fun i hi => h.1 i hi

theorem cfg_pat {n : Nat} {c : DebounceCfg} (h : firstAfter n c = true) :
    ∀ i, i < n → c.risingPattern.getLsbD i = decide (i = 0) ∧ c.fallingPattern.getLsbD i = decide (i ≠ 0) := by
  simp only [firstAfter, Bool.and_eq_true, List.all_eq_true, List.mem_range, beq_iff_eq] at h
  exact fun i hi => h.2 i hi

theorem matches_first (n : Nat) (hn : 2 ≤ n) (pat : BitVec 32) (v : Bool) (hp : ∀ i, i < n → pat.getLsbD i = (decide (i = 0) == v)) (hist : List Bool)
    (b : Bool) : Matches n pat (hist ++ [b]) ↔ b = v ∧ Tail hist (n - 1) (!v) := by
  constructor
  · intro h
    refine ⟨?_, ?_⟩
    · have := h 0 (by omega)
      rw [sampleAgo_zero, hp 0 (by omega)] at this
      rw [this]; cases v <;> rfl
    · intro i hi
      have := h (i + 1) (by omega)
      rw [sampleAgo_succ, hp (i + 1) (by omega)] at this
      rw [this]; cases v <;> simp
  · rintro ⟨rfl, h⟩ i hi
    cases i with
    | zero => rw [sampleAgo_zero, hp 0 hi]; cases b <;> rfl
    | succ i => rw [sampleAgo_succ, hp (i + 1) hi, h i (by omega)]; cases b <;> simp

/-- What is known of a debouncer asked after every sample: the register holds the last samples, no event is pending. -/
def Good (n : Nat) (d : Debouncer) (hist : List Bool) : Prop :=
  (∀ i, i < 32 → d.state.getLsbD i = (decide (i < n) && sampleAgo hist i)) ∧ d.t.rising = false ∧ d.t.falling = false

/-- One sample: an event if it is the first at its level after `n - 1` at the other, none otherwise. -/
theorem one (n : Nat) (hn : 2 ≤ n) (hn2 : n ≤ 32) (c : DebounceCfg) (hc : firstAfter n c = true) (d : Debouncer) (hist : List Bool) (b : Bool)
    (l : List Bool) (h : Good n d hist) :
    (Tail hist (n - 1) (!b) → ∃ d', Good n d' (hist ++ [b]) ∧ d'.t.isHigh = b ∧ answers c d (b :: l) = (b, !b, b) :: answers c d' l) ∧
    (¬ Tail hist (n - 1) (!b) → ∃ d', Good n d' (hist ++ [b]) ∧ d'.t.isHigh = told c.debounceRawState d.t.isHigh b ∧
      answers c d (b :: l) = (false, false, told c.debounceRawState d.t.isHigh b) :: answers c d' l) := by
  have hm := cfg_mask hc
  have hp := cfg_pat hc
  obtain ⟨hs, hr, hf⟩ := h
  have sb := shift_bit d.state c.stateMask b n hist hm hs
  have k1 := state_eq_iff _ c.risingPattern c.stateMask n hn2 (hist ++ [b]) hm sb
  have k2 := state_eq_iff _ c.fallingPattern c.stateMask n hn2 (hist ++ [b]) hm sb
  rw [matches_first n hn c.risingPattern true (fun i hi => by rw [(hp i hi).1]; simp) hist b] at k1
  rw [matches_first n hn c.fallingPattern false (fun i hi => by rw [(hp i hi).2]; simp) hist b] at k2
  obtain ⟨⟨hi, ri, fa⟩, st⟩ := d
  simp only at hs hr hf sb k1 k2
  subst hr hf
  constructor
  · intro ht
    cases b
    · have n1 : ¬ ((st <<< 1 ||| BitVec.ofNat 32 false.toNat) &&& c.stateMask = c.risingPattern &&& c.stateMask) := fun e => by simpa using (k1.mp e).1
      refine ⟨⟨⟨false, false, false⟩, _⟩, ⟨sb, rfl, rfl⟩, rfl, ?_⟩
      simp only [answers, registerState]
      rw [if_neg n1, if_pos (k2.mpr ⟨rfl, ht⟩)]
      rfl
    · refine ⟨⟨⟨true, false, false⟩, _⟩, ⟨sb, rfl, rfl⟩, rfl, ?_⟩
      simp only [answers, registerState]
      rw [if_pos (k1.mpr ⟨rfl, ht⟩)]
      rfl
  · intro ht
    have n1 : ¬ ((st <<< 1 ||| BitVec.ofNat 32 b.toNat) &&& c.stateMask = c.risingPattern &&& c.stateMask) := fun e => by
      obtain ⟨rfl, q⟩ := k1.mp e; exact ht q
    have n2 : ¬ ((st <<< 1 ||| BitVec.ofNat 32 b.toNat) &&& c.stateMask = c.fallingPattern &&& c.stateMask) := fun e => by
      obtain ⟨rfl, q⟩ := k2.mp e; exact ht q
    refine ⟨⟨⟨told c.debounceRawState hi b, false, false⟩, _⟩, ⟨sb, rfl, rfl⟩, rfl, ?_⟩
    simp only [answers, registerState]
    rw [if_neg n1, if_neg n2]
    cases hr : c.debounceRawState <;> cases b <;> rfl

/-- A level kept once it has been seen lately: no event, whatever the number of samples. -/
theorem hold_run (n : Nat) (hn : 2 ≤ n) (hn2 : n ≤ 32) (c : DebounceCfg) (hc : firstAfter n c = true) (up : Bool) (m : Nat) (l : List Bool) :
    ∀ (d : Debouncer) (hist : List Bool) (k : Nat), Good n d hist → (c.debounceRawState = true → d.t.isHigh = up) → k + 2 ≤ n → sampleAgo hist k = up →
      ∀ j, Tail hist j up →
      ∃ d', Good n d' (hist ++ List.replicate m up) ∧ (c.debounceRawState = true → d'.t.isHigh = up) ∧ Tail (hist ++ List.replicate m up) (j + m) up ∧
        answers c d (List.replicate m up ++ l) = List.replicate m (false, false, up) ++ answers c d' l := by
  induction m with
  | zero => intro d hist k g hh _ _ j hj; exact ⟨d, by simpa using g, hh, by simpa using hj, rfl⟩
  | succ m ih =>
    intro d hist k g hh hk hs j hj
    have nt : ¬ Tail hist (n - 1) (!up) := fun h => by
      have := h k (by omega); rw [hs] at this; cases up <;> simp at this
    obtain ⟨d', g', h', e⟩ := (one n hn hn2 c hc d hist up (List.replicate m up ++ l) g).2 nt
    have hu : told c.debounceRawState d.t.isHigh up = up := by
      unfold told; split
      · rename_i q; exact hh q
      · rfl
    have tj : Tail (hist ++ [up]) (j + 1) up := by
      intro i hi
      cases i with
      | zero => exact sampleAgo_zero hist up
      | succ i => rw [sampleAgo_succ]; exact hj i (by omega)
    obtain ⟨d2, g2, h2, t2, e2⟩ := ih d' (hist ++ [up]) 0 g' (fun _ => by rw [h', hu]) (by omega) (sampleAgo_zero hist up) (j + 1) tj
    refine ⟨d2, by simpa [List.replicate_succ] using g2, h2, ?_, ?_⟩
    · have : j + 1 + m = j + (m + 1) := by omega
      rw [this] at t2
      simpa [List.replicate_succ] using t2
    · rw [List.replicate_succ, List.cons_append, e, e2, hu, List.replicate_succ]; rfl

/-- Chatter soon after an edge: no event. -/
theorem chatter_run (n : Nat) (hn : 2 ≤ n) (hn2 : n ≤ 32) (c : DebounceCfg) (hc : firstAfter n c = true) (up : Bool) (l : List Bool) (ch : List Bool) :
    ∀ (d : Debouncer) (hist : List Bool) (k : Nat), Good n d hist → (c.debounceRawState = true → d.t.isHigh = up) → k + ch.length + 2 ≤ n →
      sampleAgo hist k = up → (∀ i, k < i → i < n → sampleAgo hist i = !up) →
      ∃ d', Good n d' (hist ++ ch) ∧ (c.debounceRawState = true → d'.t.isHigh = up) ∧ sampleAgo (hist ++ ch) (k + ch.length) = up ∧
        answers c d (ch ++ l) = (ch.map fun b => (false, false, told c.debounceRawState up b)) ++ answers c d' l := by
  induction ch with
  | nil => intro d hist k g hh _ hs _; exact ⟨d, by simpa using g, hh, by simpa using hs, rfl⟩
  | cons b ch ih =>
    intro d hist k g hh hk hs ho
    rw [List.length_cons] at hk
    have nt : ¬ Tail hist (n - 1) (!b) := by
      intro h
      by_cases hb : b = up
      · have := h k (by omega); rw [hs, hb] at this; cases up <;> simp at this
      · have h1 := h (n - 2) (by omega)
        rw [ho (n - 2) (by omega) (by omega)] at h1
        cases b <;> cases up <;> simp_all
    obtain ⟨d', g', h', e⟩ := (one n hn hn2 c hc d hist b (ch ++ l) g).2 nt
    have hu : told c.debounceRawState d.t.isHigh b = told c.debounceRawState up b := by
      unfold told; split
      · rename_i q; exact hh q
      · rfl
    obtain ⟨d2, g2, h2, s2, e2⟩ := ih d' (hist ++ [b]) (k + 1) g' (fun q => by rw [h', hu]; unfold told; rw [if_pos q]) (by omega)
      (by rw [sampleAgo_succ]; exact hs)
      (by
        intro i h1 h2
        cases i with
        | zero => omega
        | succ i => rw [sampleAgo_succ]; exact ho i (by omega) (by omega))
    refine ⟨d2, by simpa using g2, h2, ?_, ?_⟩
    · have : k + 1 + ch.length = k + (b :: ch).length := by rw [List.length_cons]; omega
      rw [this] at s2
      simpa using s2
    · rw [List.cons_append, e, e2, hu]; rfl

theorem strokes_run (n : Nat) (hn : 2 ≤ n) (hn2 : n ≤ 32) (c : DebounceCfg) (hc : firstAfter n c = true) (l : List Stroke) :
    ∀ (up : Bool) (d : Debouncer) (hist : List Bool), Good n d hist → Tail hist (n - 1) (!up) → settles n l = true →
      answers c d (signal up l) = expected c.debounceRawState up l := by
  induction l with
  | nil => intro up d hist _ _ _; rfl
  | cons s l ih =>
    intro up d hist g ht hl
    simp only [settles, List.all_cons, Bool.and_eq_true, decide_eq_true_eq] at hl
    obtain ⟨⟨hl1, hl2⟩, hl3⟩ := hl
    rw [signal]
    obtain ⟨d1, g1, h1, e1⟩ := (one n hn hn2 c hc d hist up (s.chatter ++ (List.replicate s.hold up ++ signal (!up) l)) g).1 ht
    obtain ⟨d2, g2, h2, s2, e2⟩ := chatter_run n hn hn2 c hc up (List.replicate s.hold up ++ signal (!up) l) s.chatter d1 (hist ++ [up]) 0 g1
      (fun _ => h1) (by omega) (sampleAgo_zero hist up)
      (by
        intro i hi1 hi2
        cases i with
        | zero => omega
        | succ i => rw [sampleAgo_succ]; exact ht i (by omega))
    rw [Nat.zero_add] at s2
    obtain ⟨d3, g3, h3, t3, e3⟩ := hold_run n hn hn2 c hc up s.hold (signal (!up) l) d2 (hist ++ [up] ++ s.chatter) s.chatter.length g2 h2 (by omega) s2 0
      (by intro i hi; omega)
    have e4 := ih (!up) d3 _ g3 (by intro i hi; rw [Bool.not_not]; exact t3 i (by omega)) (by unfold settles; exact hl3)
    rw [e1, e2, e3, e4]; rfl

/-- **C219**: a contact that is idle for any time and then makes strokes, each chattering for at most `n - 2` samples after its first and
then holding for at least `n - 1`: the press or release is reported at the first sample of its stroke and never again, and `is_high` tells
the debounced level throughout (DebounceRawState) or the raw sample (not DebounceRawState). -/
theorem C219_once (n : Nat) (hn : 2 ≤ n) (hn2 : n ≤ 32) (c : DebounceCfg) (hc : firstAfter n c = true) (idle : Nat) (l : List Stroke)
    (h : settles n l = true) :
    answers c {} (List.replicate idle false ++ signal true l) = List.replicate idle (false, false, false) ++ expected c.debounceRawState true l := by
  obtain ⟨m, rfl⟩ : ∃ m, n = m + 2 := ⟨n - 2, by omega⟩
  have g0 : Good (m + 2) {} [] := ⟨by intro i _; simp [sampleAgo], rfl, rfl⟩
  have all0 : ∀ j, Tail [] j false := by intro j i _; simp [sampleAgo]
  obtain ⟨d, g, _, t, e⟩ := hold_run (m + 2) hn hn2 c hc false idle (signal true l) {} [] 0 g0 (fun _ => rfl) (by omega) (all0 1 0 (by omega))
    (m + 2) (all0 _)
  rw [e, strokes_run (m + 2) hn hn2 c hc l true d _ g (fun i hi => t i (by omega)) h]

theorem count_expected (raw : Bool) (l : List Stroke) : ∀ up, presses (expected raw up l) = (if up then (l.length + 1) / 2 else l.length / 2) ∧
    releases (expected raw up l) = (if up then l.length / 2 else (l.length + 1) / 2) := by
  induction l with
  | nil => intro up; cases up <;> exact ⟨rfl, rfl⟩
  | cons s l ih =>
    intro up
    have f1 : ∀ ch : List Bool, (ch.map fun b => (false, false, told raw up b)).filter (fun a => a.1) = [] := by
      intro ch; simp [List.filter_eq_nil_iff]
    have f2 : ∀ ch : List Bool, (ch.map fun b => (false, false, told raw up b)).filter (fun a => a.2.1) = [] := by
      intro ch; simp [List.filter_eq_nil_iff]
    have ih := ih (!up)
    simp only [presses, releases] at ih ⊢
    simp only [expected, List.filter_cons, List.filter_append, f1, f2, List.filter_replicate]
    cases up
    · simp only [Bool.not_false, if_true, Bool.false_eq_true, if_false, List.nil_append, List.length_cons] at ih ⊢
      rw [ih.1, ih.2]; omega
    · simp only [Bool.not_true, if_true, Bool.false_eq_true, if_false, List.nil_append, List.length_cons] at ih ⊢
      rw [ih.1, ih.2]; omega

/-- **C219**, counted: as many presses and releases are told as strokes were made. -/
theorem C219_count (n : Nat) (hn : 2 ≤ n) (hn2 : n ≤ 32) (c : DebounceCfg) (hc : firstAfter n c = true) (idle : Nat) (l : List Stroke)
    (h : settles n l = true) :
    presses (answers c {} (List.replicate idle false ++ signal true l)) = (l.length + 1) / 2 ∧
    releases (answers c {} (List.replicate idle false ++ signal true l)) = l.length / 2 := by
  rw [C219_once n hn hn2 c hc idle l h]
  have := count_expected c.debounceRawState l true
  simpa [presses, releases, List.filter_replicate, List.filter_append] using this

/-- **C219** for DebouncerCounter: it answers the same, whatever is read. -/
theorem C219_counter (c : DebounceCfg) (l : List Bool) : ∀ (d : DebouncerCounter), DebouncerCounter.answers c d l = answers c ⟨d.t, d.state⟩ l := by
  induction l with
  | nil => intro d; rfl
  | cons b l ih =>
    intro d
    obtain ⟨t, ctr, st⟩ := d
    simp only [DebouncerCounter.answers, answers, ih, DebouncerCounter.registerState, registerState]
    split
    · rfl
    · split
      · rfl
      · cases c.debounceRawState <;> rfl

/-- the default: twelve samples -/
theorem C219_default (raw : Bool) : firstAfter 12 { debounceRawState := raw } = true := by cases raw <;> decide

example : settles 12 [⟨[false, true, false, false, true], 11⟩, ⟨[true, false, true], 20⟩, ⟨[], 11⟩] = true := by decide
example : firstAfter 8 ⟨0x01, 0xFE, 0xFF, true⟩ = true := by decide
example : presses (answers {} {} (signal true [⟨[false, true, false, false, true], 11⟩, ⟨[true, false, true], 20⟩, ⟨[], 11⟩])) = 2 := by decide

/-- **C219**, both limits are sharp for the default: one more sample of chatter and a release is told that did not happen; a press held two
samples less and its release is never told, so that the next press is told twice in a row. -/
theorem C219_limits_sharp :
    (∃ s : Stroke, s.chatter.length = 11 ∧ s.hold = 100 ∧ releases (answers {} {} (signal true [s])) = 1) ∧
    (∃ s : Stroke, s.chatter = [] ∧ s.hold = 9 ∧ presses (answers {} {} (signal true [s, ⟨[], 11⟩, ⟨[], 11⟩])) = 2 ∧
      releases (answers {} {} (signal true [s, ⟨[], 11⟩, ⟨[], 11⟩])) = 0) :=
  ⟨⟨⟨[true, true, true, true, true, true, true, true, true, true, false], 100⟩, rfl, rfl, by decide +kernel⟩,
    ⟨⟨[], 9⟩, rfl, rfl, by decide +kernel, by decide +kernel⟩⟩

end Debouncer.Bounce
