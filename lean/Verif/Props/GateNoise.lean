import Verif.Model.RatMath
import Verif.Spec.GateNoise
import Verif.Props.Noise
/-! # Property C238: noise on the input of the hysteresis gates -/

namespace GateNoise
open RatMath Schmitt.Spec

/-- A gate with two thresholds. -/
def two (lo hi : ℚ) (b : Bool) (x : ℚ) : Bool := decide ((if b then lo else hi) < x)

/-- The number for a Boolean. -/
def bit (b : Bool) : ℚ := if b then 1 else 0

/-- `gate` is the gate with thresholds `lo` and `hi`. -/
def Is (gate : ℚ → ℚ → ℚ) (lo hi : ℚ) : Prop := ∀ b x, gate (bit b) x = bit (two lo hi b x)

theorem bit_ne (a b : Bool) : bit a ≠ bit b ↔ a ≠ b := by cases a <;> cases b <;> simp [bit]

theorem gate_is (off on : ℚ) : Is (hysteresisGate off on) off ((off + on) / 2) := by
  intro b x
  unfold hysteresisGate two bit
  cases b
  · simp only [Bool.false_eq_true, if_false]
    by_cases h : (off + on) / 2 < x
    · rw [if_pos (by linarith), if_pos (by simpa using h)]
    · rw [if_neg (by linarith), if_neg (by simpa using h)]
  · simp only [if_true]
    by_cases h : off < x
    · rw [if_pos (by linarith), if_pos (by simpa using h)]
    · rw [if_neg (by linarith), if_neg (by simpa using h)]

theorem feedback_is (coef thresh : ℚ) : Is (hysteresisFeedback coef thresh) (thresh - coef) thresh := by
  intro b x
  unfold hysteresisFeedback two bit
  cases b
  · simp only [Bool.false_eq_true, if_false]
    by_cases h : thresh < x
    · rw [if_pos (by linarith), if_pos (by simpa using h)]
    · rw [if_neg (by linarith), if_neg (by simpa using h)]
  · simp only [if_true]
    by_cases h : thresh - coef < x
    · rw [if_pos (by linarith), if_pos (by simpa using h)]
    · rw [if_neg (by linarith), if_neg (by simpa using h)]

/-- The number of switches of a gate that starts at `b`. -/
theorem switches_cons {gate : ℚ → ℚ → ℚ} {lo hi : ℚ} (hg : Is gate lo hi) (b : Bool) (x : ℚ) (xs : List ℚ) :
    switches (bit b) (outputs gate (bit b) (x :: xs)) = (if two lo hi b x ≠ b then 1 else 0) + switches (bit (two lo hi b x)) (outputs gate (bit (two lo hi b x)) xs) := by
  simp only [outputs, switches, hg b x]
  by_cases h : two lo hi b x = b
  · rw [if_neg (by rw [not_not, h]), if_neg (by rw [not_not, h])]
  · rw [if_pos ((bit_ne _ _).2 h), if_pos h]

theorem two_false {lo hi x : ℚ} : two lo hi false x = true ↔ hi < x := by simp [two]
theorem two_true {lo hi x : ℚ} : two lo hi true x = true ↔ lo < x := by simp [two]

theorem cost {gate : ℚ → ℚ → ℚ} {lo hi : ℚ} (hgate : Is gate lo hi) (ε g : ℚ) (hg : g = hi - lo - 2 * ε) (hg0 : 0 ≤ g) : ∀ (us xs : List ℚ), Noisy ε us xs → ∀ (b : Bool) (u : ℚ),
    ((switches (bit b) (outputs gate (bit b) xs) : Nat) : ℚ) * g ≤ travel (u :: us) + if b then max 0 (hi - ε - u) else max 0 (u - (lo + ε)) := by
  intro us xs h
  induction h with
  | nil =>
    intro b u
    have : (0 : ℚ) ≤ if b then max 0 (hi - ε - u) else max 0 (u - (lo + ε)) := by split <;> exact le_max_left _ _
    simp [outputs, switches, travel, this]
  | @cons v x us xs hx _ ih =>
    intro b u
    rw [switches_cons hgate]
    rw [abs_le] at hx
    have a1 := le_abs_self (v - u)
    have a2 := neg_abs_le (v - u)
    have m1 := le_max_left (0 : ℚ) (hi - ε - u)
    have m2 := le_max_right (0 : ℚ) (hi - ε - u)
    have m3 := le_max_left (0 : ℚ) (u - (lo + ε))
    have m4 := le_max_right (0 : ℚ) (u - (lo + ε))
    show _ ≤ |v - u| + travel (v :: us) + _
    cases b with
    | false =>
      cases e : two lo hi false x with
      | true =>
        have hc := two_false.1 e
        have := ih true v
        have z : max 0 (hi - ε - v) = 0 := max_eq_left (by linarith)
        simp only [if_true, z] at this
        simp only [ne_eq, Bool.true_eq_false, not_false_eq_true, if_true, Bool.false_eq_true, if_false]
        push_cast
        linarith
      | false =>
        have := ih false v
        simp only [Bool.false_eq_true, if_false] at this
        have z : max 0 (v - (lo + ε)) ≤ max 0 (u - (lo + ε)) + |v - u| := max_le (by linarith [abs_nonneg (v - u)]) (by linarith)
        simp only [ne_eq, not_true_eq_false, if_false, Bool.false_eq_true]
        push_cast
        linarith
    | true =>
      cases e : two lo hi true x with
      | false =>
        have hc : ¬ lo < x := fun h => by rw [two_true.2 h] at e; exact absurd e (by decide)
        have := ih false v
        have z : max 0 (v - (lo + ε)) = 0 := max_eq_left (by linarith)
        simp only [Bool.false_eq_true, if_false, z] at this
        simp only [ne_eq, Bool.false_eq_true, not_false_eq_true, if_true]
        push_cast
        linarith
      | true =>
        have := ih true v
        simp only [if_true] at this
        have z : max 0 (hi - ε - v) ≤ max 0 (hi - ε - u) + |v - u| := max_le (by linarith [abs_nonneg (v - u)]) (by linarith)
        simp only [ne_eq, not_true_eq_false, if_false, if_true]
        push_cast
        linarith

/-- A gate that starts off: n switches take a way of at least n - 1 gaps, less the noise. -/
theorem total {gate : ℚ → ℚ → ℚ} {lo hi : ℚ} (hgate : Is gate lo hi) (ε : ℚ) (hε : 2 * ε ≤ hi - lo) : ∀ us xs : List ℚ, Noisy ε us xs →
    (((switches 0 (outputs gate 0 xs) : Nat) : ℚ) - 1) * (hi - lo - 2 * ε) ≤ travel us := by
  intro us xs hn
  induction hn with
  | nil => simp [outputs, switches, travel]; linarith
  | @cons v x us xs hx t ih =>
    have h0 := switches_cons hgate false x xs
    rw [show bit false = 0 from rfl] at h0
    rw [h0]
    cases e : two lo hi false x with
    | true =>
      have hc := two_false.1 e
      have := cost hgate ε _ rfl (by linarith) us xs t true v
      rw [abs_le] at hx
      have z : max 0 (hi - ε - v) = 0 := max_eq_left (by linarith)
      simp only [if_true, z] at this
      simp only [ne_eq, Bool.true_eq_false, not_false_eq_true, if_true]
      push_cast
      linarith
    | false =>
      rw [show bit false = 0 from rfl]
      simp only [ne_eq, not_true_eq_false, if_false]
      push_cast
      have := Schmitt.travel_tail v us
      linarith

/-- A rising signal. -/
theorem rising {gate : ℚ → ℚ → ℚ} {lo hi : ℚ} (hgate : Is gate lo hi) (ε : ℚ) (hε : 2 * ε ≤ hi - lo) : ∀ us xs : List ℚ, Noisy ε us xs → us.Pairwise (· ≤ ·) → switches 0 (outputs gate 0 xs) ≤ 1 := by
  have up : ∀ us xs : List ℚ, Noisy ε us xs → (∀ u ∈ us, hi - ε < u) → switches (bit true) (outputs gate (bit true) xs) = 0 := by
    intro us xs hn
    induction hn with
    | nil => intro _; rfl
    | @cons v x us xs hx t ih =>
      intro hu
      have hv := hu v (by simp)
      rw [abs_le] at hx
      have e : two lo hi true x = true := two_true.2 (by linarith)
      rw [switches_cons hgate, e, ih fun u h => hu u (by simp [h])]
      rfl
  intro us xs hn
  induction hn with
  | nil => intro _; exact Nat.zero_le _
  | @cons v x us xs hx t ih =>
    intro hp
    rw [List.pairwise_cons] at hp
    have h0 := switches_cons hgate false x xs
    rw [show bit false = 0 from rfl] at h0
    rw [h0]
    cases e : two lo hi false x with
    | true =>
      have hc := two_false.1 e
      rw [abs_le] at hx
      rw [up us xs t fun u hu => by have := hp.1 u hu; linarith]
      rfl
    | false =>
      rw [show bit false = 0 from rfl]
      simpa using ih hp.2

/-- More noise than half the gap. -/
theorem noisy {gate : ℚ → ℚ → ℚ} {lo hi : ℚ} (hgate : Is gate lo hi) (hlh : lo ≤ hi) (ε : ℚ) (hε : hi - lo < 2 * ε) (n : Nat) :
    ∃ us xs, Noisy ε us xs ∧ travel us = 0 ∧ switches 0 (outputs gate 0 xs) = 2 * n := by
  obtain ⟨u, hu⟩ : ∃ u, u = (lo + hi) / 2 := ⟨_, rfl⟩
  have step : ∀ n, ∃ us xs, Noisy ε us xs ∧ travel (u :: us) = 0 ∧ switches (bit false) (outputs gate (bit false) xs) = 2 * n := by
    intro n
    induction n with
    | zero => exact ⟨[], [], .nil, rfl, rfl⟩
    | succ n ih =>
      obtain ⟨us, xs, h1, h2, h3⟩ := ih
      have g1 : two lo hi false (u + ε) = true := two_false.2 (by rw [hu]; linarith)
      have g2 : two lo hi true (u - ε) = false := by
        rw [Bool.eq_false_iff, ne_eq, two_true, hu]; linarith
      refine ⟨u :: u :: us, (u + ε) :: (u - ε) :: xs, .cons ?_ (.cons ?_ h1), ?_, ?_⟩
      · rw [show u + ε - u = ε by ring, abs_of_nonneg (by linarith)]
      · rw [show u - ε - u = -ε by ring, abs_neg, abs_of_nonneg (by linarith)]
      · show |u - u| + (|u - u| + travel (u :: us)) = 0
        rw [h2]; simp
      · rw [switches_cons hgate, g1, switches_cons hgate, g2, h3]
        simp only [ne_eq, Bool.true_eq_false, Bool.false_eq_true, not_false_eq_true, if_true]
        omega
  obtain ⟨us, xs, h1, h2, h3⟩ := step n
  exact ⟨us, xs, h1, le_antisymm (by rw [← h2]; exact Schmitt.travel_tail u us) (Schmitt.travel_nonneg us), h3⟩

/-- **C238** (hysteresis_feedback): with noise of at most ε on a signal, n switches of the output take the signal a way of at least (n - 1) * (feedback_coef - 2 ε), and a rising signal switches it once at most. -/
theorem C238_feedback (coef thresh ε : ℚ) (hε : 2 * ε ≤ coef) (us xs : List ℚ) (hn : Noisy ε us xs) (n : Nat) (hlen : n = switches 0 (outputs (hysteresisFeedback coef thresh) 0 xs)) :
    ((n : ℚ) - 1) * (coef - 2 * ε) ≤ travel us ∧ (us.Pairwise (· ≤ ·) → n ≤ 1) := by
  have he : thresh - (thresh - coef) = coef := by ring
  have h1 := total (feedback_is coef thresh) ε (by rw [he]; exact hε) us xs hn
  rw [he, ← hlen] at h1
  exact ⟨h1, fun hp => by rw [hlen]; exact rising (feedback_is coef thresh) ε (by rw [he]; exact hε) us xs hn hp⟩

/-- **C238** (hysteresis_feedback): the noise must not exceed half the feedback: a constant signal with more noise can switch the output any number of times. -/
theorem C238_feedback_sharp (coef thresh ε : ℚ) (hc : 0 ≤ coef) (hε : coef < 2 * ε) (n : Nat) : ∃ us xs, Noisy ε us xs ∧ travel us = 0 ∧ switches 0 (outputs (hysteresisFeedback coef thresh) 0 xs) = 2 * n :=
  noisy (feedback_is coef thresh) (by linarith) ε (by linarith) n

/-- **C238** (hysteresis_gate, partial: half of the documented gap): with noise of at most a quarter of the distance of the two thresholds, n switches of the output take a way of at least n - 1 times half that distance, less the noise; a rising
signal switches the output once at most. -/
theorem C238_gate_partial (off on ε : ℚ) (hε : 2 * ε ≤ (on - off) / 2) (us xs : List ℚ) (hn : Noisy ε us xs) (n : Nat) (hlen : n = switches 0 (outputs (hysteresisGate off on) 0 xs)) :
    ((n : ℚ) - 1) * ((on - off) / 2 - 2 * ε) ≤ travel us ∧ (us.Pairwise (· ≤ ·) → n ≤ 1) := by
  have he : (off + on) / 2 - off = (on - off) / 2 := by ring
  have h1 := total (gate_is off on) ε (by rw [he]; exact hε) us xs hn
  rw [he, ← hlen] at h1
  exact ⟨h1, fun hp => by rw [hlen]; exact rising (gate_is off on) ε (by rw [he]; exact hε) us xs hn hp⟩

/-- **C238** (hysteresis_gate) violated: for all thresholds off < on, and noise above a quarter of their distance (the documented thresholds would keep out noise up to half of it), a constant signal can switch the output any number of times. -/
theorem C238_gate_violated (off on ε : ℚ) (h : off < on) (hε : (on - off) / 4 < ε) (n : Nat) : ∃ us xs, Noisy ε us xs ∧ travel us = 0 ∧ switches 0 (outputs (hysteresisGate off on) 0 xs) = 2 * n :=
  noisy (gate_is off on) (by linarith) ε (by linarith) n

example := C238_feedback (1 / 5) (3 / 5) (1 / 10) (by norm_num) [0, 1 / 2, 11 / 20, 3 / 5] [1 / 10, 2 / 5, 13 / 20, 1 / 2]
  (by refine .cons ?_ (.cons ?_ (.cons ?_ (.cons ?_ .nil))) <;> norm_num [abs_le]) 1 (by decide +kernel)
example := C238_gate_partial (1 / 5) (3 / 5) (1 / 20) (by norm_num) [0, 1, 0] [1 / 20, 1, 0] (by refine .cons ?_ (.cons ?_ (.cons ?_ .nil)) <;> norm_num [abs_le]) 2 (by decide +kernel)
example : ∃ us xs, Noisy (3 / 20) us xs ∧ travel us = 0 ∧ switches 0 (outputs (hysteresisGate (1 / 5) (3 / 5)) 0 xs) = 200 := C238_gate_violated (1 / 5) (3 / 5) (3 / 20) (by norm_num) (by norm_num) 100

end GateNoise
