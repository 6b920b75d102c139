import Verif.Props.Toggler
import Verif.Spec.Noise
import Mathlib.Tactic.Linarith
import Mathlib.Tactic.NormNum
import Mathlib.Tactic.Ring
import Mathlib.Tactic.Push
/-! # Property C227: noise on the input of a Schmitt trigger -/

namespace Schmitt
open Spec

variable (low high : ℚ)

/-- Number of events of one sample and those after it. -/
theorem events_cons (b : Bool) (v : ℚ) (l : List ℚ) :
    (events (trace less low high (clean b) (v :: l))).length =
      (if (!b && less high v) || (b && less v low) then 1 else 0) + (events (trace less low high (clean (if b then !less v low else less high v)) l)).length := by
  rw [trace_cons]
  cases b <;> cases h1 : less high v <;> cases h2 : less v low <;> simp [events] <;> omega

/-- In state `b`, with the signal last seen at `u`: each event costs a way of `g`, the first one perhaps less. -/
theorem cost (ε g : ℚ) (hg : g = high - low - 2 * ε) (hg0 : 0 ≤ g) : ∀ (us xs : List ℚ), Noisy ε us xs → ∀ (b : Bool) (u : ℚ),
    ((events (trace less low high (clean b) xs)).length : ℚ) * g ≤ travel (u :: us) + if b then max 0 (high - ε - u) else max 0 (u - (low + ε)) := by
  intro us xs h
  induction h with
  | nil =>
    intro b u
    have : (0 : ℚ) ≤ if b then max 0 (high - ε - u) else max 0 (u - (low + ε)) := by split <;> exact le_max_left _ _
    simp [trace, events, travel, this]
  | @cons v x us xs hx _ ih =>
    intro b u
    rw [events_cons]
    rw [abs_le] at hx
    have a1 := le_abs_self (v - u)
    have a2 := neg_abs_le (v - u)
    have m1 := le_max_left (0 : ℚ) (high - ε - u)
    have m2 := le_max_right (0 : ℚ) (high - ε - u)
    have m3 := le_max_left (0 : ℚ) (u - (low + ε))
    have m4 := le_max_right (0 : ℚ) (u - (low + ε))
    show _ ≤ |v - u| + travel (v :: us) + _
    cases b with
    | false =>
      simp only [Bool.not_false, Bool.true_and, Bool.false_and, Bool.or_false, Bool.false_eq_true, if_false]
      by_cases hc : high < x
      · have e : less high x = true := by simp [less, hc]
        have := ih true v
        simp only [e, if_true] at this ⊢
        have z : max 0 (high - ε - v) = 0 := max_eq_left (by linarith)
        rw [z] at this
        push_cast
        linarith
      · have e : less high x = false := by simp [less]; linarith
        have := ih false v
        simp only [e, if_false, Bool.false_eq_true] at this ⊢
        have z : max 0 (v - (low + ε)) ≤ max 0 (u - (low + ε)) + |v - u| := max_le (by linarith [abs_nonneg (v - u)]) (by linarith)
        push_cast
        linarith
    | true =>
      simp only [Bool.not_true, Bool.false_and, Bool.true_and, Bool.false_or, if_true]
      by_cases hc : x < low
      · have e : less x low = true := by simp [less, hc]
        have := ih false v
        simp only [e, if_true, Bool.not_true, Bool.false_eq_true, if_false] at this ⊢
        have z : max 0 (v - (low + ε)) = 0 := max_eq_left (by linarith)
        rw [z] at this
        push_cast
        linarith
      · have e : less x low = false := by simp [less]; linarith
        have := ih true v
        simp only [e, if_false, if_true, Bool.not_false, Bool.false_eq_true] at this ⊢
        have z : max 0 (high - ε - v) ≤ max 0 (high - ε - u) + |v - u| := max_le (by linarith [abs_nonneg (v - u)]) (by linarith)
        push_cast
        linarith

theorem travel_nonneg : ∀ us : List ℚ, 0 ≤ travel us
  | [] => le_refl _
  | [_] => le_refl _
  | u :: v :: l => by unfold travel; linarith [abs_nonneg (v - u), travel_nonneg (v :: l)]

theorem travel_tail (u : ℚ) (us : List ℚ) : travel us ≤ travel (u :: us) := by
  match us with
  | [] => exact le_refl _
  | v :: l => show _ ≤ |v - u| + travel (v :: l); linarith [abs_nonneg (v - u)]

/-- **C227**: with noise of at most ε on a signal, n events take the signal a way of at least (n - 1) * (high - low - 2 ε): between two events it must really cross the gap, less the noise on both sides. -/
theorem C227_events (ε : ℚ) (hε : 2 * ε ≤ high - low) (us xs : List ℚ) (hn : Noisy ε us xs) (n : Nat) (hlen : n = (events (trace less low high {} xs)).length) :
    ((n : ℚ) - 1) * (high - low - 2 * ε) ≤ travel us := by
  have key : ∀ us xs : List ℚ, Noisy ε us xs → (((events (trace less low high (clean false) xs)).length : ℚ) - 1) * (high - low - 2 * ε) ≤ travel us := by
    intro us xs hn
    induction hn with
    | nil => simp [trace, events, travel]; linarith
    | @cons v x us xs hx t ih =>
      rw [events_cons]
      simp only [Bool.not_false, Bool.true_and, Bool.false_and, Bool.or_false, Bool.false_eq_true, if_false]
      by_cases hc : high < x
      · have e : less high x = true := by simp [less, hc]
        have := cost low high ε _ rfl (by linarith) us xs t true v
        rw [abs_le] at hx
        have z : max 0 (high - ε - v) = 0 := max_eq_left (by linarith)
        simp only [e, if_true, z] at this ⊢
        push_cast
        linarith
      · have e : less high x = false := by simp [less]; linarith
        simp only [e, if_false, Bool.false_eq_true]
        push_cast
        have := travel_tail v us
        linarith
  rw [hlen]
  exact key us xs hn

/-- How often RisingSchmittTrigger says yes, from the events of a SchmittTrigger. -/
theorem risings : ∀ (xs : List ℚ) (b : Bool), 2 * (updates less low high b xs).count true ≤ (events (trace less low high (clean b) xs)).length + if b then 0 else 1 := by
  intro xs
  induction xs with
  | nil => intro b; simp [updates]
  | cons x xs ih =>
    intro b
    rw [events_cons]
    unfold updates
    rw [List.count_cons]
    cases b with
    | false =>
      cases h : less high x
      · have := ih false
        simp [update, h] at this ⊢; omega
      · have := ih true
        simp [update, h] at this ⊢; omega
    | true =>
      cases h : less x low
      · have := ih true
        simp [update, h] at this ⊢; omega
      · have := ih false
        simp [update, h] at this ⊢; omega

/-- **C227**: RisingSchmittTrigger: n triggers take the signal a way of at least 2 (n - 1) gaps, less the noise. -/
theorem C227_triggers (ε : ℚ) (hε : 2 * ε ≤ high - low) (us xs : List ℚ) (hn : Noisy ε us xs) (n : Nat) (hlen : n = (updates less low high false xs).count true) :
    2 * ((n : ℚ) - 1) * (high - low - 2 * ε) ≤ travel us := by
  have h1 := C227_events low high ε hε us xs hn _ rfl
  have h2 := risings low high xs false
  rw [← hlen] at h2
  have h3 : 2 * (n : ℚ) ≤ (events (trace less low high {} xs)).length + 1 := by exact_mod_cast h2
  have h4 : 0 ≤ high - low - 2 * ε := by linarith
  have := mul_le_mul_of_nonneg_right (show 2 * ((n : ℚ) - 1) ≤ (events (trace less low high {} xs)).length - 1 by linarith) h4
  linarith

/-- **C227**: a rising signal, however slow, with noise of at most half the gap gives one event at most (a rising one). -/
theorem C227_ramp (ε : ℚ) (hε : 2 * ε ≤ high - low) (us xs : List ℚ) (hn : Noisy ε us xs) (hup : us.Pairwise (· ≤ ·)) :
    events (trace less low high {} xs) = [] ∨ events (trace less low high {} xs) = [true] := by
  -- once up it stays up
  have up : ∀ us xs : List ℚ, Noisy ε us xs → (∀ u ∈ us, high - ε < u) → events (trace less low high (clean true) xs) = [] := by
    intro us xs hn
    induction hn with
    | nil => intro _; rfl
    | @cons v x us xs hx t ih =>
      intro hu
      have hv := hu v (by simp)
      rw [abs_le] at hx
      have e : less x low = false := by simp [less]; linarith
      rw [← List.length_eq_zero_iff, events_cons]
      have := ih (fun u h => hu u (by simp [h]))
      simp [e, this]
  have main : ∀ us xs : List ℚ, Noisy ε us xs → us.Pairwise (· ≤ ·) → events (trace less low high (clean false) xs) = [] ∨ events (trace less low high (clean false) xs) = [true] := by
    intro us xs hn
    induction hn with
    | nil => intro _; left; rfl
    | @cons v x us xs hx t ih =>
      intro hp
      rw [List.pairwise_cons] at hp
      rw [trace_cons]
      cases h : less high x
      · have := ih hp.2
        simp [events, h]
        exact this
      · have hx' : high < x := by simpa [less] using h
        rw [abs_le] at hx
        have := up us xs t (fun u hu => by have := hp.1 u hu; linarith)
        simp [events, h, this]
  exact main us xs hn hup

/-- **C227**: the noise must not exceed half the gap: a constant signal with more noise than that can give any number of events. -/
theorem C227_sharp (hlh : low ≤ high) (ε : ℚ) (hε : high - low < 2 * ε) (n : Nat) : ∃ us xs, Noisy ε us xs ∧ travel us = 0 ∧ (events (trace less low high {} xs)).length = 2 * n := by
  obtain ⟨u, hu⟩ : ∃ u, u = (low + high) / 2 := ⟨_, rfl⟩
  have step : ∀ n, ∃ us xs, Noisy ε us xs ∧ travel (u :: us) = 0 ∧ (events (trace less low high (clean false) xs)).length = 2 * n := by
    intro n
    induction n with
    | zero => exact ⟨[], [], .nil, rfl, rfl⟩
    | succ n ih =>
      obtain ⟨us, xs, h1, h2, h3⟩ := ih
      have g1 : less high (u + ε) = true := by simp [less, hu]; linarith
      have g2 : less (u - ε) low = true := by simp [less, hu]; linarith
      refine ⟨u :: u :: us, (u + ε) :: (u - ε) :: xs, .cons ?_ (.cons ?_ h1), ?_, ?_⟩
      · rw [show u + ε - u = ε by ring, abs_of_nonneg (by linarith)]
      · rw [show u - ε - u = -ε by ring, abs_neg, abs_of_nonneg (by linarith)]
      · show |u - u| + (|u - u| + travel (u :: us)) = 0
        rw [h2]; simp
      · rw [events_cons, g1]
        simp only [Bool.not_false, Bool.true_and, Bool.true_or, if_true, Bool.false_eq_true, if_false]
        rw [events_cons, g2]
        simp only [Bool.not_true, Bool.true_and, Bool.false_and, Bool.or_true, if_true]
        rw [h3]; omega
  obtain ⟨us, xs, h1, h2, h3⟩ := step n
  exact ⟨us, xs, h1, le_antisymm (by rw [← h2]; exact travel_tail u us) (travel_nonneg us), h3⟩

example := C227_ramp (2 / 5) (3 / 5) (1 / 10) (by norm_num) [0, 1 / 2, 11 / 20, 3 / 5] [1 / 10, 2 / 5, 13 / 20, 1 / 2]
  (by refine .cons ?_ (.cons ?_ (.cons ?_ (.cons ?_ .nil))) <;> norm_num [abs_le]) (by decide +kernel)
example := C227_events (2 / 5) (3 / 5) (1 / 20) (by norm_num) [0, 1, 0] [1 / 20, 1, 0] (by refine .cons ?_ (.cons ?_ (.cons ?_ .nil)) <;> norm_num [abs_le]) 2 (by decide +kernel)

end Schmitt
