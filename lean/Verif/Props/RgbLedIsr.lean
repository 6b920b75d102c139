import Verif.Spec.RgbLedIsr
/-! # Property C210: an RGB LED animated by an interrupt -/

namespace RgbLed
open Oscs Spec

/-- The assignments one after the other are the call. -/
theorem C210_calls (rate : Nat) (l l' : RgbLed) (c : Color) (ms : ℚ) :
    (flashOnceMs rate l c ms = .ok l' → ∃ f, l' = (flashAsgs c f).foldl (assign rate) l ∧ Color.trunc W (1000 / ms) = .ok f) ∧
    (fadeOnceMs rate l c ms = .ok l' → ∃ f, l' = (fadeAsgs c f).foldl (assign rate) l ∧ Color.trunc W (1000 / ms) = .ok f) := by
  have key : ∀ l', flashOnceMs rate l c ms = .ok l' → ∃ f, l' = (flashAsgs c f).foldl (assign rate) l ∧ Color.trunc W (1000 / ms) = .ok f := by
    intro l' h
    unfold flashOnceMs at h
    split at h
    · cases h
    · cases ht : Color.trunc W (1000 / ms) with
      | ub => rw [ht, R.bind_ub] at h; cases h
      | ok f =>
        rw [ht, R.bind_ok] at h
        cases h
        exact ⟨f, rfl, rfl⟩
  refine ⟨key l', fun h => ?_⟩
  unfold fadeOnceMs at h
  cases hf : flashOnceMs rate l c ms with
  | ub => rw [hf, R.bind_ub] at h; cases h
  | ok l1 =>
    rw [hf, R.bind_ok] at h
    cases h
    obtain ⟨f, e, e2⟩ := key l1 hf
    exact ⟨f, by rw [e]; rfl, e2⟩

theorem down_update (d : Down) : d.update = ⟨d.inc, left d.phase d.inc 1⟩ := by
  obtain ⟨inc, ph⟩ := d
  unfold Down.update left
  simp only
  by_cases h : inc = 0
  · simp [h]
  · simp only [h, if_false, Nat.one_ne_zero, Nat.one_mul]
    split
    · rfl
    · rw [show ph - inc = 0 from by omega]

theorem left_left (p inc a b : Nat) : left (left p inc a) inc b = left p inc (a + b) := by
  unfold left
  by_cases ha : a = 0
  · simp [ha]
  · by_cases hb : b = 0
    · simp [ha, hb]
    · by_cases h : inc = 0
      · simp [ha, hb, h]
      · simp only [ha, hb, h, if_false, Nat.add_eq_zero_iff, false_and, Nat.add_mul]
        omega

theorem run_eq (n : Nat) : ∀ l : RgbLed, (run n l).1 = { l with fader := (run n l).1.fader, flasher := ⟨l.flasher.inc, left l.flasher.phase l.flasher.inc n⟩ } := by
  induction n with
  | zero => intro l; rfl
  | succ n ih =>
    intro l
    have e : (run (n + 1) l).1 = (run n l.updateOscillators).1 := rfl
    rw [e, ih l.updateOscillators]
    simp only [updateOscillators, down_update, left_left]
    rw [Nat.add_comm 1 n]

theorem run_add (a b : Nat) : ∀ l : RgbLed, run (a + b) l = ((run b (run a l).1).1, (run a l).2 ++ (run b (run a l).1).2) := by
  induction a with
  | zero => intro l; rw [Nat.zero_add]; rfl
  | succ a ih =>
    intro l
    rw [show a + 1 + b = (a + b) + 1 from by omega]
    show (((run (a + b) l.updateOscillators).1, l.updateAnimation.2 :: (run (a + b) l.updateOscillators).2)) = _
    rw [ih l.updateOscillators]
    rfl

theorem run_fader (n : Nat) : ∀ l l' : RgbLed, l.fader = l'.fader → (run n l).1.fader = (run n l').1.fader := by
  induction n with
  | zero => intro l l' h; exact h
  | succ n ih =>
    intro l l' h
    exact ih l.updateOscillators l'.updateOscillators (by simp only [updateOscillators, h])

/-- **C210 (partial).** Interrupts that come before the first assignment or after the last: all is as if the call could not be interrupted. Missing: interrupts in between (`C210_state_exact`, `C210_lost_violated`, `C210_glitch_violated`). -/
theorem C210_outside_partial (rate n m : Nat) (asgs : List Asg) (l : RgbLed) :
    Atomic rate asgs (fun l => asgs.foldl (assign rate) l) l (n :: (List.replicate (asgs.length - 1) 0 ++ [if asgs = [] then 0 else m])) := by
  have rest : ∀ (as : List Asg) (l : RgbLed), interrupted rate as (List.replicate as.length 0 ++ [m]) l = run m (as.foldl (assign rate) l) := by
    intro as
    induction as with
    | nil => intro l; rfl
    | cons a as ih =>
      intro l
      show ((interrupted rate as (List.replicate as.length 0 ++ [m]) (assign rate l a)).1, [] ++ (interrupted rate as (List.replicate as.length 0 ++ [m]) (assign rate l a)).2) = _
      rw [ih]
      rfl
  cases asgs with
  | nil => exact ⟨n, 0, by simp [interrupted, atomic, run]⟩
  | cons a as =>
    refine ⟨n, m, ?_⟩
    simp only [List.length_cons, Nat.add_sub_cancel, reduceCtorEq, if_false]
    show ((interrupted rate as (List.replicate as.length 0 ++ [m]) (assign rate (run n l).1 a)).1, (run n l).2 ++ (interrupted rate as (List.replicate as.length 0 ++ [m]) (assign rate (run n l).1 a)).2) = _
    rw [rest]
    rfl

/-- **C210, exactly.** What the object holds after `flash_once_ms` with any number of interrupts at each place: the flash has run on for `k` frames at the speed of the flash before it, `k` being the interrupts between restarting the flasher and setting its speed. -/
theorem C210_state_exact (rate f n0 n1 k n3 m : Nat) (c : Color) (l : RgbLed) :
    (interrupted rate (flashAsgs c f) [n0, n1, k, n3, m] l).1 =
      { l with fader := (run (n0 + n1 + k + n3 + m) l).1.fader, flashCol := c, smooth := false,
               flasher := ⟨f * freqUnits rate % W, left (left 0xFFFFFFFF l.flasher.inc k) (f * freqUnits rate % W) (n3 + m)⟩ } := by
  have e : (interrupted rate (flashAsgs c f) [n0, n1, k, n3, m] l).1 =
      (run m (assign rate (run n3 (assign rate (run k (assign rate (run n1 (assign rate (run n0 l).1 (.color c))).1 .phase)).1 (.freq f))).1 (.smooth false))).1 := rfl
  have hf : (interrupted rate (flashAsgs c f) [n0, n1, k, n3, m] l).1.fader = (run (n0 + n1 + k + n3 + m) l).1.fader := by
    rw [e]
    simp only [run_add]
    refine run_fader _ _ _ ?_
    refine run_fader _ _ _ ?_
    refine run_fader _ _ _ ?_
    refine run_fader _ _ _ rfl
  rw [← hf, e]
  rw [run_eq m, run_eq n3, run_eq k, run_eq n1, run_eq n0]
  simp only [assign, Down.reset, Down.setFreq, left_left]

example : (interrupted 1000 (flashAsgs ⟨255, 0, 0⟩ 1) [1, 0, 2, 0, 1] { init with flasher := ⟨1000, 5⟩ }).1.flasher = ⟨4294967, 4294967295 - 2000 - 4294967⟩ := by decide +kernel

/-- **C210, exactly.** The same for `fade_once_ms`. -/
theorem C210_fade_exact (rate f n0 n1 k n3 n4 m : Nat) (c : Color) (l : RgbLed) :
    (interrupted rate (fadeAsgs c f) [n0, n1, k, n3, n4, m] l).1 =
      { l with fader := (run (n0 + n1 + k + n3 + n4 + m) l).1.fader, flashCol := c, smooth := true,
               flasher := ⟨f * freqUnits rate % W, left (left 0xFFFFFFFF l.flasher.inc k) (f * freqUnits rate % W) (n3 + n4 + m)⟩ } := by
  have e : (interrupted rate (fadeAsgs c f) [n0, n1, k, n3, n4, m] l).1 =
      (run m (assign rate (interrupted rate (flashAsgs c f) [n0, n1, k, n3, n4] l).1 (.smooth true))).1 := rfl
  have hf : (interrupted rate (fadeAsgs c f) [n0, n1, k, n3, n4, m] l).1.fader = (run (n0 + n1 + k + n3 + n4 + m) l).1.fader := by
    rw [e, C210_state_exact, run_add (n0 + n1 + k + n3 + n4) m]
    exact run_fader _ _ _ rfl
  rw [← hf, e, C210_state_exact, run_eq m]
  simp only [assign, left_left]

example : (interrupted 1000 (fadeAsgs ⟨255, 0, 0⟩ 1) [1, 0, 2, 0, 1, 1] { init with flasher := ⟨1000, 5⟩ }).1.flasher = ⟨4294967, 4294967295 - 2000 - 2 * 4294967⟩ := by decide +kernel

/-- **C210 (the property is false here).** The flash is lost altogether if the interrupt comes between restarting the flasher and setting its speed and the speed until then was the initial one (or 0, or any for which the frames shown there are enough to end a flash): no later frame shows it. -/
theorem C210_lost_violated (rate f n0 n1 k n3 m : Nat) (c : Color) (l : RgbLed) (hk : 0 < k) (hi : l.flasher.inc = 0 ∨ 0xFFFFFFFF ≤ k * l.flasher.inc) :
    (interrupted rate (flashAsgs c f) [n0, n1, k, n3, m] l).1.flasher.val = 0 := by
  rw [C210_state_exact]
  show left (left 0xFFFFFFFF l.flasher.inc k) _ _ = 0
  have : left 0xFFFFFFFF l.flasher.inc k = 0 := by
    unfold left
    rw [if_neg (by omega)]
    split
    · rfl
    · omega
  rw [this]
  unfold left
  split
  · rfl
  · split
    · rfl
    · omega

example : init.flasher.inc = 0xFFFFFFFF ∧ (interrupted 1000 (flashAsgs ⟨255, 255, 255⟩ 1) [0, 0, 1, 0, 0] init).1.flasher.val = 0 := by decide +kernel

/-- **C210**: without an interrupt at that place, the flash is there at least until the first frame has been shown, whenever its speed is below the highest. -/
theorem C210_shown (rate f n0 n1 : Nat) (c : Color) (l : RgbLed) (hf : f * freqUnits rate % W < 0xFFFFFFFF) (h0 : 0 < f * freqUnits rate % W) :
    (interrupted rate (flashAsgs c f) [n0, n1, 0, 0, 1] l).1.flasher.val ≠ 0 := by
  rw [C210_state_exact]
  show left (left 0xFFFFFFFF l.flasher.inc 0) _ 1 ≠ 0
  unfold left
  simp only [if_true, Nat.one_ne_zero, if_false, Nat.one_mul]
  split
  · omega
  · omega

example : 0 < 1 * freqUnits 1000 % W ∧ 1 * freqUnits 1000 % W < 0xFFFFFFFF := by decide +kernel

/-- **C210 (the property is false here).** During `fade_once_ms` an interrupt after `flash_once_ms` has been called shows the full colour, neither the frame before the call nor a faded one: white fades over black. -/
theorem C210_glitch_violated : ¬ Atomic 1000 (fadeAsgs ⟨255, 255, 255⟩ 1) (fun l => (fadeAsgs ⟨255, 255, 255⟩ 1).foldl (assign 1000) l) init [0, 0, 0, 0, 1, 0] := by
  rintro ⟨n, m, h⟩
  have hlen : ∀ (n : Nat) (l : RgbLed), (run n l).2.length = n := by
    intro n
    induction n with
    | zero => intro l; rfl
    | succ n ih => intro l; show ((run n l.updateOscillators).2.length + 1) = _; rw [ih]
  have h2 := congrArg Prod.snd h
  have hn : n + m = 1 := by
    have := congrArg List.length h2
    unfold atomic at this
    simp only [List.length_append, hlen] at this
    exact this.symm
  rcases (show (n = 0 ∧ m = 1) ∨ (n = 1 ∧ m = 0) by omega) with ⟨rfl, rfl⟩ | ⟨rfl, rfl⟩
  · exact absurd h2 (by decide +kernel)
  · exact absurd h2 (by decide +kernel)

end RgbLed
