import Verif.Model.Entry
import Verif.Spec.Entry
/-! # Property C208: however a sample is handed over, it is debounced or compared with the thresholds -/

namespace Debouncer
open Entry.Spec

/-- **C208, exactly.** Handed over by `process`, every change of the raw sample is a press or a release, whatever the patterns and whatever has been registered before (no event pending); the history of samples is not touched. -/
theorem C208_process_exact (l : List Bool) : ∀ (d : Debouncer), d.t.rising = false → d.t.falling = false →
    polledProcess d l = everyChange d.t.isHigh l ∧ ∀ b, (process d b).state = d.state := by
  induction l with
  | nil => intro d _ _; exact ⟨rfl, fun _ => rfl⟩
  | cons b l ih =>
    rintro ⟨⟨h, r, f⟩, st⟩ hr hf
    simp only at hr hf
    subst hr hf
    refine ⟨?_, fun _ => rfl⟩
    rw [polledProcess, everyChange]
    have key := (ih ⟨⟨b, false, false⟩, st⟩ rfl rfl).1
    cases h <;> cases b <;> exact congrArg (List.cons _) key

/-- The bouncing contact below, and one that was high. -/
example : polledProcess {} [true, false, true, true, false] = [(true, false), (false, true), (true, false), (false, false), (false, true)] ∧
    everyChange false [true, false, true, true, false] = [(true, false), (false, true), (true, false), (false, false), (false, true)] := by decide

/-- The histories a bouncing contact leaves: `10`, `1010`, ... up to twelve bits. -/
def bouncing : List (BitVec 32) := [0x2, 0xA, 0x2A, 0xAA, 0x2AA, 0xAAA]

/-- **C208 (the property is false here).** A contact that bounces `n + 1` times: with `register_state` and the default patterns it is one press; with `process` it is `n + 1` presses and as many releases. -/
theorem C208_process_violated (n : Nat) :
    polledRegister {} {} (bounces (n + 1)) = (true, false) :: List.replicate (2 * n + 1) (false, false) ∧
    polledProcess {} (bounces (n + 1)) = (List.replicate (n + 1) [(true, false), (false, true)]).flatten := by
  constructor
  · have step : ∀ st ∈ bouncing, ∃ st' ∈ bouncing, ∀ l, polledRegister {} ⟨⟨false, false, false⟩, st⟩ (true :: false :: l) = (false, false) :: (false, false) :: polledRegister {} ⟨⟨false, false, false⟩, st'⟩ l := by
      intro st hst
      simp only [bouncing, List.mem_cons, List.not_mem_nil, or_false] at hst
      rcases hst with rfl | rfl | rfl | rfl | rfl | rfl
      · exact ⟨0xA, by decide, fun _ => rfl⟩
      · exact ⟨0x2A, by decide, fun _ => rfl⟩
      · exact ⟨0xAA, by decide, fun _ => rfl⟩
      · exact ⟨0x2AA, by decide, fun _ => rfl⟩
      · exact ⟨0xAAA, by decide, fun _ => rfl⟩
      · exact ⟨0xAAA, by decide, fun _ => rfl⟩
    have all : ∀ (n : Nat), ∀ st ∈ bouncing, polledRegister {} ⟨⟨false, false, false⟩, st⟩ (bounces n) = List.replicate (2 * n) (false, false) := by
      intro n
      induction n with
      | zero => intro st _; rfl
      | succ n ih =>
        intro st hst
        obtain ⟨st', h1, h2⟩ := step st hst
        rw [bounces, h2, ih st' h1]
        rfl
    have first : polledRegister {} {} (bounces (n + 1)) = (true, false) :: (false, false) :: polledRegister {} ⟨⟨false, false, false⟩, 0x2⟩ (bounces n) := rfl
    rw [first, all n 0x2 (by decide)]
    rfl
  · rw [(C208_process_exact _ {} rfl rfl).1]
    show everyChange false _ = _
    induction n with
    | zero => rfl
    | succ n ih =>
      show (true, false) :: (false, true) :: everyChange false (bounces (n + 1)) = _
      rw [ih, List.replicate_succ (n := n + 1)]
      rfl

end Debouncer

namespace DebouncerCounter

/-- **C208**, DebouncerCounter: `process` registers the raw state and neither counts nor restarts the count, and leaves the history of samples. -/
theorem C208_counter_violated (d : DebouncerCounter) (b : Bool) (hb : b ≠ d.t.isHigh) (hp : d.t.rising = false) (hf : d.t.falling = false) :
    (process d b).t.isHigh = b ∧ (process d b).t.isJustPressed.1 = b ∧ (process d b).t.isJustReleased.1 = !b ∧ (process d b).ctr = d.ctr ∧ (process d b).state = d.state := by
  obtain ⟨⟨h, r, f⟩, c, st⟩ := d
  simp only at hp hf
  subst hp hf
  cases b <;> cases h <;> first | exact absurd rfl hb | exact ⟨rfl, rfl, rfl, rfl, rfl⟩

example : (process ({ ctr := 7 } : DebouncerCounter) true).t = ⟨true, true, false⟩ ∧ (process ({ ctr := 7 } : DebouncerCounter) true).ctr = 7 := by decide

end DebouncerCounter

namespace Schmitt

/-- **C208 (the property is false here).** A low trigger handed a value above zero but not above `high` by `register_state` registers a rising edge, which `process` does not; a high one handed zero or a value between by `register_state` falls exactly at zero, whatever `low` is. -/
theorem C208_register_violated (low high val : ℚ) (t : Toggler) :
    (t.isHigh = false → 0 < val → val ≤ high → process (fun a b => decide (a < b)) low high t val = t ∧ (registerVal t val).isHigh = true ∧ (registerVal t val).rising = true) ∧
    (t.isHigh = true → ((registerVal t val).isHigh = false ↔ val = 0)) := by
  constructor
  · intro hl h0 h1
    have hl' : t.high = false := hl
    have hn : ¬ val = 0 := ne_of_gt h0
    refine ⟨?_, ?_, ?_⟩
    · simp [process, hl', not_lt.mpr h1]
    · simp [registerVal, Toggler.registerState, Toggler.isHigh, hl', hn]
    · simp [registerVal, Toggler.registerState, hl', hn]
  · intro hh
    have hh' : t.high = true := hh
    by_cases hv : val = 0 <;> simp [registerVal, Toggler.registerState, Toggler.isHigh, hh', hv]

example : (registerVal {} (3 / 10)).rising = true ∧ process (fun a b => decide (a < b)) (4 / 10 : ℚ) (6 / 10) {} (3 / 10) = {} := by decide +kernel

end Schmitt
