import Verif.Spec.PollIsr
/-! # Properties C215 and C216: PollChange from two contexts; PollEvent polled by its own action -/

namespace PollIsr
open Spec

/-- The state sampled last, as the polling context knows it. -/
def lastSample (s : St) : Bool :=
  match s.pc with
  | .stamp _ b => b
  | .compare b => b
  | .setCurrent b => b
  | _ => s.p.current

/-- A change found and not stored yet. -/
def pending (s : St) : Nat :=
  match s.pc with
  | .stamp _ b => if b = s.p.current then 0 else 1
  | .compare b => if b = s.p.current then 0 else 1
  | .setCurrent _ => 1
  | .setChanged => 1
  | .idle => 0

/-- `setCurrent b` is reached only with `b` different from the stored state. -/
theorem run_inv (ticks : BitVec 32) (acts : List Act) : ∀ s : St, (s.taking = true → s.p.changed = true) →
    fair s.p.changed (run ticks s acts).2 ∧ owed s.p.changed (run ticks s acts).2 = (run ticks s acts).1.p.changed ∧
    yes (run ticks s acts).2 + (if (run ticks s acts).1.p.changed then 1 else 0) ≤ raised (run ticks s acts).2 + (if s.p.changed then 1 else 0) ∧
    found (run ticks s acts).2 + pending (run ticks s acts).1 = diffs (lastSample s) (run ticks s acts).2 + pending s ∧
    ((run ticks s acts).1.taking = true → (run ticks s acts).1.p.changed = true) := by
  induction acts with
  | nil => intro s h; simp [run, fair, owed, yes, raised, found, diffs]; exact ⟨Nat.le_refl _, h⟩
  | cons a l ih =>
    intro s h
    obtain ⟨⟨cur, chg, last⟩, pc, tk⟩ := s
    simp only [run]
    cases a with
    | poll now b =>
      cases pc with
      | idle =>
        by_cases ht : now - last ≥ ticks
        · simp only [step, ht, if_true]
          have := ih ⟨⟨cur, chg, last⟩, .stamp now b, tk⟩ h
          obtain ⟨h1, h2, h3, h4, h5⟩ := this
          refine ⟨h1, h2, h3, ?_, h5⟩
          simp only [List.cons_append, List.nil_append, found, diffs, lastSample, pending] at h4 ⊢
          omega
        · simp only [step, ht, if_false]
          exact ih ⟨⟨cur, chg, last⟩, .idle, tk⟩ h
      | _ => exact ih _ h
    | pollStep =>
      cases pc with
      | idle => exact ih _ h
      | stamp now b => exact ih ⟨⟨cur, chg, now⟩, .compare b, tk⟩ h
      | compare b =>
        by_cases hb : cur = b
        · subst hb
          simp only [step, bne_self_eq_false, Bool.false_eq_true, if_false]
          have := ih ⟨⟨cur, chg, last⟩, .idle, tk⟩ h
          simpa [lastSample, pending] using this
        · have hb' : (cur != b) = true := by simpa using hb
          have hb2 : ¬ b = cur := fun h => hb h.symm
          simp only [step, hb', if_true]
          have := ih ⟨⟨cur, chg, last⟩, .setCurrent b, tk⟩ h
          simpa [lastSample, pending, hb2] using this
      | setCurrent b =>
        exact ih ⟨⟨b, chg, last⟩, .setChanged, tk⟩ h
      | setChanged =>
        have := ih ⟨⟨cur, true, last⟩, .idle, tk⟩ (fun _ => rfl)
        obtain ⟨h1, h2, h3, h4, h5⟩ := this
        simp only [step]
        refine ⟨h1, h2, ?_, ?_, h5⟩
        · exact Nat.le_trans h3 (Nat.le_add_right _ _)
        · simp only [List.cons_append, List.nil_append, found, diffs, lastSample, pending] at h4 ⊢
          omega
    | take =>
      cases tk with
      | true => exact ih _ h
      | false =>
        cases chg with
        | true => exact ih ⟨⟨cur, true, last⟩, pc, true⟩ (fun _ => rfl)
        | false =>
          have := ih ⟨⟨cur, false, last⟩, pc, false⟩ (by simp)
          obtain ⟨h1, h2, h3, h4, h5⟩ := this
          exact ⟨⟨rfl, h1⟩, h2, h3, h4, h5⟩
    | takeStep =>
      cases tk with
      | false => exact ih _ h
      | true =>
        have hc : chg = true := h rfl
        subst hc
        have := ih ⟨⟨cur, false, last⟩, pc, false⟩ (by simp)
        obtain ⟨h1, h2, h3, h4, h5⟩ := this
        refine ⟨⟨rfl, h1⟩, h2, ?_, h4, h5⟩
        simp only [step, if_true, List.cons_append, List.nil_append, yes, raised] at h3 ⊢
        simp only [Bool.false_eq_true, if_false] at h3
        omega
    | reset =>
      have := ih ⟨⟨cur, true, last⟩, pc, tk⟩ (fun _ => rfl)
      obtain ⟨h1, h2, h3, h4, h5⟩ := this
      exact ⟨h1, h2, Nat.le_trans h3 (Nat.le_add_right _ _), h4, h5⟩
    | force => exact ih ⟨⟨cur, chg, 0⟩, pc, tk⟩ h

/-- **C215**: in every interleaving of a polling context, a taking one and any number of `reset()`s and `force_next_poll()`s: "no" is never answered while a change is owed, "yes" only if one is; at the end, `take_change` would answer "yes" exactly if a
change is owed. -/
theorem C215_owed (ticks : BitVec 32) (acts : List Act) :
    fair false (run ticks {} acts).2 ∧ owed false (run ticks {} acts).2 = (run ticks {} acts).1.p.takeChange.1 := by
  obtain ⟨h1, h2, _, _, _⟩ := run_inv ticks acts {} (by simp)
  refine ⟨h1, h2.trans ?_⟩
  unfold PollChange.takeChange
  cases (run ticks {} acts).1.p.changed <;> rfl

/-- **C215**: "yes" is not answered more often than changes became visible. -/
theorem C215_count (ticks : BitVec 32) (acts : List Act) : yes (run ticks {} acts).2 ≤ raised (run ticks {} acts).2 := by
  obtain ⟨_, _, h3, _, _⟩ := run_inv ticks acts {} (by simp)
  simp only [Bool.false_eq_true, if_false] at h3
  omega

/-- **C215**: whenever no poll is under way, exactly those polls found a change whose sample differed from the sample before. -/
theorem C215_found (ticks : BitVec 32) (acts : List Act) (hi : (run ticks {} acts).1.pc = .idle) :
    found (run ticks {} acts).2 = diffs false (run ticks {} acts).2 := by
  obtain ⟨_, _, _, h4, _⟩ := run_inv ticks acts {} (by simp)
  simp only [pending, hi, lastSample] at h4
  simpa using h4

/-- two polls find changes, one between the taker's load and store: one "yes" -/
example : (run 5 {} [.poll 10 true, .pollStep, .pollStep, .pollStep, .pollStep, .take, .poll 20 false, .pollStep, .pollStep, .takeStep, .pollStep, .take, .pollStep, .take, .takeStep]) =
    (⟨⟨false, false, 20⟩, .idle, false⟩, [.sample true, .change, .sample false, .answer true, .answer false, .change, .answer true]) := by decide

/-- A poll that is not interrupted is `poll` of the one-context model. -/
theorem C215_alone (ticks : BitVec 32) (p : PollChange) (now : BitVec 32) (b : Bool) (tk : Bool) :
    (run ticks ⟨p, .idle, tk⟩ [.poll now b, .pollStep, .pollStep, .pollStep, .pollStep]).1 = ⟨p.poll ticks now b, .idle, tk⟩ := by
  obtain ⟨cur, chg, last⟩ := p
  by_cases ht : now - last ≥ ticks
  · by_cases hb : cur = b
    · subst hb; simp [run, step, PollChange.poll, ht]
    · simp [run, step, PollChange.poll, ht, hb]
  · simp [run, step, PollChange.poll, ht]

/-- **C215, violated** for `force_next_poll()`: called during a poll that has decided to sample (its state may be read already), it has no effect: the next poll does not sample. -/
theorem C215_force_violated :
    (run 100 {} [.poll 1000 false, .force, .pollStep, .pollStep, .poll 1001 true]).2 = [.sample false] ∧
    (run 100 {} [.poll 1000 false, .pollStep, .pollStep, .force, .poll 1001 true]).2 = [.sample false, .sample true] := by decide

/-- **C215** (partial): outside of that window `force_next_poll()` makes the next poll sample, exactly if its time is at least the period: times start at 0. -/
theorem C215_force_partial (ticks : BitVec 32) (s : St) (hs : ∀ now b, s.pc ≠ .stamp now b) (acts : List Act) (hacts : ∀ a ∈ acts, ∀ now b, a ≠ .poll now b) (now : BitVec 32) (b : Bool)
    (hi : (run ticks s (.force :: acts)).1.pc = .idle) : (step ticks (run ticks s (.force :: acts)).1 (.poll now b)).2 = if now ≥ ticks then [.sample b] else [] := by
  have key : ∀ (acts : List Act) (s : St), (∀ now b, s.pc ≠ .stamp now b) → s.p.last = 0 → (∀ a ∈ acts, ∀ now b, a ≠ .poll now b) → (run ticks s acts).1.p.last = 0 := by
    intro acts
    induction acts with
    | nil => intro s _ h _; exact h
    | cons a l ih =>
      intro s hs h ha
      have hl : ∀ a ∈ l, ∀ now b, a ≠ .poll now b := fun a h => ha a (List.mem_cons_of_mem _ h)
      have h0 := ha a (List.mem_cons_self ..)
      obtain ⟨⟨cur, chg, last⟩, pc, tk⟩ := s
      simp only at h hs
      subst h
      simp only [run]
      cases a with
      | poll now b => exact absurd rfl (h0 now b)
      | pollStep =>
        cases pc with
        | idle => exact ih _ hs rfl hl
        | stamp now b => exact absurd rfl (hs now b)
        | compare b =>
          simp only [step]
          split <;> exact ih _ (by intro _ _ h; cases h) rfl hl
        | setCurrent b => exact ih _ (by intro _ _ h; cases h) rfl hl
        | setChanged => exact ih _ (by intro _ _ h; cases h) rfl hl
      | take =>
        simp only [step]
        split
        · exact ih _ hs rfl hl
        · split <;> exact ih _ hs rfl hl
      | takeStep =>
        simp only [step]
        split <;> exact ih _ hs rfl hl
      | reset => exact ih _ hs rfl hl
      | force => exact ih _ hs rfl hl
  have h0 : (run ticks s (.force :: acts)).1.p.last = 0 := key acts { s with p := s.p.forceNextPoll } hs rfl hacts
  simp only [step, hi, h0]
  have : now - 0 = now := by simp
  rw [this]
  split <;> rfl

example := C215_force_partial 100 ⟨⟨true, false, 990⟩, .compare false, false⟩ (by intro _ _ h; cases h) [.pollStep, .pollStep, .take, .pollStep] (by simp) 1001 true (by decide)

end PollIsr

namespace PollNest

mutual
/-- The answers of nested calls are those of the same calls made one after the other. -/
theorem call_flat (W period last : Nat) : ∀ c : Call, ∀ rest : List Nat,
    PollEvent.polls W period last ((callTrace W period last c).2.map Prod.fst ++ rest) = (callTrace W period last c).2.map Prod.snd ++ PollEvent.polls W period (callTrace W period last c).1 rest
  | .mk now inner, rest => by
    unfold callTrace
    rcases hp : PollEvent.poll W period last now with ⟨b, l⟩
    cases b
    · simp [PollEvent.polls, hp]
    · have := calls_flat W period l inner rest
      simp only [List.map_cons, List.cons_append, PollEvent.polls, hp, this]

theorem calls_flat (W period last : Nat) : ∀ cs : List Call, ∀ rest : List Nat,
    PollEvent.polls W period last ((callsTrace W period last cs).2.map Prod.fst ++ rest) = (callsTrace W period last cs).2.map Prod.snd ++ PollEvent.polls W period (callsTrace W period last cs).1 rest
  | [], rest => by simp [callsTrace]
  | c :: l, rest => by
    unfold callsTrace
    simp only [List.map_append, List.append_assoc]
    rw [call_flat W period last c, calls_flat W period _ l]
end

/-- **C216**: an action may poll the object it is called by: the calls, in the order in which they start, are answered as if they were made one after the other, and so are all later ones. -/
theorem C216_nested (W period : Nat) (cs : List Call) (later : List Nat) :
    PollEvent.polls W period 0 ((callsTrace W period 0 cs).2.map Prod.fst ++ later) = (callsTrace W period 0 cs).2.map Prod.snd ++ PollEvent.polls W period (callsTrace W period 0 cs).1 later := calls_flat W period 0 cs later

/-- **C216**: an action that polls the object at the same time with itself as action runs once if the period is positive; with period 0 it never ends. -/
theorem C216_self (W period last now : Nat) (hd : (PollEvent.poll W period last now).1 = true) :
    (0 < period → ∀ fuel, selfPoll W period last now (fuel + 2) = some 1) ∧ (period = 0 → ∀ fuel, selfPoll W period last now fuel = none) := by
  have h2 : (PollEvent.poll W period last now).2 = now := by
    have : ∀ e : Bool, (if e then (true, now) else (false, last)).1 = true → (if e then (true, now) else (false, last)).2 = now := by
      intro e; cases e <;> simp
    exact this _ hd
  have hp : PollEvent.poll W period last now = (true, now) := Prod.ext hd h2
  constructor
  · intro hpos fuel
    have hn : PollEvent.poll W period now now = (false, now) := by
      unfold PollEvent.poll
      have : ¬ now < now := Nat.lt_irrefl _
      have h3 : ¬ now - now ≥ period := by omega
      simp [this]
      omega
    simp [selfPoll, hp, hn]
  · rintro rfl fuel
    have hn : PollEvent.poll W 0 now now = (true, now) := by
      unfold PollEvent.poll
      simp
    have all : ∀ fuel, selfPoll W 0 now now fuel = none := by
      intro fuel
      induction fuel with
      | zero => rfl
      | succ n ih => simp [selfPoll, hn, ih]
    cases fuel with
    | zero => rfl
    | succ n => simp [selfPoll, hp, all n]

example : callsTrace (2 ^ 32) 10 0 [.mk 12 [.mk 15 [], .mk 23 [.mk 40 []]], .mk 41 []] = (40, [(12, true), (15, false), (23, true), (40, true), (41, false)]) := by decide

example := C216_self (2 ^ 32) 10 3 20 (by decide)

end PollNest
