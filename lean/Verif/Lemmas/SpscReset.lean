import Verif.Spec.SpscReset
import Verif.Lemmas.SpscSeq
import Verif.Props.Spsc
/-! Helper lemmas: schedules with producer resets are like schedules with consumer resets. -/
namespace Spsc
open Spec
variable {w : Nat} {T : Type}

/-- the producer's resets and the consumer's calls without an access yet, forgotten -/
def calmP : PPc w T → PPc w T
  | .reset0 => .idle
  | .reset1 _ => .idle
  | p => p

def calmC : CPc w T → CPc w T
  | .get0 _ => .idle
  | .rem0 => .idle
  | .fill0 _ => .idle
  | .reset0 => .idle
  | c => c

def calm (s : St w T) : St w T := { s with ppc := calmP s.ppc, cpc := calmC s.cpc }

/-- events without the start of calls and without resets that drop nothing -/
def core : List (Ev T) → List (Ev T)
  | [] => []
  | .resetCall :: l => core l
  | .numFilledCall :: l => core l
  | .resetRet 0 :: l => core l
  | e :: l => e :: core l

theorem core_append (a b : List (Ev T)) : core (a ++ b) = core a ++ core b := by
  induction a with
  | nil => rfl
  | cons e a ih =>
    cases e with
    | resetRet n => cases n <;> simp [core, ih]
    | _ => simp [core, ih]

theorem core_accepted (a : List (Ev T)) : accepted (core a) = accepted a := by
  induction a with
  | nil => rfl
  | cons e a ih =>
    cases e with
    | resetRet n => cases n <;> simp [core, accepted, ih]
    | putRet x ok => cases ok <;> simp [core, accepted, ih]
    | _ => simp [core, accepted, ih]

theorem core_taken (a : List (Ev T)) : taken (core a) = taken a := by
  induction a with
  | nil => rfl
  | cons e a ih =>
    cases e with
    | resetRet n => cases n <;> simp [core, taken, ih]
    | getRet r => cases r <;> simp [core, taken, ih]
    | getOrDefaultRet b v => cases b <;> simp [core, taken, ih]
    | removeRet b => cases b <;> simp [core, taken, ih]
    | _ => simp [core, taken, ih]

theorem core_split {e : Ev T} (he : core [e] = [e]) : ∀ (a x y : List (Ev T)), core a = x ++ e :: y → ∃ p q, a = p ++ e :: q ∧ core p = x ∧ core q = y := by
  intro a
  induction a with
  | nil => intro x y h; cases x <;> cases h
  | cons f a ih =>
    intro x y h
    by_cases hf : core [f] = [f]
    · have h2 : core (f :: a) = f :: core a := by
        have := core_append [f] a
        rw [hf] at this
        exact this
      rw [h2] at h
      cases x with
      | nil =>
        simp only [List.nil_append, List.cons.injEq] at h
        exact ⟨[], a, by rw [h.1]; rfl, rfl, h.2⟩
      | cons g x =>
        simp only [List.cons_append, List.cons.injEq] at h
        obtain ⟨p, q, h3, h4, h5⟩ := ih x y h.2
        refine ⟨f :: p, q, by rw [h3]; rfl, ?_, h5⟩
        have := core_append [f] p
        rw [hf] at this
        rw [← h.1, ← h4]
        exact this
    · have h1 : core [f] = [] := by
        cases f with
        | resetRet n => cases n <;> first | rfl | exact absurd rfl hf
        | _ => first | rfl | exact absurd rfl hf
      have h2 : core (f :: a) = core a := by
        have := core_append [f] a
        rw [h1] at this
        exact this
      rw [h2] at h
      obtain ⟨p, q, h3, h4, h5⟩ := ih x y h
      refine ⟨f :: p, q, by rw [h3]; rfl, ?_, h5⟩
      have := core_append [f] p
      rw [h1] at this
      rw [← h4]
      exact this

/-- what the producer has loaded in `reset()` is the head -/
def ResetOk (s : St w T) : Prop := ∀ h, s.ppc = .reset1 h → h = s.head

theorem sim_step (cfg : Cfg w) (dflt : T) (mv : T → T) (s : St w T) (a : Act T) (hr : ResetOk s)
    (hq : ∀ b h, a = .pStep b → s.ppc = .reset1 h → s.tail = s.head ∨ notBegun s.cpc = true) :
    (∃ bs, NoProducerReset bs ∧ (run cfg dflt mv (calm s) bs).1 = calm (step cfg dflt mv s a).1 ∧ core (run cfg dflt mv (calm s) bs).2 = core (step cfg dflt mv s a).2) ∧
    ResetOk (step cfg dflt mv s a).1 := by
  obtain ⟨hd, tl, buf, ppc, cpc, ub⟩ := s
  have nil : NoProducerReset ([] : List (Act T)) := by unfold NoProducerReset; simp
  cases a with
  | pCall op =>
    cases ppc with
    | idle =>
      cases op with
      | reset => exact ⟨⟨[], nil, rfl, rfl⟩, by intro h hh; cases hh⟩
      | put x => exact ⟨⟨[.pCall (.put x)], by unfold NoProducerReset; simp, rfl, rfl⟩, by intro h hh; cases hh⟩
      | numFree => exact ⟨⟨[.pCall .numFree], by unfold NoProducerReset; simp, rfl, rfl⟩, by intro h hh; cases hh⟩
      | full => exact ⟨⟨[.pCall .full], by unfold NoProducerReset; simp, rfl, rfl⟩, by intro h hh; cases hh⟩
    | _ => exact ⟨⟨[], nil, rfl, rfl⟩, hr⟩
  | pStep b =>
    have one : NoProducerReset [Act.pStep (T := T) b] := by unfold NoProducerReset; simp
    cases ppc with
    | idle => exact ⟨⟨[], nil, rfl, rfl⟩, hr⟩
    | put0 x => exact ⟨⟨[.pStep b], one, rfl, rfl⟩, by intro h hh; cases hh⟩
    | put1 x h =>
      by_cases hc : h - tl = BitVec.ofNat w cfg.cap
      · exact ⟨⟨[.pStep b], one, by simp [run, step, stepP, calm, calmP, hc], by simp [run, step, stepP, calm, calmP, hc]⟩, by intro h hh; simp [step, stepP, hc] at hh⟩
      · exact ⟨⟨[.pStep b], one, by simp [run, step, stepP, calm, calmP, hc], by simp [run, step, stepP, calm, calmP, hc]⟩, by intro h hh; simp [step, stepP, hc] at hh⟩
    | put2 x h =>
      by_cases hc : cfg.idx h < buf.length
      · exact ⟨⟨[.pStep b], one, by simp [run, step, stepP, calm, calmP, hc], by simp [run, step, stepP, calm, calmP, hc]⟩, by intro h hh; simp [step, stepP, hc] at hh⟩
      · exact ⟨⟨[.pStep b], one, by simp [run, step, stepP, calm, calmP, hc], by simp [run, step, stepP, calm, calmP, hc]⟩, by intro h hh; simp [step, stepP, hc] at hh⟩
    | put3 x h => exact ⟨⟨[.pStep b], one, rfl, rfl⟩, by intro h hh; cases hh⟩
    | free0 f => cases b <;> exact ⟨⟨[.pStep _], one, rfl, rfl⟩, by intro h hh; cases hh⟩
    | freeH f h => exact ⟨⟨[.pStep b], one, by simp [run, step, stepP, calm, calmP], by simp [run, step, stepP, calm, calmP]⟩, by intro h hh; cases hh⟩
    | freeT f h => exact ⟨⟨[.pStep b], one, by simp [run, step, stepP, calm, calmP], by simp [run, step, stepP, calm, calmP]⟩, by intro h hh; cases hh⟩
    | reset0 => exact ⟨⟨[], nil, rfl, rfl⟩, by intro h hh; simp [step, stepP] at hh; exact hh.symm⟩
    | reset1 h =>
      have hh : h = hd := hr h rfl
      subst hh
      refine ⟨?_, by intro h hh; cases hh⟩
      by_cases he : tl = h
      · subst he
        refine ⟨[], nil, rfl, ?_⟩
        simp [run, step, stepP, core]
      · rcases hq b h rfl rfl with h1 | h1
        · exact absurd h1 he
        · have hc : calmC cpc = .idle := by cases cpc <;> first | rfl | cases h1
          refine ⟨[.cCall .reset, .cStep true, .cStep true], by unfold NoProducerReset; simp, ?_, ?_⟩
          · simp [run, step, stepP, stepC, callC, calm, calmP, hc]
          · simp [run, step, stepP, stepC, callC, calm, calmP, hc, core]
  | cCall op =>
    cases cpc with
    | idle => cases op <;> exact ⟨⟨[], nil, rfl, rfl⟩, hr⟩
    | _ => exact ⟨⟨[], nil, rfl, rfl⟩, hr⟩
  | cStep b =>
    have one : NoProducerReset [Act.cStep (T := T) b] := by unfold NoProducerReset; simp
    have two : ∀ op, NoProducerReset [Act.cCall (T := T) op, Act.cStep (T := T) b] := by intro op; unfold NoProducerReset; simp
    cases cpc with
    | idle => exact ⟨⟨[], nil, rfl, rfl⟩, hr⟩
    | get0 k =>
      refine ⟨?_, hr⟩
      cases k with
      | get => exact ⟨[.cCall .get, .cStep b], two _, rfl, rfl⟩
      | move => exact ⟨[.cCall .getMove, .cStep b], two _, rfl, rfl⟩
      | orDefault => exact ⟨[.cCall .getOrDefault, .cStep b], two _, rfl, rfl⟩
    | get1 k t =>
      by_cases hc : t = hd
      · exact ⟨⟨[.cStep b], one, by simp [run, step, stepC, calm, calmC, hc], by simp [run, step, stepC, calm, calmC, hc]⟩, by intro h hh; simp [step, stepC, hc] at hh ⊢; exact hr h hh⟩
      · exact ⟨⟨[.cStep b], one, by simp [run, step, stepC, calm, calmC, hc], by simp [run, step, stepC, calm, calmC, hc]⟩, by intro h hh; simp [step, stepC, hc] at hh ⊢; exact hr h hh⟩
    | get2 k t =>
      cases hx : buf[cfg.idx t]? with
      | none => exact ⟨⟨[.cStep b], one, by simp [run, step, stepC, calm, calmC, hx], by simp [run, step, stepC, calm, calmC, hx]⟩, by intro h hh; simp [step, stepC, hx] at hh ⊢; exact hr h hh⟩
      | some x => exact ⟨⟨[.cStep b], one, by simp [run, step, stepC, calm, calmC, hx], by simp [run, step, stepC, calm, calmC, hx]⟩, by intro h hh; simp [step, stepC, hx] at hh ⊢; exact hr h hh⟩
    | get3 k t x => exact ⟨⟨[.cStep b], one, by simp [run, step, stepC, calm, calmC], by simp [run, step, stepC, calm, calmC]⟩, hr⟩
    | rem0 => exact ⟨⟨[.cCall .removeFirst, .cStep b], two _, rfl, rfl⟩, hr⟩
    | rem1 t =>
      by_cases hc : t = hd
      · exact ⟨⟨[.cStep b], one, by simp [run, step, stepC, calm, calmC, hc], by simp [run, step, stepC, calm, calmC, hc]⟩, by intro h hh; simp [step, stepC, hc] at hh ⊢; exact hr h hh⟩
      · exact ⟨⟨[.cStep b], one, by simp [run, step, stepC, calm, calmC, hc], by simp [run, step, stepC, calm, calmC, hc]⟩, by intro h hh; simp [step, stepC, hc] at hh ⊢; exact hr h hh⟩
    | rem2 t => exact ⟨⟨[.cStep b], one, rfl, rfl⟩, hr⟩
    | fill0 f =>
      cases f <;> cases b
      · exact ⟨⟨[.cCall .numFilled, .cStep false], two _, rfl, rfl⟩, hr⟩
      · exact ⟨⟨[.cCall .numFilled, .cStep true], two _, rfl, rfl⟩, hr⟩
      · exact ⟨⟨[.cCall .empty, .cStep false], two _, rfl, rfl⟩, hr⟩
      · exact ⟨⟨[.cCall .empty, .cStep true], two _, rfl, rfl⟩, hr⟩
    | fillH f h => exact ⟨⟨[.cStep b], one, by simp [run, step, stepC, calm, calmC], by simp [run, step, stepC, calm, calmC]⟩, hr⟩
    | fillT f h => exact ⟨⟨[.cStep b], one, by simp [run, step, stepC, calm, calmC], by simp [run, step, stepC, calm, calmC]⟩, hr⟩
    | reset0 => exact ⟨⟨[.cCall .reset, .cStep b], two _, rfl, rfl⟩, hr⟩
    | reset1 h => exact ⟨⟨[.cStep b], one, by simp [run, step, stepC, calm, calmC], by simp [run, step, stepC, calm, calmC]⟩, hr⟩

theorem sim_run (cfg : Cfg w) (dflt : T) (mv : T → T) (as : List (Act T)) : ∀ s : St w T, ResetOk s → CalmResets cfg dflt mv s as = true →
    (∃ bs, NoProducerReset bs ∧ (run cfg dflt mv (calm s) bs).1 = calm (run cfg dflt mv s as).1 ∧ core (run cfg dflt mv (calm s) bs).2 = core (run cfg dflt mv s as).2) ∧
    ResetOk (run cfg dflt mv s as).1 := by
  induction as with
  | nil => intro s hr _; exact ⟨⟨[], by unfold NoProducerReset; simp, rfl, rfl⟩, hr⟩
  | cons a as ih =>
    intro s hr hq
    unfold CalmResets at hq
    rw [Bool.and_eq_true] at hq
    have hq1 : ∀ b h, a = .pStep b → s.ppc = .reset1 h → s.tail = s.head ∨ notBegun s.cpc = true := by
      intro b h ha hp
      have := hq.1
      rw [ha, hp] at this
      simpa using this
    obtain ⟨⟨b1, n1, e1, c1⟩, r1⟩ := sim_step cfg dflt mv s a hr hq1
    obtain ⟨⟨b2, n2, e2, c2⟩, r2⟩ := ih _ r1 hq.2
    refine ⟨⟨b1 ++ b2, (fun a ha => (List.mem_append.mp ha).elim (n1 a) (n2 a)), ?_, ?_⟩, r2⟩
    · rw [run_append, e1, e2]; rfl
    · rw [run_append, e1, core_append, c1, c2, ← core_append]; rfl

theorem content_core {start : List T} {a b : List (Ev T)} (h : core a = core b) : content start a = content start b := by
  unfold content
  rw [← core_accepted a, ← core_taken a, h, core_accepted, core_taken]

end Spsc
