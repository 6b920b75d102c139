import Verif.Props.ParamIsr
import Verif.Props.TogglerIsr
import Verif.Props.PollIsr
/-! # Properties C169 and C182: exactly which interrupts are harmful -/

namespace ParamIsr
open Spec
variable {α : Type} [DecidableEq α]

theorem set_changed (p : Param α) (v : α) : (p.set v).changed = (p.changed || decide (v ≠ p.cur)) := by
  unfold Param.set
  by_cases hv : v = p.cur <;> simp [hv]

/-- a call that has read "unchanged" answers so, though a change is owed -/
theorem wrong_answer (l : List (Act α)) : ∀ (s s' : St α) (es : List (Event α)), run s l = some (s', es) → s'.saw = none → s.saw = some false → ¬ Right true es := by
  induction l with
  | nil => intro s s' es h h1 h2; cases h; rw [h1] at h2; cases h2
  | cons a l ih =>
    intro s s' es h h1 h2
    obtain ⟨s1, e1, e2, hs, hr, rfl⟩ := run_cons h
    cases a with
    | set v =>
      simp only [step, Option.some.injEq, Prod.mk.injEq] at hs
      obtain ⟨rfl, rfl⟩ := hs
      exact ih _ s' e2 hr h1 h2
    | ask => simp [step, h2] at hs
    | cont =>
      simp only [step, h2, Option.some.injEq, Prod.mk.injEq] at hs
      obtain ⟨rfl, rfl⟩ := hs
      intro hR
      exact Bool.noConfusion hR.1

theorem right_iff (l : List (Act α)) : ∀ (s s' : St α) (es : List (Event α)) (o : Bool), run s l = some (s', es) → s'.saw = none →
    (s.saw = none → s.p.changed = o) → (∀ b, s.saw = some b → b = o) → (Right o es ↔ Quiet o (win s.saw) es) := by
  induction l with
  | nil => intro s s' es o h _ _ _; cases h; exact Iff.rfl
  | cons a l ih =>
    intro s s' es o h h0 h1 h2
    obtain ⟨s1, e1, e2, hs, hr, rfl⟩ := run_cons h
    cases a with
    | set v =>
      simp only [step, Option.some.injEq, Prod.mk.injEq] at hs
      obtain ⟨rfl, rfl⟩ := hs
      simp only [List.cons_append, List.nil_append, Right, Quiet]
      by_cases hw : s.saw = some false
      · have ho : false = o := h2 _ hw
        subst ho
        cases hn : decide (v ≠ s.p.cur)
        · have := ih _ s' e2 false hr h0 (fun h => by simp [hw] at h) (fun b hb => h2 b hb)
          simpa [hw, win] using this
        · have := wrong_answer l _ s' e2 hr h0 hw
          simp [win, hw, this]
      · have hwin : win s.saw = false := by
          cases hs : s.saw with
          | none => rfl
          | some b => cases b with
            | false => exact absurd hs hw
            | true => rfl
        have := ih _ s' e2 (o || decide (v ≠ s.p.cur)) hr h0 (fun h => by simp only [set_changed]; rw [h1 h]) (fun b hb => by
          have hb' : s.saw = some b := hb
          have := h2 b hb'
          cases b with
          | false => exact absurd hb' hw
          | true => simp [← this])
        simpa [hwin] using this
    | ask =>
      cases hsw : s.saw with
      | some b => simp [step, hsw] at hs
      | none =>
        simp only [step, hsw, if_true, Option.some.injEq, Prod.mk.injEq] at hs
        obtain ⟨rfl, rfl⟩ := hs
        have e := h1 hsw
        have := ih _ s' e2 o hr h0 (fun h => by cases h) (fun b hb => by cases hb; exact e)
        simp only [List.cons_append, List.nil_append, Right, Quiet]
        rw [this]
        have hw : win (some s.p.changed) = !o := by rw [e]; cases o <;> rfl
        simp only [hw]
    | cont =>
      cases hsw : s.saw with
      | none => simp [step, hsw] at hs
      | some b =>
        simp only [step, hsw, Option.some.injEq, Prod.mk.injEq] at hs
        obtain ⟨rfl, rfl⟩ := hs
        have e := h2 b hsw
        subst e
        have := ih _ s' e2 (if b = true then false else b) hr h0 (fun _ => by cases b <;> rfl) (fun c hc => by cases hc)
        simp only [List.cons_append, List.nil_append, Right, Quiet, true_and]
        exact this

/-- **C182, exactly when**: a `Parameter` set by an interrupt gives only right answers exactly if no change falls into a call of `isChanged()` before which none was owed. -/
theorem C182_exact (v : α) (sched : List (Act α)) (s : St α) (es : List (Event α)) (h : run (init v) sched = some (s, es)) (hp : s.saw = none) :
    Right true es ↔ Quiet true false es :=
  right_iff sched (init v) s es true h hp (fun _ => rfl) (fun b hb => by cases hb)

/-- both sides hold of the first history and fail of the second -/
example : ∃ s es, run (init (0 : Nat)) [.ask, .set 3, .cont, .set 4, .ask, .set 5, .cont, .ask, .cont] = some (s, es) ∧ s.saw = none ∧ Right true es := ⟨_, _, rfl, rfl, by simp [Right, init, Param.init, Param.set]⟩
example : ∃ s es, run (init (0 : Nat)) [.ask, .cont, .ask, .set 7, .cont] = some (s, es) ∧ s.saw = none ∧ ¬ Right true es := ⟨_, _, rfl, rfl, by simp [Right, init, Param.init, Param.set]⟩

end ParamIsr

namespace TogglerIsr.Compact
open Spec

/-- The schedule without the interrupts that come between the load and the store of the byte when a flag is cleared. -/
def untorn : St → List Act → List Act
  | _, [] => []
  | s, a :: l =>
    match s.pc, a with
    | .loaded _ _, .isr _ => untorn s l
    | _, _ => a :: (match step s a with
      | none => []
      | some (s', _) => untorn s' l)

/-- The answers given. -/
def answers : List Event → List (Bool × Bool)
  | [] => []
  | .answer p b :: l => (p, b) :: answers l
  | _ :: l => answers l

theorem answers_append (a b : List Event) : answers (a ++ b) = answers a ++ answers b := by
  induction a with
  | nil => rfl
  | cons e a ih => cases e <;> simp [answers, ih]

theorem isr_answers (t : TogglerCompact) (i : Isr) : answers (isr t i).2 = [] := by
  cases i with
  | state b => simp only [isr]; split <;> rfl
  | rise => rfl
  | fall => rfl

theorem run_step {s s1 s' : St} {a : Act} {l : List Act} {e1 e2 : List Event} (h1 : step s a = some (s1, e1)) (h2 : run s1 l = some (s', e2)) : run s (a :: l) = some (s', e1 ++ e2) := by
  unfold run; rw [h1]; simp only; rw [h2]

/-- the two runs differ at most in the byte, while it is loaded -/
theorem untorn_run (l : List Act) : ∀ (s u s' : St) (es : List Event), run s l = some (s', es) → (∀ p b, s'.pc ≠ .loaded p b) →
    u.pc = s.pc → ((∀ p b, s.pc ≠ .loaded p b) → u = s) → ∃ es', run u (untorn u l) = some (s', es') ∧ answers es' = answers es := by
  induction l with
  | nil =>
    intro s u s' es h hend _ he
    cases h
    rw [he hend]
    exact ⟨[], rfl, rfl⟩
  | cons a l ih =>
    intro s u s' es h hend hpc he
    obtain ⟨s1, e1, e2, hs, hr, rfl⟩ := run_cons h
    cases hl : s.pc with
    | loaded p byte =>
      have hu : u.pc = .loaded p byte := hpc.trans hl
      cases a with
      | isr i =>
        simp only [step, Option.some.injEq, Prod.mk.injEq] at hs
        obtain ⟨rfl, rfl⟩ := hs
        obtain ⟨es', k1, k2⟩ := ih _ u s' e2 hr hend hpc (fun hn => absurd hl (hn p byte))
        refine ⟨es', ?_, by rw [answers_append, isr_answers]; exact k2⟩
        have : untorn u (.isr i :: l) = untorn u l := by rw [untorn]; all_goals first | exact hu | skip
        rw [this]; exact k1
      | ask q => simp [step, hl] at hs
      | cont =>
        have hsu : step u .cont = some (s1, e1) := by
          rw [← hs]
          simp only [step, hl, hu]
          cases p <;> rfl
        have hn : ∀ p b, s1.pc ≠ .loaded p b := by
          intro q b
          cases p <;> (simp [step, hl] at hs; obtain ⟨rfl, rfl⟩ := hs; exact fun h => by cases h)
        obtain ⟨es', k1, k2⟩ := ih s1 s1 s' e2 hr hend rfl (fun _ => rfl)
        refine ⟨e1 ++ es', ?_, by rw [answers_append, answers_append, k2]⟩
        have : untorn u (.cont :: l) = .cont :: untorn s1 l := by rw [untorn, hsu]; simp
        rw [this]
        exact run_step hsu k1
    | idle =>
      have hus : u = s := he (by rw [hl]; exact fun _ _ h => by cases h)
      subst hus
      obtain ⟨es', k1, k2⟩ := ih s1 s1 s' e2 hr hend rfl (fun _ => rfl)
      refine ⟨e1 ++ es', ?_, by rw [answers_append, answers_append, k2]⟩
      have : untorn u (a :: l) = a :: untorn s1 l := by rw [untorn, hs] <;> simp [hl]
      rw [this]
      exact run_step hs k1
    | saw p =>
      have hus : u = s := he (by rw [hl]; exact fun _ _ h => by cases h)
      subst hus
      obtain ⟨es', k1, k2⟩ := ih s1 s1 s' e2 hr hend rfl (fun _ => rfl)
      refine ⟨e1 ++ es', ?_, by rw [answers_append, answers_append, k2]⟩
      have : untorn u (a :: l) = a :: untorn s1 l := by rw [untorn, hs] <;> simp [hl]
      rw [this]
      exact run_step hs k1

theorem untorn_NoTear (l : List Act) : ∀ s : St, NoTear s (untorn s l) := by
  induction l with
  | nil => intro s; trivial
  | cons a l ih =>
    intro s
    by_cases hw : (∃ p b, s.pc = .loaded p b) ∧ ∃ i, a = .isr i
    · obtain ⟨⟨p, b, h1⟩, i, rfl⟩ := hw
      have e : untorn s (.isr i :: l) = untorn s l := by rw [untorn]; all_goals first | exact h1 | skip
      rw [e]
      exact ih s
    · have e : untorn s (a :: l) = a :: (match step s a with | none => [] | some (s', _) => untorn s' l) := by
        rw [untorn]
        intro p b i h1 h2
        exact hw ⟨⟨p, b, h1⟩, i, h2⟩
      rw [e]
      refine ⟨fun p b h i hi => hw ⟨⟨p, b, h⟩, i, hi⟩, fun s' e' hs => ?_⟩
      rw [hs]
      exact ih s'

/-- **C169, exactly what is lost**: a `TogglerCompact` fed by an interrupt behaves, in every schedule, as if the interrupts between the load and the store of its byte had not happened: the same answers and the same state at the end;
and without those interrupts it behaves rightly (`C169_compact_partial`). -/
theorem C169_compact_exact (sched : List Act) (s : St) (es : List Event) (h : run init sched = some (s, es)) (hp : s.pc = .idle) :
    ∃ es', run init (untorn init sched) = some (s, es') ∧ answers es' = answers es ∧ NoTear init (untorn init sched) ∧
      ∀ p, (owed p false es' = true → step s (.ask p) = some ({ s with pc := .saw p }, [])) ∧ (owed p false es' = false → step s (.ask p) = some (s, [.answer p false])) ∧ s.t.isHigh = level false es' := by
  obtain ⟨es', k1, k2⟩ := untorn_run sched init init s es h (by rw [hp]; exact fun _ _ h => by cases h) rfl (fun _ => rfl)
  exact ⟨es', k1, k2, untorn_NoTear sched init, fun p => C169_compact_partial _ s es' k1 (untorn_NoTear sched init) hp p⟩

/-- the release and the second press, both between load and store, are forgotten -/
example : untorn init [.isr (.state true), .ask true, .cont, .isr (.state false), .isr (.state true), .cont, .ask false] = [.isr (.state true), .ask true, .cont, .cont, .ask false] ∧
    (run init [.isr (.state true), .ask true, .cont, .isr (.state false), .isr (.state true), .cont, .ask false]).map (fun r => answers r.2) = some [(true, true), (false, false)] := by decide

end TogglerIsr.Compact

namespace PollIsr

/-- two states that differ at most in the time of the last sample, which is about to be overwritten -/
def SameButLast (s t : St) : Prop := (∃ now b, s.pc = .stamp now b) ∧ s.pc = t.pc ∧ s.taking = t.taking ∧ s.p.current = t.p.current ∧ s.p.changed = t.p.changed

theorem same_step (ticks : BitVec 32) (s t : St) (h : SameButLast s t) (a : Act) (ha : a ≠ .pollStep) :
    SameButLast (step ticks s a).1 (step ticks t a).1 ∧ (step ticks s a).2 = (step ticks t a).2 := by
  obtain ⟨⟨c1, d1, l1⟩, pc1, tk1⟩ := s
  obtain ⟨⟨c2, d2, l2⟩, pc2, tk2⟩ := t
  obtain ⟨⟨now, b, h1⟩, h2, h3, h4, h5⟩ := h
  simp only at h1 h2 h3 h4 h5
  subst h1 h3 h4 h5
  subst h2
  cases a with
  | pollStep => exact absurd rfl ha
  | poll n b' => exact ⟨⟨⟨now, b, rfl⟩, rfl, rfl, rfl, rfl⟩, rfl⟩
  | take => cases tk1 <;> cases d1 <;> exact ⟨⟨⟨now, b, rfl⟩, rfl, rfl, rfl, rfl⟩, rfl⟩
  | takeStep => cases tk1 <;> exact ⟨⟨⟨now, b, rfl⟩, rfl, rfl, rfl, rfl⟩, rfl⟩
  | reset => exact ⟨⟨⟨now, b, rfl⟩, rfl, rfl, rfl, rfl⟩, rfl⟩
  | force => exact ⟨⟨⟨now, b, rfl⟩, rfl, rfl, rfl, rfl⟩, rfl⟩

theorem same_run (ticks : BitVec 32) (l : List Act) : ∀ (s t : St), SameButLast s t → (∀ a ∈ l, a ≠ .pollStep) → ∀ r, run ticks s (l ++ .pollStep :: r) = run ticks t (l ++ .pollStep :: r) := by
  induction l with
  | nil =>
    intro s t h _ r
    obtain ⟨⟨l1, c1, d1⟩, pc1, tk1⟩ := s
    obtain ⟨⟨l2, c2, d2⟩, pc2, tk2⟩ := t
    obtain ⟨⟨now, b, h1⟩, h2, h3, h4, h5⟩ := h
    simp only at h1 h2 h3 h4 h5
    subst h1 h3 h4 h5
    subst h2
    rfl
  | cons a l ih =>
    intro s t h hl r
    obtain ⟨k1, k2⟩ := same_step ticks s t h a (hl a (by simp))
    simp only [List.cons_append, run]
    rw [ih _ _ k1 (fun b hb => hl b (by simp [hb])) r, k2]

/-- **C215, exactly what is lost**: `force_next_poll()` called while a poll has decided to sample and not yet stored its time changes nothing at all, whatever happens meanwhile (`mid`) and afterwards (`rest`); at all other moments it
works (`C215_force_partial`). -/
theorem C215_force_exact (ticks : BitVec 32) (s : St) (now : BitVec 32) (b : Bool) (hs : s.pc = .stamp now b) (mid rest : List Act) (hm : ∀ a ∈ mid, a ≠ .pollStep) :
    run ticks s (.force :: (mid ++ .pollStep :: rest)) = run ticks s (mid ++ .pollStep :: rest) := by
  have : SameButLast (step ticks s .force).1 s := ⟨⟨now, b, hs⟩, rfl, rfl, rfl, rfl⟩
  rw [← same_run ticks mid _ _ this hm rest]
  rfl

example : (run 100 {} [.poll 1000 false]).1.pc = .stamp 1000 false ∧ ∀ a ∈ [Act.take, .reset], a ≠ .pollStep := by decide

end PollIsr
