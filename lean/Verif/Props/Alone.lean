import Verif.Spec.NoWait
import Verif.Model.MotionIsr
import Verif.Model.TogglerIsr
import Verif.Model.ParamIsr
import Verif.Model.OscIsr
import Verif.Model.FiltConc
import Verif.Model.MeterIsr
import Verif.Model.CircBufIsr
/-! # C267: a call that no interrupt cuts into does what it does in a program without interrupts

Each theorem sets a call split into its steps against the model of the whole call. -/
namespace Alone

/-- **C267**: RotaryMotion. Adding is exact in the split model, so the sums have to be in range. -/
theorem C267_motion (sh ow : Rotary) :
    MotionIsr.run ⟨sh, ow, .idle⟩ [.use, .cont] = some (⟨sh.useMotion.2, ow, .idle⟩, [.load, .used sh.useMotion.1]) ∧
    (∀ ow' sh', ow.transferMotion sh = .ok (ow', sh') → MotionIsr.run ⟨sh, ow, .idle⟩ [.transfer, .cont] = some (⟨sh', ow', .idle⟩, [.load, .used sh.motion])) ∧
    ∀ ow', ow.addMotion sh = .ok ow' → MotionIsr.run ⟨sh, ow, .idle⟩ [.add, .cont] = some (⟨sh, ow', .idle⟩, []) := by
  refine ⟨rfl, ?_, ?_⟩
  · intro ow' sh' h
    replace h : (Rotary.addI ow.motion sh.motion >>= fun m => Rotary.addI ow.absPos sh.motion >>= fun a =>
      R.ok (({ absPos := a, motion := m } : Rotary), ({ sh with motion := 0 } : Rotary))) = .ok (ow', sh') := h
    simp only [Rotary.addI] at h
    by_cases h1 : -2147483648 ≤ ow.motion + sh.motion ∧ ow.motion + sh.motion < 2147483648
    · by_cases h2 : -2147483648 ≤ ow.absPos + sh.motion ∧ ow.absPos + sh.motion < 2147483648
      · rw [if_pos h1, if_pos h2] at h
        simp only [R.bind_ok, R.ok.injEq, Prod.mk.injEq] at h
        obtain ⟨rfl, rfl⟩ := h
        rfl
      · rw [if_pos h1, if_neg h2] at h; cases h
    · rw [if_neg h1] at h; cases h
  · intro ow' h
    simp only [Rotary.addMotion, Rotary.addI] at h
    by_cases h1 : -2147483648 ≤ ow.motion + sh.motion ∧ ow.motion + sh.motion < 2147483648
    · by_cases h2 : -2147483648 ≤ ow.absPos + sh.motion ∧ ow.absPos + sh.motion < 2147483648
      · rw [if_pos h1, if_pos h2] at h
        simp only [R.bind_ok, R.ok.injEq] at h
        subst h
        rfl
      · rw [if_pos h1, if_neg h2] at h; cases h
    · rw [if_neg h1] at h; cases h

/-- **C267**: ChangeDetector. -/
theorem C267_change (c : ChangeDet) :
    MotionIsr.Change.run ⟨c, false⟩ (if c.changed then [.ask, .cont] else [.ask]) = some (⟨c.takeChanged.2, false⟩, [.answer c.takeChanged.1]) := by
  cases h : c.changed <;> simp [MotionIsr.Change.run, MotionIsr.Change.step, ChangeDet.takeChanged, h]

/-- **C267**: Toggler. -/
theorem C267_toggler (t : Toggler) :
    TogglerIsr.run ⟨t, .idle⟩ (if t.rising then [.ask true, .cont] else [.ask true]) = some (⟨t.isJustPressed.2, .idle⟩, [.answer true t.isJustPressed.1]) ∧
    TogglerIsr.run ⟨t, .idle⟩ (if t.falling then [.ask false, .cont] else [.ask false]) = some (⟨t.isJustReleased.2, .idle⟩, [.answer false t.isJustReleased.1]) := by
  constructor
  · cases h : t.rising <;> simp [TogglerIsr.run, TogglerIsr.step, Toggler.isJustPressed, h]
  · cases h : t.falling <;> simp [TogglerIsr.run, TogglerIsr.step, Toggler.isJustReleased, h]

/-- **C267**: TogglerCompact. -/
theorem C267_compact (t : TogglerCompact) :
    TogglerIsr.Compact.run ⟨t, .idle⟩ (if t.rising ≠ 0 then [.ask true, .cont, .cont] else [.ask true]) = some (⟨t.isJustPressed.2, .idle⟩, [.answer true t.isJustPressed.1]) ∧
    TogglerIsr.Compact.run ⟨t, .idle⟩ (if t.falling ≠ 0 then [.ask false, .cont, .cont] else [.ask false]) = some (⟨t.isJustReleased.2, .idle⟩, [.answer false t.isJustReleased.1]) := by
  obtain ⟨h, r, f⟩ := t
  constructor
  · by_cases h : r = 0#1 <;> simp [TogglerIsr.Compact.run, TogglerIsr.Compact.step, TogglerCompact.isJustPressed, h]
  · by_cases h : f = 0#1 <;> simp [TogglerIsr.Compact.run, TogglerIsr.Compact.step, TogglerCompact.isJustReleased, h]

/-- **C267**: Parameter, RefParameter and LatchedParam. -/
theorem C267_param {α : Type} [DecidableEq α] (p : Param α) (r : RefParam α) (l : Latched Int) (m : Int) :
    ParamIsr.run ⟨p, none⟩ [.ask, .cont] = some (⟨p.isChanged.1, none⟩, [.begin, .answer p.isChanged.2]) ∧
    ParamIsr.Ref.run ⟨r, false⟩ (if r.ref = r.last then [.ask] else [.ask, .cont]) = some (⟨r.isChanged.1, false⟩, [.begin, .answer r.isChanged.2]) ∧
    ParamIsr.Latch.run m ⟨l, false⟩ (if l.changed then [.ask, .cont] else [.ask]) = some (⟨l.didChange.1, false⟩, [.begin, .answer l.didChange.2]) := by
  refine ⟨rfl, ?_, ?_⟩
  · by_cases h : r.ref = r.last <;> simp [ParamIsr.Ref.run, ParamIsr.Ref.step, RefParam.isChanged, h]
  · cases h : l.changed <;> simp [ParamIsr.Latch.run, ParamIsr.Latch.step, Latched.didChange, h]

/-- **C267**: oscillators and one-shots. -/
theorem C267_osc (a : Oscs.Accum) (o : Oscs.OneShot) :
    OscIsr.run (a, .idle) [.update, .cont, .cont] = some (a.update, .idle) ∧
    OscIsr.runO (fun w => w - o.inc) (o.width, .idle) (if o.width > 0 then [.update, .cont, .cont] else [.update]) =
      some ((o.update.1.width, .idle), if o.width > 0 then [.test, .load, .ret o.update.2] else [.ret o.update.2]) := by
  refine ⟨rfl, ?_⟩
  by_cases h : o.width > 0 <;> simp [OscIsr.runO, OscIsr.stepO, Oscs.OneShot.update, h]

/-- **C267**: PeakMeter. -/
theorem C267_meter {α : Type} [LinearOrder α] (p : Peak α) (v hi lo : α) :
    MeterIsr.mainUpdate ⟨p.min, p.max⟩ v [] [] [] = ⟨(p.update v).min, (p.update v).max⟩ ∧
    MeterIsr.mainReset ⟨p.min, p.max⟩ hi lo [] = ⟨(Peak.init lo hi).min, (Peak.init lo hi).max⟩ := by
  refine ⟨?_, rfl⟩
  simp only [MeterIsr.mainUpdate, MeterIsr.calls, List.foldl_nil, Peak.update, decide_eq_true_eq, gt_iff_lt]
  by_cases h : v < p.min <;> by_cases h' : p.max < v <;> simp [h, h']

/-- **C267**: CircularBuffer and CircularBufferOpt. Seven steps are enough for every call; going on after it has returned changes nothing. -/
theorem C267_circular {T : Type} (N : Nat) (b : CircBuf.St T) :
    CircBufIsr.run N ⟨b, .idle⟩ (.get :: List.replicate 7 .cont) =
      CircBuf.getOpt N b >>= fun r => R.ok (⟨r.1, .idle⟩, if b.full then [.call, .answer r.2] else [.call, .look, .answer r.2]) := by
  obtain ⟨buf, head, tail, full⟩ := b
  cases full with
  | true =>
    cases h : arrGet buf tail <;>
      simp [CircBufIsr.run, CircBufIsr.step, CircBuf.getOpt, CircBuf.empty, CircBuf.incTail, h, List.replicate, R.bind_ok, R.pure_eq, bind, R.bind]
  | false =>
    by_cases he : head = tail
    · simp [CircBufIsr.run, CircBufIsr.step, CircBuf.getOpt, CircBuf.empty, he, List.replicate, R.bind_ok, R.pure_eq]
    · cases h : arrGet buf tail <;>
        simp [CircBufIsr.run, CircBufIsr.step, CircBuf.getOpt, CircBuf.empty, CircBuf.incTail, he, h, List.replicate, R.bind_ok, R.pure_eq, bind, R.bind]

section readings
variable {N : Nat} {φ : Type} (addVal : φ → ℚ → φ × ℚ)

theorem run_snoc (c c1 c2 : FiltConc.Cfg N φ) (e1 e2 : List (FiltConc.Event N)) (l : List (FiltConc.Act N)) (a : FiltConc.Act N)
    (h1 : FiltConc.run addVal c l = some (c1, e1)) (h2 : FiltConc.step addVal c1 a = some (c2, e2)) : FiltConc.run addVal c (l ++ [a]) = some (c2, e1 ++ e2) := by
  induction l generalizing c e1 with
  | nil =>
    simp only [FiltConc.run, Option.some.injEq, Prod.mk.injEq] at h1
    obtain ⟨rfl, rfl⟩ := h1
    simp [FiltConc.run, h2]
  | cons b l ih =>
    simp only [FiltConc.run, List.cons_append] at h1 ⊢
    cases hs : FiltConc.step addVal c b with
    | none => simp [hs] at h1
    | some r =>
      obtain ⟨c', e⟩ := r
      simp only [hs] at h1 ⊢
      cases hr : FiltConc.run addVal c' l with
      | none => simp [hr] at h1
      | some r =>
        obtain ⟨c'', e'⟩ := r
        simp only [hr, Option.some.injEq, Prod.mk.injEq] at h1
        obtain ⟨rfl, rfl⟩ := h1
        simp [ih c' e' hr]

/-- the array after the turns for the channels below `i` -/
def upTo (a : FilteredInterp N φ) (raw : Fin N → ℚ) (i : Nat) : FilteredInterp N φ :=
  let num := if a.count > 0 then a.count else a.num
  { a with
    ready := false, num := num
    interps := fun j => if j.val < i then (a.interps j).setNew (addVal (a.filters j) (raw j)).2 num else a.interps j
    filters := fun j => if j.val < i then (addVal (a.filters j) (raw j)).1 else a.filters j }

theorem upTo_turn (a : FilteredInterp N φ) (raw : Fin N → ℚ) (i : Nat) (h : i < N) :
    FiltConc.turn addVal (upTo addVal a raw i) ⟨i, h⟩ (raw ⟨i, h⟩) = upTo addVal a raw (i + 1) := by
  simp only [FiltConc.turn, upTo, FilteredInterp.mk.injEq, lt_irrefl, if_false, true_and, and_true]
  constructor <;>
  · funext j
    by_cases hj : j = ⟨i, h⟩
    · subst hj; simp
    · have : j.val ≠ i := fun e => hj (Fin.ext e)
      rw [Function.update_of_ne hj]
      by_cases h2 : j.val < i
      · have h3 : j.val < i + 1 := by omega
        simp only [h2, h3, if_true]
      · have h3 : ¬ j.val < i + 1 := by omega
        simp only [h2, h3, if_false]

theorem run_turns (a : FilteredInterp N φ) (raw : Fin N → ℚ) (hr : a.ready = true) : ∀ i, i ≤ N →
    ∃ es, FiltConc.run addVal ⟨a, raw, .idle⟩ (.call :: .cont :: List.replicate i .cont) = some (⟨upTo addVal a raw i, raw, .reading i⟩, es) := by
  intro i
  induction i with
  | zero =>
    intro _
    refine ⟨[], ?_⟩
    simp [FiltConc.run, FiltConc.step, hr, upTo]
  | succ i ih =>
    intro hi
    obtain ⟨es, h⟩ := ih (by omega)
    refine ⟨es ++ [.got ⟨i, by omega⟩ (raw ⟨i, by omega⟩)], ?_⟩
    have e : (FiltConc.Act.call :: .cont :: List.replicate (i + 1) .cont : List (FiltConc.Act N)) = (.call :: .cont :: List.replicate i .cont) ++ [.cont] := by
      rw [List.replicate_succ']; rfl
    rw [e]
    refine run_snoc addVal _ _ _ _ _ _ _ h ?_
    simp only [FiltConc.step, dif_pos (show i < N by omega), upTo_turn]

/-- **C267**: FilteredInterpArray, with any number of channels and any filter. -/
theorem C267_readings (a : FilteredInterp N φ) (raw : Fin N → ℚ) :
    ∃ es, FiltConc.run addVal ⟨a, raw, .idle⟩ (if a.ready then .call :: List.replicate (N + 2) .cont else [.call]) = some (⟨a.add addVal raw, raw, .idle⟩, es) := by
  by_cases hr : a.ready = true
  · rw [if_pos hr]
    obtain ⟨es, h⟩ := run_turns addVal a raw hr N le_rfl
    refine ⟨es ++ [.ended], ?_⟩
    have e : (FiltConc.Act.call :: List.replicate (N + 2) .cont : List (FiltConc.Act N)) = (.call :: .cont :: List.replicate N .cont) ++ [.cont] := by
      rw [List.replicate_succ, List.replicate_succ']; rfl
    rw [e]
    refine run_snoc addVal _ _ _ _ _ _ _ h ?_
    simp [FiltConc.step, upTo, FilteredInterp.add, hr]
  · rw [if_neg hr]
    exact ⟨[], by simp [FiltConc.run, FiltConc.step, FilteredInterp.add, hr]⟩

end readings

/-- motion that is there and in range -/
example : (⟨1, 2⟩ : Rotary).transferMotion ⟨5, 7⟩ = .ok (⟨8, 9⟩, ⟨5, 0⟩) ∧
    MotionIsr.run ⟨⟨5, 7⟩, ⟨1, 2⟩, .idle⟩ [.transfer, .cont] = some (⟨⟨5, 0⟩, ⟨8, 9⟩, .idle⟩, [.load, .used 7]) := by decide

/-- with an interrupt in between, its 3 are lost: the whole call before or after it would leave or hand them over -/
example : MotionIsr.run ⟨⟨5, 7⟩, ⟨1, 2⟩, .idle⟩ [.transfer, .turn 3, .cont] = some (⟨⟨8, 0⟩, ⟨8, 9⟩, .idle⟩, [.load, .turn 3, .used 7]) := by decide

end Alone
