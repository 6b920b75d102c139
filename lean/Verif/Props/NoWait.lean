import Verif.Spec.NoWait
import Verif.Model.MotionIsr
import Verif.Model.TogglerIsr
import Verif.Model.ParamIsr
import Verif.Model.OscIsr
import Verif.Model.FiltConc
/-! # C266: calls that share an object with an interrupt do not wait for it -/
namespace NoWait
variable {σ α : Type}

theorem steps_left {step : σ → α → Option σ} {isr : α → Prop} {left : σ → Nat}
    (hi : ∀ s a, isr a → ∃ s', step s a = some s' ∧ left s' = left s) : ∀ (b : List α) (s : σ), (∀ a ∈ b, isr a) →
    ∃ s', steps step s b = some s' ∧ left s' = left s := by
  intro b
  induction b with
  | nil => intro s _; exact ⟨s, rfl, rfl⟩
  | cons a b ih =>
    intro s h
    obtain ⟨s1, h1, h2⟩ := hi s a (h a (by simp))
    obtain ⟨s2, h3, h4⟩ := ih s1 fun a ha => h a (by simp [ha])
    exact ⟨s2, by simp only [steps, h1, Option.bind_some, h3], by omega⟩

/-- It is enough to count down the steps that are left. -/
theorem of_left {step : σ → α → Option σ} {isr call : α → Prop} {cont : α} {busy : σ → Bool} {k : Nat} (left : σ → Nat)
    (hb : ∀ s, busy s = true ↔ 0 < left s) (hk : ∀ s, left s ≤ k) (hi : ∀ s a, isr a → ∃ s', step s a = some s' ∧ left s' = left s)
    (hc : ∀ s a, call a → busy s = false → ∃ s', step s a = some s') (hl : ∀ s, 0 < left s → ∃ s', step s cont = some s' ∧ left s' < left s) :
    Holds step isr call cont busy k := by
  refine ⟨fun s a h => ?_, hc, ?_⟩
  · obtain ⟨s', h1, h2⟩ := hi s a h
    refine ⟨s', h1, ?_⟩
    rw [Bool.eq_iff_iff, hb, hb, h2]
  · have key : ∀ (bs : List (List α)) (s : σ), (∀ b ∈ bs, ∀ a ∈ b, isr a) → left s ≤ bs.length →
        ∃ s', goOn step cont busy s bs = some s' ∧ busy s' = false := by
      intro bs
      induction bs with
      | nil =>
        intro s _ h
        refine ⟨s, rfl, ?_⟩
        rw [Bool.eq_false_iff, ne_eq, hb]
        simp only [List.length_nil] at h
        omega
      | cons b bs ih =>
        intro s h hn
        unfold goOn
        by_cases hs : busy s = true
        · rw [if_pos hs]
          obtain ⟨s1, h1, h2⟩ := steps_left hi b s (h b (by simp))
          obtain ⟨s2, h3, h4⟩ := hl s1 (by rw [h2]; exact (hb s).mp hs)
          obtain ⟨s3, h5, h6⟩ := ih s2 (fun b hb => h b (by simp [hb])) (by simp only [List.length_cons] at hn; omega)
          exact ⟨s3, by rw [h1, Option.bind_some, h3, Option.bind_some, h5], h6⟩
        · rw [if_neg hs]
          exact ⟨s, rfl, by simpa using hs⟩
    intro s bs h hn
    exact key bs s h (Nat.le_trans (hk s) hn)

/-- **C266**: RotaryMotion: use_motion(), transfer_motion() and add_motion(), with the interrupt turning the encoder. -/
theorem C266_motion : Holds (fun s a => (MotionIsr.step s a).map (·.1)) (fun a => ∃ d, a = .turn d) (fun a => a = .use ∨ a = .transfer ∨ a = .add) .cont
    (fun s => s.pc != .idle) 1 := by
  refine of_left (fun s => if s.pc = .idle then 0 else 1) ?_ ?_ ?_ ?_ ?_
  · intro s; by_cases h : s.pc = .idle <;> simp [h]
  · intro s; show ite _ _ _ ≤ 1; split <;> omega
  · rintro s _ ⟨d, rfl⟩; exact ⟨_, rfl, rfl⟩
  · rintro s a h hb
    have hb : s.pc = .idle := by simpa using hb
    rcases h with rfl | rfl | rfl <;> simp [MotionIsr.step, hb]
  · rintro ⟨sh, ow, pc⟩ h
    match pc with
    | .idle => simp at h
    | .read false v => exact ⟨_, rfl, by simp⟩
    | .read true v => exact ⟨_, rfl, by simp⟩
    | .added => exact ⟨_, rfl, by simp⟩

/-- **C266**: ChangeDetector: changed(), with the interrupt calling update(). -/
theorem C266_change : Holds (fun s a => (MotionIsr.Change.step s a).map (·.1)) (fun a => ∃ b, a = .update b) (fun a => a = .ask) .cont
    (fun s => s.saw) 1 := by
  refine of_left (fun s => if s.saw then 1 else 0) ?_ ?_ ?_ ?_ ?_
  · intro s; cases h : s.saw <;> simp
  · intro s; show ite _ _ _ ≤ 1; split <;> omega
  · rintro s _ ⟨d, rfl⟩; exact ⟨_, rfl, rfl⟩
  · rintro ⟨c, sw⟩ a rfl hb
    simp only at hb
    subst hb
    cases h : c.changed <;> simp [MotionIsr.Change.step, h]
  · rintro ⟨c, sw⟩ h
    cases sw with
    | false => simp at h
    | true => exact ⟨_, rfl, by simp⟩

/-- **C266**: Toggler: is_just_pressed() and is_just_released(), with the interrupt registering states and edges. -/
theorem C266_toggler : Holds (fun s a => (TogglerIsr.step s a).map (·.1)) (fun a => ∃ i, a = .isr i) (fun a => ∃ p, a = .ask p) .cont
    (fun s => s.pc != .idle) 1 := by
  refine of_left (fun s => if s.pc = .idle then 0 else 1) ?_ ?_ ?_ ?_ ?_
  · intro s; by_cases h : s.pc = .idle <;> simp [h]
  · intro s; show ite _ _ _ ≤ 1; split <;> omega
  · rintro s _ ⟨d, rfl⟩; exact ⟨_, rfl, rfl⟩
  · rintro s a ⟨p, rfl⟩ hb
    have hb : s.pc = .idle := by simpa using hb
    by_cases h : (if p = true then s.t.rising else s.t.falling) = true <;> simp [TogglerIsr.step, hb, h]
  · rintro ⟨t, pc⟩ h
    match pc with
    | .idle => simp at h
    | .saw true => exact ⟨_, rfl, by simp⟩
    | .saw false => exact ⟨_, rfl, by simp⟩

/-- **C266**: TogglerCompact, whose calls store by loading and storing a byte. -/
theorem C266_compact : Holds (fun s a => (TogglerIsr.Compact.step s a).map (·.1)) (fun a => ∃ i, a = .isr i) (fun a => ∃ p, a = .ask p) .cont
    (fun s => s.pc != .idle) 2 := by
  refine of_left (fun s => match s.pc with | .idle => 0 | .saw _ => 2 | .loaded _ _ => 1) ?_ ?_ ?_ ?_ ?_
  · rintro ⟨t, pc⟩; cases pc <;> simp
  · rintro ⟨t, pc⟩; cases pc <;> simp
  · rintro s _ ⟨d, rfl⟩; exact ⟨_, rfl, rfl⟩
  · rintro s a ⟨p, rfl⟩ hb
    have hb : s.pc = .idle := by simpa using hb
    by_cases h : (if p = true then s.t.rising else s.t.falling) ≠ 0
    · exact ⟨_, by simp only [TogglerIsr.Compact.step, hb]; rw [if_pos trivial, if_pos h]; rfl⟩
    · exact ⟨_, by simp only [TogglerIsr.Compact.step, hb]; rw [if_pos trivial, if_neg h]; rfl⟩
  · rintro ⟨t, pc⟩ h
    match pc with
    | .idle => simp at h
    | .saw p => exact ⟨_, rfl, by simp⟩
    | .loaded true b => exact ⟨_, rfl, by simp⟩
    | .loaded false b => exact ⟨_, rfl, by simp⟩

/-- **C266**: Parameter, RefParameter and LatchedParam: isChanged() and did_change(), with the interrupt setting the value. -/
theorem C266_param {β : Type} [DecidableEq β] (m : Int) :
    Holds (fun s a => (ParamIsr.step (α := β) s a).map (·.1)) (fun a => ∃ v, a = .set v) (fun a => a = .ask) .cont (fun s => s.saw.isSome) 1 ∧
    Holds (fun s a => (ParamIsr.Ref.step (α := β) s a).map (·.1)) (fun a => ∃ v, a = .set v) (fun a => a = .ask) .cont (fun s => s.saw) 1 ∧
    Holds (fun s a => (ParamIsr.Latch.step m s a).map (·.1)) (fun a => ∃ v, a = .set v) (fun a => a = .ask) .cont (fun s => s.saw) 1 := by
  refine ⟨?_, ?_, ?_⟩
  · refine of_left (fun s => if s.saw.isSome then 1 else 0) ?_ ?_ ?_ ?_ ?_
    · intro s; cases h : s.saw <;> simp
    · intro s; show ite _ _ _ ≤ 1; split <;> omega
    · rintro s _ ⟨d, rfl⟩; exact ⟨_, rfl, rfl⟩
    · rintro ⟨c, sw⟩ a rfl hb
      cases sw with
      | none => simp [ParamIsr.step]
      | some b => simp at hb
    · rintro ⟨c, sw⟩ h
      cases sw with
      | none => simp at h
      | some b => exact ⟨_, rfl, by simp⟩
  · refine of_left (fun s => if s.saw then 1 else 0) ?_ ?_ ?_ ?_ ?_
    · intro s; cases h : s.saw <;> simp
    · intro s; show ite _ _ _ ≤ 1; split <;> omega
    · rintro s _ ⟨d, rfl⟩; exact ⟨_, rfl, rfl⟩
    · rintro ⟨c, sw⟩ a rfl hb
      simp only at hb
      subst hb
      by_cases h : c.ref = c.last <;> simp [ParamIsr.Ref.step, h]
    · rintro ⟨c, sw⟩ h
      cases sw with
      | false => simp at h
      | true => exact ⟨_, rfl, by simp⟩
  · refine of_left (fun s => if s.saw then 1 else 0) ?_ ?_ ?_ ?_ ?_
    · intro s; cases h : s.saw <;> simp
    · intro s; show ite _ _ _ ≤ 1; split <;> omega
    · rintro ⟨⟨va, ch⟩, sw⟩ _ ⟨d, rfl⟩
      simp only [ParamIsr.Latch.step, Latched.store, if_true]
      by_cases h : (if d ≥ va then d - va else va - d) ≥ m
      · rw [if_pos h]; exact ⟨_, rfl, rfl⟩
      · rw [if_neg h]; exact ⟨_, rfl, rfl⟩
    · rintro ⟨c, sw⟩ a rfl hb
      simp only at hb
      subst hb
      cases h : c.changed <;> simp [ParamIsr.Latch.step, h]
    · rintro ⟨c, sw⟩ h
      cases sw with
      | false => simp at h
      | true => exact ⟨_, rfl, by simp⟩

/-- **C266**: oscillators and one-shots: update(), with the interrupt setting phase, frequency or width. -/
theorem C266_osc (dec : ℚ → ℚ) :
    Holds OscIsr.step (fun a => ∃ x, a = .isr x) (fun a => a = .update) .cont (fun s => s.2 != .idle) 2 ∧
    Holds (fun s a => (OscIsr.stepO dec s a).map (·.1)) (fun a => ∃ w, a = .isr w) (fun a => a = .update) .cont (fun s => s.2 != .idle) 2 := by
  constructor
  · refine of_left (fun s => match s.2 with | .idle => 0 | .loaded _ => 2 | .both _ _ => 1) ?_ ?_ ?_ ?_ ?_
    · rintro ⟨t, pc⟩; cases pc <;> simp
    · rintro ⟨t, pc⟩; cases pc <;> simp
    · rintro s _ ⟨d, rfl⟩; exact ⟨_, rfl, rfl⟩
    · rintro s a rfl hb
      have hb : s.2 = .idle := by simpa using hb
      simp [OscIsr.step, hb]
    · rintro ⟨t, pc⟩ h
      match pc with
      | .idle => simp at h
      | .loaded p => exact ⟨_, rfl, by simp⟩
      | .both p i => exact ⟨_, rfl, by simp⟩
  · refine of_left (fun s => match s.2 with | .idle => 0 | .tested => 2 | .loaded _ => 1) ?_ ?_ ?_ ?_ ?_
    · rintro ⟨t, pc⟩; cases pc <;> simp
    · rintro ⟨t, pc⟩; cases pc <;> simp
    · rintro s _ ⟨d, rfl⟩; exact ⟨_, rfl, rfl⟩
    · rintro ⟨t, pc⟩ a rfl hb
      have hb : pc = .idle := by simpa using hb
      by_cases h : t > 0 <;> simp [OscIsr.stepO, hb, h]
    · rintro ⟨t, pc⟩ h
      match pc with
      | .idle => simp at h
      | .tested => exact ⟨_, rfl, by simp⟩
      | .loaded w => exact ⟨_, rfl, by simp⟩

/-- **C266**: FilteredInterpArray of `N` channels: add_new_readings() and get_interp_values(), with the interrupt writing and announcing readings. -/
theorem C266_readings {N : Nat} {φ : Type} (addVal : φ → ℚ → φ × ℚ) :
    Holds (fun s a => (FiltConc.step (N := N) addVal s a).map (·.1)) (fun a => a = .mark ∨ ∃ i v, a = .write i v) (fun a => a = .call ∨ a = .get) .cont
      (fun s => s.pc != .idle) (N + 2) := by
  refine of_left (fun s => match s.pc with | .idle => 0 | .loaded => N + 2 | .reading i => N - i + 1) ?_ ?_ ?_ ?_ ?_
  · rintro ⟨a, r, pc⟩; cases pc <;> simp
  · rintro ⟨a, r, pc⟩; cases pc <;> simp; omega
  · rintro s a (rfl | ⟨i, v, rfl⟩) <;> exact ⟨_, rfl, rfl⟩
  · rintro s a h hb
    have hb : s.pc = .idle := by simpa using hb
    rcases h with rfl | rfl <;> simp [FiltConc.step, hb]
  · rintro ⟨a, r, pc⟩ h
    match pc with
    | .idle => simp at h
    | .loaded => exact ⟨_, rfl, by simp⟩
    | .reading i =>
      by_cases hi : i < N
      · refine ⟨_, by simp only [FiltConc.step, dif_pos hi, Option.map_some]; rfl, ?_⟩
        simp only
        omega
      · refine ⟨_, by simp only [FiltConc.step, dif_neg hi, Option.map_some]; rfl, ?_⟩
        simp

/-- a call of is_just_pressed() on a TogglerCompact with three interrupts in it: it has returned after its two steps -/
example : let s : TogglerIsr.Compact.St := ⟨{ rising := 1, falling := 0 }, .saw true⟩
    (goOn (fun s a => (TogglerIsr.Compact.step s a).map (·.1)) .cont (fun s => s.pc != .idle) s [[.isr .fall], [.isr .rise, .isr (.state true)]]).map (·.pc) = some .idle ∧
    (goOn (fun s a => (TogglerIsr.Compact.step s a).map (·.1)) .cont (fun s => s.pc != .idle) s [[.isr .fall]]).map (·.pc) ≠ some .idle := by decide

end NoWait
