import Verif.Spec.ParamCopy
/-! # Property C212: parameters assigned from one another -/

namespace ParamCopy
variable {ι α : Type} [DecidableEq ι] [DecidableEq α]

/-- What the program sees of the parameters: `getValue()` and what `isChanged()` would answer. -/
def seen (w : ι → Param α) : ι → α × Bool := fun k => ((w k).cur, (w k).isChanged.2)

/-- **C212.** Through every history every parameter has the value last set or assigned. -/
theorem C212_value (ops : List (Op ι α)) (w : ι → Param α) (s : ι → α × Bool) (h : ∀ k, (w k).cur = (s k).1) (k : ι) :
    (seen (ops.foldl step w) k).1 = (ops.foldl Spec.step s k).1 := by
  induction ops generalizing w s with
  | nil => exact h k
  | cons o ops ih =>
    rw [List.foldl_cons, List.foldl_cons]
    refine ih _ _ (fun k => ?_)
    cases o with
    | set i v =>
      show (if k = i then (w i).set v else w k).cur = (if k = i then (v, (s i).2 || decide (v ≠ (s i).1)) else s k).1
      split
      · show (if v ≠ (w i).cur then (⟨v, true⟩ : Param α) else w i).cur = v
        split
        · rfl
        · next h' => exact (Decidable.not_not.mp h').symm
      · exact h k
    | check i =>
      show (if k = i then (w i).isChanged.1 else w k).cur = (if k = i then ((s i).1, false) else s k).1
      split
      · exact h i
      · exact h k
    | assign i j =>
      show (if k = i then copyAssign (w i) (w j) else w k).cur = (if k = i then ((s j).1, (s i).2 || decide ((s j).1 ≠ (s i).1)) else s k).1
      split
      · exact h j
      · exact h k

/-- Every assignment of the history leaves the flag as it should be: the one assigned from has an unreported change exactly if the one assigned to has one or the two values differ. -/
def Faithful : List (Op ι α) → (ι → Param α) → Prop
  | [], _ => True
  | .assign i j :: ops, w => ((w j).changed = true ↔ (w i).changed = true ∨ (w j).cur ≠ (w i).cur) ∧ Faithful ops (step w (.assign i j))
  | o :: ops, w => Faithful ops (step w o)

theorem step_seen (w : ι → Param α) (o : Op ι α) (h : Faithful [o] w) : seen (step w o) = Spec.step (seen w) o := by
  funext k
  cases o with
  | set i v =>
    show ((if k = i then (w i).set v else w k).cur, (if k = i then (w i).set v else w k).changed) = if k = i then (v, (w i).changed || decide (v ≠ (w i).cur)) else ((w k).cur, (w k).changed)
    split
    · show ((if v ≠ (w i).cur then (⟨v, true⟩ : Param α) else w i).cur, (if v ≠ (w i).cur then (⟨v, true⟩ : Param α) else w i).changed) = _
      by_cases hv : v = (w i).cur
      · simp [hv]
      · simp [hv]
    · rfl
  | check i =>
    show ((if k = i then (w i).isChanged.1 else w k).cur, (if k = i then (w i).isChanged.1 else w k).changed) = if k = i then ((w i).cur, false) else ((w k).cur, (w k).changed)
    split <;> rfl
  | assign i j =>
    show ((if k = i then copyAssign (w i) (w j) else w k).cur, (if k = i then copyAssign (w i) (w j) else w k).changed) = if k = i then ((w j).cur, (w i).changed || decide ((w j).cur ≠ (w i).cur)) else ((w k).cur, (w k).changed)
    split
    · show ((w j).cur, (w j).changed) = _
      have := h.1
      congr 1
      rw [Bool.eq_iff_iff, this]
      simp
    · rfl

/-- **C212 (partial).** As long as no assignment finds the flags in disagreement, isChanged() answers rightly through the whole history. Missing: assignments that do (`C212_lost_violated`, `C212_spurious_violated`). -/
theorem C212_faithful_partial (ops : List (Op ι α)) (w : ι → Param α) (h : Faithful ops w) : seen (ops.foldl step w) = ops.foldl Spec.step (seen w) := by
  induction ops generalizing w with
  | nil => rfl
  | cons o ops ih =>
    have h1 : Faithful [o] w ∧ Faithful ops (step w o) := by
      cases o with
      | set i v => exact ⟨trivial, h⟩
      | check i => exact ⟨trivial, h⟩
      | assign i j => exact ⟨⟨h.1, trivial⟩, h.2⟩
    rw [List.foldl_cons, List.foldl_cons, ih _ h1.2, step_seen w o h1.1]

example : Faithful [.check true, .set true 5, .assign false true, .check false] (fun _ : Bool => Param.init 0) := by
  refine ⟨?_, trivial⟩
  decide

/-- **C212, exactly.** One assignment is right exactly if the flags agree in this way. -/
theorem C212_assign_exact (w : ι → Param α) (i j : ι) :
    seen (step w (.assign i j)) = Spec.step (seen w) (.assign i j) ↔ ((w j).changed = true ↔ (w i).changed = true ∨ (w j).cur ≠ (w i).cur) := by
  constructor
  · intro h
    have h1 := congrArg Prod.snd (congrFun h i)
    have e1 : (seen (step w (.assign i j)) i).2 = (w j).changed := by
      show (if i = i then copyAssign (w i) (w j) else w i).changed = _
      rw [if_pos rfl]; rfl
    have e2 : (Spec.step (seen w) (.assign i j) i).2 = ((w i).changed || decide ((w j).cur ≠ (w i).cur)) := by
      show (if i = i then ((w j).cur, (w i).changed || decide ((w j).cur ≠ (w i).cur)) else ((w i).cur, (w i).changed)).2 = _
      rw [if_pos rfl]
    rw [e1, e2] at h1
    rw [h1]
    simp
  · intro h
    exact step_seen w _ ⟨h, trivial⟩

/-- **C212 (the property is false here).** A parameter assigned from one whose changes have been reported takes the new value without reporting a change, even if it had one of its own to report. -/
theorem C212_lost_violated (w : ι → Param α) (i j : ι) (hj : (w j).changed = false) :
    (step w (.assign i j) i).cur = (w j).cur ∧ (step w (.assign i j) i).isChanged.2 = false := by
  have e : step w (.assign i j) i = copyAssign (w i) (w j) := if_pos rfl
  rw [e]
  exact ⟨rfl, hj⟩

example : seen ([.check true, .check false, .set true 5, .check true, .assign false true].foldl step (fun _ : Bool => Param.init 0)) false = (5, false) := by decide

/-- **C212 (the property is false here).** One assigned from a parameter with an unreported change reports a change although its value is the same as before. -/
theorem C212_spurious_violated (w : ι → Param α) (i j : ι) (hj : (w j).changed = true) (hv : (w i).cur = (w j).cur) :
    (step w (.assign i j) i).cur = (w i).cur ∧ (step w (.assign i j) i).isChanged.2 = true := by
  have e : step w (.assign i j) i = copyAssign (w i) (w j) := if_pos rfl
  rw [e]
  exact ⟨hv.symm, hj⟩

example : seen ([.check false, .assign false true].foldl step (fun _ : Bool => Param.init 7)) false = (7, true) := by decide

/-- **C212** (LatchedParam; the property is false here): the same for `a = b` with two LatchedParams. -/
theorem C212_latched_violated (a b : Latched α) (hb : b.changed = false) :
    (a.copyFrom b).val = b.val ∧ (a.copyFrom b).didChange.2 = false := by
  refine ⟨rfl, ?_⟩
  show (if b.changed then (({ b with changed := false } : Latched α), true) else (b, false)).2 = false
  rw [hb]
  rfl

example : ((⟨1, true⟩ : Latched Nat).copyFrom ⟨5, false⟩).didChange.2 = false := by decide

end ParamCopy
