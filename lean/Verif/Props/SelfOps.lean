import Verif.Model.SelfOps
/-! # Property C209: an object given to itself -/

namespace Rotary

/-- **C209, exactly.** Transferring motion from an object to itself keeps the motion and moves the position by it once more; undefined exactly if the position overflows. -/
theorem C209_transfer_exact (r : Rotary) (hm : -2147483648 ≤ r.motion ∧ r.motion < 2147483648) :
    transferSelf r = if -2147483648 ≤ r.absPos + r.motion ∧ r.absPos + r.motion < 2147483648 then .ok ⟨r.absPos + r.motion, r.motion⟩ else .ub := by
  unfold transferSelf useMotion addI
  simp only [Int.zero_add]
  rw [if_pos hm, R.bind_ok]
  split <;> rfl

/-- **C209, exactly.** Adding an object's motion to itself doubles the motion and moves the position by twice the motion (undefined exactly if either overflows), where adding that of a copy moves it by the motion. -/
theorem C209_add_exact (r : Rotary) :
    (addSelf r = if (-2147483648 ≤ 2 * r.motion ∧ 2 * r.motion < 2147483648) ∧ -2147483648 ≤ r.absPos + 2 * r.motion ∧ r.absPos + 2 * r.motion < 2147483648 then .ok ⟨r.absPos + 2 * r.motion, 2 * r.motion⟩ else .ub) ∧
    (addMotion r r = if (-2147483648 ≤ 2 * r.motion ∧ 2 * r.motion < 2147483648) ∧ -2147483648 ≤ r.absPos + r.motion ∧ r.absPos + r.motion < 2147483648 then .ok ⟨r.absPos + r.motion, 2 * r.motion⟩ else .ub) := by
  unfold addSelf addMotion addI
  rw [show r.motion + r.motion = 2 * r.motion from by omega]
  by_cases h1 : -2147483648 ≤ 2 * r.motion ∧ 2 * r.motion < 2147483648
  · rw [if_pos h1, R.bind_ok, R.bind_ok]
    constructor
    · simp only [h1, true_and, and_self]
      split <;> rfl
    · simp only [h1, true_and, and_self]
      split <;> rfl
  · rw [if_neg h1, R.bind_ub, R.bind_ub, if_neg fun h => h1 h.1, if_neg fun h => h1 h.1]
    exact ⟨rfl, rfl⟩

example : addSelf ⟨10, 3⟩ = .ok ⟨16, 6⟩ ∧ addMotion ⟨10, 3⟩ ⟨10, 3⟩ = .ok ⟨13, 6⟩ := by decide

/-- **C209 (the property is false here).** Transferring motion to itself is not without effect: whenever there is any (and no overflow), the position moves although the encoder did not. -/
theorem C209_transfer_violated (r : Rotary) (h0 : r.motion ≠ 0) (hm : -2147483648 ≤ r.motion ∧ r.motion < 2147483648) : transferSelf r ≠ .ok r := by
  rw [C209_transfer_exact r hm]
  split
  · intro h
    have := congrArg Rotary.absPos (R.ok.inj h)
    simp only at this
    omega
  · intro h; cases h

example : transferSelf ⟨10, 3⟩ = .ok ⟨13, 3⟩ := by decide

end Rotary

namespace Toggler

/-- **C209**: copying and updating a toggler from itself change nothing. -/
theorem C209_copy_update (t : Toggler) : copySelf t = t ∧ updateSelf t = t := by
  obtain ⟨h, r, f⟩ := t
  cases h <;> cases r <;> cases f <;> exact ⟨rfl, rfl⟩

/-- **C209, exactly** (and false in full): transferring events from a toggler to itself loses them all and keeps the state. -/
theorem C209_transfer_violated (t : Toggler) : transferSelf t = ⟨t.isHigh, false, false⟩ := by
  obtain ⟨h, r, f⟩ := t
  cases h <;> cases r <;> cases f <;> rfl

example : (registerRisingEdge {}).isJustPressed.1 = true ∧ (transferSelf (registerRisingEdge {})).isJustPressed.1 = false := by decide

end Toggler

namespace TogglerCompact

/-- **C209**, the same for the compact toggler. -/
theorem C209_compact_transfer_violated (t : TogglerCompact) : transferSelf t = ⟨t.high, 0, 0⟩ := by
  obtain ⟨h, r, f⟩ := t
  unfold transferSelf
  simp only
  split
  · rfl
  · split <;> rfl

example : (registerRisingEdge {}).isJustPressed.1 = true ∧ (transferSelf (registerRisingEdge {})).isJustPressed.1 = false := by decide

end TogglerCompact
