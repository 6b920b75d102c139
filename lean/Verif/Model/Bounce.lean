import Verif.Model.Toggler
/-! # A debouncer asked after every sample

`register_state`, then `is_just_pressed`, `is_just_released` and `is_high`, as a program polling a button does. -/

namespace Debouncer

/-- The answers (is_just_pressed, is_just_released, is_high) after each sample: debouncer.hh:27-61, 163-186. -/
def answers (c : DebounceCfg) : Debouncer → List Bool → List (Bool × Bool × Bool)
  | _, [] => []
  | d, b :: l =>
    let d := registerState c d (BitVec.ofNat 32 b.toNat)
    let p := d.t.isJustPressed
    let r := p.2.isJustReleased
    (p.1, r.1, r.2.isHigh) :: answers c { d with t := r.2 } l

end Debouncer

/-- The same for DebouncerCounter: debouncer.hh:27-61, 188-212. -/
def DebouncerCounter.answers (c : DebounceCfg) : DebouncerCounter → List Bool → List (Bool × Bool × Bool)
  | _, [] => []
  | d, b :: l =>
    let d := DebouncerCounter.registerState c d (BitVec.ofNat 32 b.toNat)
    let p := d.t.isJustPressed
    let r := p.2.isJustReleased
    (p.1, r.1, r.2.isHigh) :: DebouncerCounter.answers c { d with t := r.2 } l
