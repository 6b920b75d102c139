import Verif.Model.Toggler
import Mathlib.Data.Rat.Defs
import Mathlib.Algebra.Order.Ring.Rat
/-!
# The members of `Toggler` that a debouncer or a trigger inherits and does not hide (util/debouncer.hh, util/schmitt_trigger.hh)

`Debouncer` and `DebouncerCounter` define `register_state` and inherit `process`, which calls `Toggler::register_state`: no member is virtual. `SchmittTrigger` defines `process(float)` and inherits `register_state(bool)`.
-/
namespace Debouncer

/-- `process` on a `Debouncer`, inherited: debouncer.hh:75-89, 167. -/
def process (d : Debouncer) (b : Bool) : Debouncer := { d with t := d.t.registerState b }

/-- Samples handed over by `process`, `is_just_pressed` and `is_just_released` asked after each: debouncer.hh:40-61, 75-89. -/
def polledProcess : Debouncer → List Bool → List (Bool × Bool)
  | _, [] => []
  | d, b :: l =>
    let d := process d b
    let (p, t) := d.t.isJustPressed
    let (r, t) := t.isJustReleased
    (p, r) :: polledProcess { d with t := t } l

/-- Samples handed over by `register_state`, the same asked after each: debouncer.hh:40-61, 172-182. -/
def polledRegister (c : DebounceCfg) : Debouncer → List Bool → List (Bool × Bool)
  | _, [] => []
  | d, b :: l =>
    let d := registerState c d (BitVec.ofNat 32 b.toNat)
    let (p, t) := d.t.isJustPressed
    let (r, t) := t.isJustReleased
    (p, r) :: polledRegister c { d with t := t } l

end Debouncer

namespace DebouncerCounter

/-- `process` on a `DebouncerCounter`, inherited: debouncer.hh:75-89, 192. -/
def process (d : DebouncerCounter) (b : Bool) : DebouncerCounter := { d with t := d.t.registerState b }

end DebouncerCounter

namespace Schmitt

/-- `register_state(val)` on a `SchmittTrigger`, inherited: the float is converted to `bool`, which is `true` unless it is zero: debouncer.hh:79-89, schmitt_trigger.hh:7. Finite values, as rationals. -/
def registerVal (t : Toggler) (val : ℚ) : Toggler := t.registerState (decide (val ≠ 0))

end Schmitt
