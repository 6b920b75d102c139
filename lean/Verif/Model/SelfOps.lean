import Verif.Model.Toggler
/-!
# Motion and events handed from an object to itself (util/rotary_motion.hh, util/debouncer.hh, util/debouncer_compact.hh)

`add_motion`, `transfer_motion`, `copy_state`, `update_state` and `transfer_events` take the other object by reference, so it may be the object itself: each assignment then changes both.
-/
namespace Rotary

/-- `r.add_motion(r)`: rotary_motion.hh:16-19; line 18 reads the `motion` that line 17 has changed. -/
def addSelf (r : Rotary) : R Rotary := do
  let m ← addI r.motion r.motion
  let r := { r with motion := m }
  let a ← addI r.absPos r.motion
  .ok { r with absPos := a }

/-- `r.transfer_motion(r)`: rotary_motion.hh:22-26. -/
def transferSelf (r : Rotary) : R Rotary := do
  let (tm, r) := useMotion r
  let m ← addI r.motion tm
  let r := { r with motion := m }
  let a ← addI r.absPos tm
  .ok { r with absPos := a }

end Rotary

namespace Toggler

/-- `t.copy_state(t)`, `t = t`: debouncer.hh:99-103, 123-126. -/
def copySelf (t : Toggler) : Toggler :=
  let t := { t with high := t.high }
  let t := { t with rising := t.rising }
  { t with falling := t.falling }

/-- `t.update_state(t)`: debouncer.hh:106-114. -/
def updateSelf (t : Toggler) : Toggler :=
  let t := if t.falling then { t with falling := true }
    else if t.rising then { t with rising := true }
    else t
  { t with high := t.high }

/-- `t.transfer_events(t)`: debouncer.hh:117-121. -/
def transferSelf (t : Toggler) : Toggler :=
  let t := updateSelf t
  let t := { t with falling := false }
  { t with rising := false }

end Toggler

namespace TogglerCompact

/-- The same for `TogglerCompact`: debouncer_compact.hh:103-118. -/
def transferSelf (t : TogglerCompact) : TogglerCompact :=
  let t := if t.falling ≠ 0 then { t with falling := 1 }
    else if t.rising ≠ 0 then { t with rising := 1 }
    else t
  let t := { t with high := t.high }
  let t := { t with falling := 0 }
  { t with rising := 0 }

end TogglerCompact
