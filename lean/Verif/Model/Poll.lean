import Verif.Basic
/-!
# PollEvent, PollChange, QuadratureEncoder

util/poll_event.hh, util/poll_change.hh, util/quadrature_encoder.hh
-/

namespace PollEvent

/-- `PollEvent::poll` for an unsigned `TimeT` with `W` values: whether the action runs, and the new `last_poll`: poll_event.hh:9-25. -/
def poll (W period last now : Nat) : Bool × Nat :=
  let expired :=
    if now < last then
      if now ≥ (last + period) % W then true else false
    else if now - last ≥ period then true
    else false
  if expired then (true, now) else (false, last)

/-- A result in `long int` with `w` bits, undefined on overflow (poll_event.hh:4-30 with the default `TimeT`). -/
def sgn (w : Nat) (x : Int) : R Int := if -2 ^ (w - 1) ≤ x ∧ x < 2 ^ (w - 1) then .ok x else .ub

/-- `PollEvent::poll` for a signed `TimeT` with `w` bits (the default `long int`): poll_event.hh:9-25. -/
def pollSigned (w : Nat) (period last now : Int) : R (Bool × Int) :=
  if now < last then do
    let due ← sgn w (last + period)
    if now ≥ due then .ok (true, now) else .ok (false, last)
  else do
    let el ← sgn w (now - last)
    if el ≥ period then .ok (true, now) else .ok (false, last)

/-- Poll at each of the given times (`now` of each); the answers. `last_poll` starts as 0 (29) (poll_event.hh:9-29). -/
def polls (W period : Nat) : Nat → List Nat → List Bool
  | _, [] => []
  | last, now :: l => (poll W period last now).1 :: polls W period (poll W period last now).2 l

end PollEvent

/-- poll_change.hh:52-57 (file lines; without update_ticks). -/
structure PollChange where
  current : Bool := false
  changed : Bool := false
  last : BitVec 32 := 0
  deriving DecidableEq, Repr

namespace PollChange

/-- `reset`: poll_change.hh:11-13. -/
def reset (p : PollChange) : PollChange := { p with changed := true }

/-- `force_next_poll`: poll_change.hh:15-17. -/
def forceNextPoll (p : PollChange) : PollChange := { p with last := 0 }

/-- `poll(now, bool)`: poll_change.hh:19-28. -/
def poll (ticks : BitVec 32) (p : PollChange) (now : BitVec 32) (state : Bool) : PollChange :=
  if now - p.last ≥ ticks then
    let p := { p with last := now }
    if p.current != state then { p with current := state, changed := true } else p
  else p

/-- `poll(now, state_func)`: poll_change.hh:32-42; `state` is what the function would return. Also whether it was called. -/
def pollFn (ticks : BitVec 32) (p : PollChange) (now : BitVec 32) (state : Bool) : Bool × PollChange :=
  if now - p.last ≥ ticks then
    let p := { p with last := now }
    if p.current != state then (true, { p with current := state, changed := true }) else (true, p)
  else (false, p)

/-- `take_change`: poll_change.hh:44-50. -/
def takeChange (p : PollChange) : Bool × PollChange := if p.changed then (true, { p with changed := false }) else (false, p)

end PollChange

namespace Quad

/-- `Direction`: quadrature_encoder.hh:13. -/
inductive Direction where
  | none | cw | ccw
  deriving DecidableEq, Repr

/-- quadrature_encoder.hh:7. -/
def validCcw (invert : Bool) : BitVec 8 := 0b10000111 ^^^ (if invert then 0xff else 0x00)

/-- quadrature_encoder.hh:8. -/
def validCw (invert : Bool) : BitVec 8 := 0b01001011 ^^^ (if invert then 0xff else 0x00)

/-- `get_motion`: quadrature_encoder.hh:15-32. The answer and the new `prev_state`. -/
def getMotion (invert : Bool) (prev : BitVec 8) (a b : Bool) : Direction × BitVec 8 :=
  let cur : BitVec 8 := BitVec.ofNat 8 a.toNat ||| (BitVec.ofNat 8 b.toNat <<< 1)
  if prev &&& 0b11 = cur then (.none, prev)
  else
    let prev := prev <<< 2
    let prev := prev ||| cur
    if prev = validCw invert then (.cw, prev)
    else if prev = validCcw invert then (.ccw, prev)
    else (.none, prev)

/-- The answers to a list of pin states, from `prev_state` (quadrature_encoder.hh:6-33). -/
def motions (invert : Bool) : BitVec 8 → List (Bool × Bool) → List Direction
  | _, [] => []
  | p, s :: l => (getMotion invert p s.1 s.2).1 :: motions invert (getMotion invert p s.1 s.2).2 l

/-- `prev_state` after a list of pin states (quadrature_encoder.hh:6-33). -/
def after (invert : Bool) : BitVec 8 → List (Bool × Bool) → BitVec 8
  | p, [] => p
  | p, s :: l => after invert (getMotion invert p s.1 s.2).2 l

end Quad
