import Verif.Basic
/-!
# Togglers, debouncers and triggers

util/debouncer.hh, util/debouncer_compact.hh, util/schmitt_trigger.hh, util/edge_detector.hh, util/change_detector.hh, util/rotary_motion.hh
-/

/-! ### Toggler -/

/-- debouncer.hh:4-16. -/
structure Toggler where
  high : Bool := false
  rising : Bool := false
  falling : Bool := false
  deriving DecidableEq, Repr

namespace Toggler

/-- `clear_events`: debouncer.hh:18-21. -/
def clearEvents (t : Toggler) : Toggler := { t with falling := false, rising := false }

/-- `reset`: debouncer.hh:23-26. -/
def reset (t : Toggler) : Toggler := clearEvents { t with high := false }

/-- `is_high`, `is_pressed`, `operator bool`: debouncer.hh:28-38. -/
def isHigh (t : Toggler) : Bool := t.high

/-- `is_just_pressed`, `just_went_high`: debouncer.hh:40-50. -/
def isJustPressed (t : Toggler) : Bool × Toggler :=
  if t.rising then (true, { t with rising := false }) else (false, t)

/-- `is_just_released`, `just_went_low`: debouncer.hh:52-61. -/
def isJustReleased (t : Toggler) : Bool × Toggler :=
  if t.falling then (true, { t with falling := false }) else (false, t)

/-- `register_rising_edge`: debouncer.hh:63-67. -/
def registerRisingEdge (t : Toggler) : Toggler :=
  let t := { t with high := true }
  let t := { t with rising := true }
  { t with falling := false }

/-- `register_falling_edge`: debouncer.hh:69-73. -/
def registerFallingEdge (t : Toggler) : Toggler :=
  let t := { t with high := false }
  let t := { t with falling := true }
  { t with rising := false }

/-- `register_state`, `process`: debouncer.hh:75-89. -/
def registerState (t : Toggler) (newstate : Bool) : Toggler :=
  if newstate = t.high then t
  else
    let t := { t with high := newstate }
    if newstate then { t with rising := true } else { t with falling := true }

/-- `set_state_no_events`, `set_state`: debouncer.hh:91-97. -/
def setStateNoEvents (t : Toggler) (x : Nat) : Toggler := { t with high := if x ≠ 0 then true else false }

/-- `copy_state`, `operator=`: debouncer.hh:99-103, 123-126. -/
def copyState (t other : Toggler) : Toggler := { t with high := other.high, rising := other.rising, falling := other.falling }

/-- `update_state`: debouncer.hh:106-114. -/
def updateState (t other : Toggler) : Toggler :=
  let t := if other.falling then { t with falling := true }
    else if other.rising then { t with rising := true }
    else t
  { t with high := other.high }

/-- `transfer_events`: debouncer.hh:117-121. The new destination and source. -/
def transferEvents (t other : Toggler) : Toggler × Toggler :=
  (updateState t other, { { other with falling := false } with rising := false })

/-- A call on a pair of togglers; the first component of calls names the toggler called (`false`: the first, `true`: the second) (the member functions of debouncer.hh:4-126 and debouncer_compact.hh:5-126; TogglerCounter and Debouncer: debouncer.hh:129-212). -/
inductive Op where
  | clearEvents (i : Bool) | reset (i : Bool) | isHigh (i : Bool) | isJustPressed (i : Bool) | isJustReleased (i : Bool)
  | rising (i : Bool) | falling (i : Bool) | registerState (i : Bool) (b : Bool) | setStateNoEvents (i : Bool) (x : Nat)
  | copyState (i : Bool) | updateState (i : Bool) | transferEvents (i : Bool)
  deriving DecidableEq, Repr

/-- Which of the two togglers of debouncer.hh:4 resp. debouncer_compact.hh:5 a call is on. -/
def get (s : Toggler × Toggler) (i : Bool) : Toggler := if i then s.2 else s.1
/-- The pair of togglers (debouncer.hh:4 resp. debouncer_compact.hh:5) after a call on one of them. -/
def put (s : Toggler × Toggler) (i : Bool) (t : Toggler) : Toggler × Toggler := if i then (s.1, t) else (t, s.2)

/-- One call; the answer is `none` for functions returning void (debouncer.hh:4-126). -/
def step (s : Toggler × Toggler) : Op → Option Bool × (Toggler × Toggler)
  | .clearEvents i => (none, put s i (clearEvents (get s i)))
  | .reset i => (none, put s i (reset (get s i)))
  | .isHigh i => (some (isHigh (get s i)), s)
  | .isJustPressed i => (some (isJustPressed (get s i)).1, put s i (isJustPressed (get s i)).2)
  | .isJustReleased i => (some (isJustReleased (get s i)).1, put s i (isJustReleased (get s i)).2)
  | .rising i => (none, put s i (registerRisingEdge (get s i)))
  | .falling i => (none, put s i (registerFallingEdge (get s i)))
  | .registerState i b => (none, put s i (registerState (get s i) b))
  | .setStateNoEvents i x => (none, put s i (setStateNoEvents (get s i) x))
  | .copyState i => (none, put s i (copyState (get s i) (get s !i)))
  | .updateState i => (none, put s i (updateState (get s i) (get s !i)))
  | .transferEvents i => (none, put (put s i (transferEvents (get s i) (get s !i)).1) (!i) (transferEvents (get s i) (get s !i)).2)

/-- The state after a list of calls (debouncer.hh:4-126). -/
def run : List Op → Toggler × Toggler → Toggler × Toggler
  | [], s => s
  | o :: l, s => run l (step s o).2

/-- The answers of a list of calls (debouncer.hh:4-126). -/
def answers : List Op → Toggler × Toggler → List (Option Bool)
  | [], _ => []
  | o :: l, s => (step s o).1 :: answers l (step s o).2

end Toggler

/-! ### TogglerCompact -/

/-- Three one-bit fields of a `uint8_t`: debouncer_compact.hh:5-16. -/
structure TogglerCompact where
  high : BitVec 1 := 0
  rising : BitVec 1 := 0
  falling : BitVec 1 := 0
  deriving DecidableEq, Repr

namespace TogglerCompact

/-- debouncer_compact.hh:19-22. -/
def clearEvents (t : TogglerCompact) : TogglerCompact := { t with falling := 0, rising := 0 }

/-- debouncer_compact.hh:24-27. -/
def reset (t : TogglerCompact) : TogglerCompact := clearEvents { t with high := 0 }

/-- debouncer_compact.hh:29-39. -/
def isHigh (t : TogglerCompact) : Bool := t.high ≠ 0

/-- debouncer_compact.hh:41-51. -/
def isJustPressed (t : TogglerCompact) : Bool × TogglerCompact :=
  if t.rising ≠ 0 then (true, { t with rising := 0 }) else (false, t)

/-- debouncer_compact.hh:53-62. -/
def isJustReleased (t : TogglerCompact) : Bool × TogglerCompact :=
  if t.falling ≠ 0 then (true, { t with falling := 0 }) else (false, t)

/-- debouncer_compact.hh:64-68. -/
def registerRisingEdge (t : TogglerCompact) : TogglerCompact :=
  let t := { t with high := 1 }
  let t := { t with rising := 1 }
  { t with falling := 0 }

/-- debouncer_compact.hh:70-74. -/
def registerFallingEdge (t : TogglerCompact) : TogglerCompact :=
  let t := { t with high := 0 }
  let t := { t with falling := 1 }
  { t with rising := 0 }

/-- debouncer_compact.hh:76-90: both sides of `==` are converted to `int`. -/
def registerState (t : TogglerCompact) (newstate : Bool) : TogglerCompact :=
  if newstate.toNat = t.high.toNat then t
  else
    let t := { t with high := BitVec.ofBool newstate }
    if newstate then { t with rising := 1 } else { t with falling := 1 }

/-- debouncer_compact.hh:92-94. -/
def setStateNoEvents (t : TogglerCompact) (x : Nat) : TogglerCompact := { t with high := BitVec.ofBool (if x ≠ 0 then true else false) }

/-- debouncer_compact.hh:96-100, 120-123. -/
def copyState (t other : TogglerCompact) : TogglerCompact := { t with high := other.high, rising := other.rising, falling := other.falling }

/-- debouncer_compact.hh:103-111. -/
def updateState (t other : TogglerCompact) : TogglerCompact :=
  let t := if other.falling ≠ 0 then { t with falling := 1 }
    else if other.rising ≠ 0 then { t with rising := 1 }
    else t
  { t with high := other.high }

/-- debouncer_compact.hh:114-118. -/
def transferEvents (t other : TogglerCompact) : TogglerCompact × TogglerCompact :=
  (updateState t other, { { other with falling := 0 } with rising := 0 })

/-- Which of the two togglers of debouncer.hh:4 resp. debouncer_compact.hh:5 a call is on. -/
def get (s : TogglerCompact × TogglerCompact) (i : Bool) : TogglerCompact := if i then s.2 else s.1
/-- The pair of togglers (debouncer.hh:4 resp. debouncer_compact.hh:5) after a call on one of them. -/
def put (s : TogglerCompact × TogglerCompact) (i : Bool) (t : TogglerCompact) : TogglerCompact × TogglerCompact := if i then (s.1, t) else (t, s.2)

/-- One call, as for `Toggler` (debouncer_compact.hh:5-126). -/
def step (s : TogglerCompact × TogglerCompact) : Toggler.Op → Option Bool × (TogglerCompact × TogglerCompact)
  | .clearEvents i => (none, put s i (clearEvents (get s i)))
  | .reset i => (none, put s i (reset (get s i)))
  | .isHigh i => (some (isHigh (get s i)), s)
  | .isJustPressed i => (some (isJustPressed (get s i)).1, put s i (isJustPressed (get s i)).2)
  | .isJustReleased i => (some (isJustReleased (get s i)).1, put s i (isJustReleased (get s i)).2)
  | .rising i => (none, put s i (registerRisingEdge (get s i)))
  | .falling i => (none, put s i (registerFallingEdge (get s i)))
  | .registerState i b => (none, put s i (registerState (get s i) b))
  | .setStateNoEvents i x => (none, put s i (setStateNoEvents (get s i) x))
  | .copyState i => (none, put s i (copyState (get s i) (get s !i)))
  | .updateState i => (none, put s i (updateState (get s i) (get s !i)))
  | .transferEvents i => (none, put (put s i (transferEvents (get s i) (get s !i)).1) (!i) (transferEvents (get s i) (get s !i)).2)

/-- The answers of a list of calls (debouncer_compact.hh:5-126). -/
def answers : List Toggler.Op → TogglerCompact × TogglerCompact → List (Option Bool)
  | [], _ => []
  | o :: l, s => (step s o).1 :: answers l (step s o).2

end TogglerCompact

/-! ### TogglerCounter -/

/-- debouncer.hh:129, 157-158. -/
structure TogglerCounter where
  t : Toggler := {}
  ctr : BitVec 32 := 0
  deriving DecidableEq, Repr

namespace TogglerCounter

/-- `register_state`, `process`: debouncer.hh:130-143, 153-155; `is_high_` is converted to `unsigned` for `==`. -/
def registerState (s : TogglerCounter) (newstate : Nat) : TogglerCounter :=
  if newstate = s.t.high.toNat then { s with ctr := s.ctr + 1 }
  else
    let s := { s with t := { s.t with high := newstate ≠ 0 } }
    let s := { s with ctr := 0 }
    if newstate ≠ 0 then { s with t := { s.t with rising := true } } else { s with t := { s.t with falling := true } }

/-- `steady_state_count`: debouncer.hh:145-147. -/
def steadyStateCount (s : TogglerCounter) : BitVec 32 := s.ctr

/-- `reset_count`: debouncer.hh:149-151. -/
def resetCount (s : TogglerCounter) : TogglerCounter := { s with ctr := 0 }

/-- Calls on a counter: samples (0 or 1), `reset_count`, and the queries and `clear_events` inherited from Toggler (the member functions of debouncer.hh:4-126 and debouncer_compact.hh:5-126; TogglerCounter and Debouncer: debouncer.hh:129-212). -/
inductive Op where
  | sample (b : Bool) | resetCount | isJustPressed | isJustReleased | clearEvents
  deriving DecidableEq, Repr

/-- One call: debouncer.hh:129-158. -/
def step (s : TogglerCounter) : Op → TogglerCounter
  | .sample b => registerState s b.toNat
  | .resetCount => resetCount s
  | .isJustPressed => { s with t := s.t.isJustPressed.2 }
  | .isJustReleased => { s with t := s.t.isJustReleased.2 }
  | .clearEvents => { s with t := s.t.clearEvents }

/-- A sequence of calls: debouncer.hh:129-158. -/
def run (l : List Op) (s : TogglerCounter) : TogglerCounter := l.foldl step s

end TogglerCounter

/-! ### Debouncer -/

/-- The template parameters: debouncer.hh:163-166, 188-191. -/
structure DebounceCfg where
  risingPattern : BitVec 32 := 0x00000001
  fallingPattern : BitVec 32 := 0xFFFFFFFE
  stateMask : BitVec 32 := 0x00000FFF
  debounceRawState : Bool := false

/-- debouncer.hh:167-170, 184-185. -/
structure Debouncer where
  t : Toggler := {}
  state : BitVec 32 := 0
  deriving DecidableEq, Repr

namespace Debouncer

/-- `register_state`: debouncer.hh:172-182. -/
def registerState (c : DebounceCfg) (d : Debouncer) (newState : BitVec 32) : Debouncer :=
  let st := ((d.state <<< 1) ||| newState) &&& c.stateMask
  let d := { d with state := st }
  if st = (c.risingPattern &&& c.stateMask) then { d with t := d.t.registerRisingEdge }
  else if st = (c.fallingPattern &&& c.stateMask) then { d with t := d.t.registerFallingEdge }
  else if !c.debounceRawState then { d with t := d.t.setStateNoEvents newState.toNat }
  else d

/-- Calls on a debouncer: samples 0 or 1 and what it inherits from Toggler (the member functions of debouncer.hh:4-126 and debouncer_compact.hh:5-126; TogglerCounter and Debouncer: debouncer.hh:129-212). -/
inductive Op where
  | sample (b : Bool) | isJustPressed | isJustReleased | clearEvents | reset
  deriving DecidableEq, Repr

/-- One call: debouncer.hh:167-185. -/
def step (c : DebounceCfg) (d : Debouncer) : Op → Debouncer
  | .sample b => registerState c d (BitVec.ofNat 32 b.toNat)
  | .isJustPressed => { d with t := d.t.isJustPressed.2 }
  | .isJustReleased => { d with t := d.t.isJustReleased.2 }
  | .clearEvents => { d with t := d.t.clearEvents }
  | .reset => { d with t := d.t.reset }

/-- A sequence of calls: debouncer.hh:167-185. -/
def run (c : DebounceCfg) (l : List Op) (d : Debouncer) : Debouncer := l.foldl (step c) d

end Debouncer

/-- debouncer.hh:192, 208-211. -/
structure DebouncerCounter where
  t : Toggler := {}
  ctr : BitVec 32 := 0
  state : BitVec 32 := 0
  deriving DecidableEq, Repr

namespace DebouncerCounter

/-- `register_state`: debouncer.hh:193-206. -/
def registerState (c : DebounceCfg) (d : DebouncerCounter) (newState : BitVec 32) : DebouncerCounter :=
  let st := ((d.state <<< 1) ||| newState) &&& c.stateMask
  let d := { d with state := st }
  if st = (c.risingPattern &&& c.stateMask) then { d with t := d.t.registerRisingEdge, ctr := 0 }
  else if st = (c.fallingPattern &&& c.stateMask) then { d with t := d.t.registerFallingEdge, ctr := 0 }
  else
    let d := if !c.debounceRawState then { d with t := d.t.setStateNoEvents newState.toNat } else d
    { d with ctr := d.ctr + 1 }

/-- One call: debouncer.hh:192-211. -/
def step (c : DebounceCfg) (d : DebouncerCounter) : Debouncer.Op → DebouncerCounter
  | .sample b => registerState c d (BitVec.ofNat 32 b.toNat)
  | .isJustPressed => { d with t := d.t.isJustPressed.2 }
  | .isJustReleased => { d with t := d.t.isJustReleased.2 }
  | .clearEvents => { d with t := d.t.clearEvents }
  | .reset => { d with t := d.t.reset }

/-- A sequence of calls: debouncer.hh:192-211. -/
def run (c : DebounceCfg) (l : List Debouncer.Op) (d : DebouncerCounter) : DebouncerCounter := l.foldl (step c) d

end DebouncerCounter

/-! ### Schmitt triggers

Values are of any type `α` with a comparison `lt` (`float`'s `<`, false if either side is NaN). -/

namespace Schmitt

/-- `SchmittTrigger::process`: schmitt_trigger.hh:17-24. -/
def process {α : Type} (lt : α → α → Bool) (low high : α) (t : Toggler) (val : α) : Toggler :=
  if !t.high && lt high val then t.registerRisingEdge
  else if t.high && lt val low then t.registerFallingEdge
  else t

/-- `RisingSchmittTrigger::update`: schmitt_trigger.hh:38-49; the state is `last_state_`. -/
def update {α : Type} (lt : α → α → Bool) (low high : α) (last : Bool) (val : α) : Bool × Bool :=
  if !last && lt high val then (true, true)
  else if last && lt val low then (false, false)
  else (false, last)

/-- The answers (just_went_high, just_went_low, is_high) after each sample (schmitt_trigger.hh:17-24, debouncer.hh:27-60). -/
def trace {α : Type} (lt : α → α → Bool) (low high : α) : Toggler → List α → List (Bool × Bool × Bool)
  | _, [] => []
  | t, v :: l =>
    let t := process lt low high t v
    let p := t.isJustPressed
    let r := p.2.isJustReleased
    (p.1, r.1, r.2.isHigh) :: trace lt low high r.2 l

/-- The answers of `RisingSchmittTrigger::update` for each sample (schmitt_trigger.hh:38-49). -/
def updates {α : Type} (lt : α → α → Bool) (low high : α) : Bool → List α → List Bool
  | _, [] => []
  | s, v :: l => (update lt low high s v).1 :: updates lt low high (update lt low high s v).2 l

end Schmitt

/-! ### Edge and change detectors -/

/-- edge_detector.hh:3-5. -/
structure EdgeState where
  state : Bool := false
  last : Bool := false
  deriving DecidableEq, Repr

namespace EdgeState
/-- edge_detector.hh:7-10. -/
def update (e : EdgeState) (s : Bool) : EdgeState :=
  let e := { e with last := e.state }
  { e with state := s }
/-- edge_detector.hh:12-14. -/
def changed (e : EdgeState) : Bool := e.last != e.state
/-- edge_detector.hh:16-18. -/
def wentHigh (e : EdgeState) : Bool := !e.last && e.state
/-- edge_detector.hh:20-22. -/
def wentLow (e : EdgeState) : Bool := e.last && !e.state
/-- edge_detector.hh:24-26. -/
def isHigh (e : EdgeState) : Bool := e.state
/-- edge_detector.hh:28-30. -/
def stayingHigh (e : EdgeState) : Bool := e.last && e.state
/-- edge_detector.hh:32-34. -/
def stayingLow (e : EdgeState) : Bool := !e.last && !e.state
/-- edge_detector.hh:36-39. -/
def reset (_ : EdgeState) : EdgeState := { state := false, last := false }
/-- `RisingEdgeDetector::update`, the answer and the new `last_state_`: edge_detector.hh:46-50. -/
def risingUpdate (last : Bool) (s : Bool) : Bool × Bool := (s && (last != s), s)
/-- `FallingEdgeDetector::update`: edge_detector.hh:57-61. -/
def fallingUpdate (last : Bool) (s : Bool) : Bool × Bool := (!s && (last != s), s)
end EdgeState

/-- change_detector.hh:6-8. -/
structure ChangeDet where
  last : Bool := false
  changed : Bool := false
  deriving DecidableEq, Repr

namespace ChangeDet
/-- change_detector.hh:10-15. -/
def update (c : ChangeDet) (s : Bool) : ChangeDet :=
  if c.last != s then
    let c := { c with changed := true }
    { c with last := s }
  else c
/-- change_detector.hh:17-23. -/
def takeChanged (c : ChangeDet) : Bool × ChangeDet := if c.changed then (true, { c with changed := false }) else (false, c)
end ChangeDet

/-! ### RotaryMotion -/

/-- rotary_motion.hh:4-6. -/
structure Rotary where
  absPos : Int := 0
  motion : Int := 0
  deriving DecidableEq, Repr

namespace Rotary
/-- `int32_t` addition: undefined on overflow (rotary_motion.hh:1-27). -/
def addI (a b : Int) : R Int := if -2147483648 ≤ a + b ∧ a + b < 2147483648 then .ok (a + b) else .ub

/-- `use_motion`: rotary_motion.hh:9-13. -/
def useMotion (r : Rotary) : Int × Rotary := (r.motion, { r with motion := 0 })

/-- `add_motion`: rotary_motion.hh:16-19. -/
def addMotion (r that : Rotary) : R Rotary := do
  let m ← addI r.motion that.motion
  let a ← addI r.absPos that.motion
  .ok { absPos := a, motion := m }

/-- `transfer_motion`: rotary_motion.hh:22-26. The new target and source. -/
def transferMotion (r that : Rotary) : R (Rotary × Rotary) := do
  let (tm, that) := useMotion that
  let m ← addI r.motion tm
  let a ← addI r.absPos tm
  .ok ({ absPos := a, motion := m }, that)
end Rotary
