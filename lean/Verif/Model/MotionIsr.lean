import Verif.Model.Toggler
/-!
# Rotary motion and changes registered by an interrupt

util/rotary_motion.hh, util/change_detector.hh. The interrupt turns an encoder (adds to both members of a RotaryMotion) or calls update() of a ChangeDetector; the main program calls use_motion(), transfer_motion(), add_motion() or
changed(), and the interrupt may come between any two accesses to shared memory of such a call; the interrupt itself is not interrupted. Sums are exact (overflow is in `Rotary`'s own model). The members are neither atomic nor volatile: that the
compiler makes these accesses in this order is an assumption.
-/
namespace MotionIsr

/-- A step: the encoder turns by `d`; the main program calls `use_motion()` on the shared object, `transfer_motion` or `add_motion` from it to its own; it goes on in that call (rotary_motion.hh:9-26). -/
inductive Act where
  | turn (d : Int)
  | use
  | transfer
  | add
  | cont
  deriving DecidableEq, Repr

/-- What happens: the encoder turned; a call has read `motion`; `use_motion()` returned a value, or `transfer_motion` moved it (rotary_motion.hh:9-26). -/
inductive Event where
  | turn (d : Int)
  | load
  | used (v : Int)
  deriving DecidableEq, Repr

/-- Where the main program is: outside; in `use_motion()` after reading `motion` (line 10; `own`: called by `transfer_motion`); in `add_motion` after adding to `motion` (line 17) (rotary_motion.hh:9-26). -/
inductive Pc where
  | idle
  | read (own : Bool) (v : Int)
  | added
  deriving DecidableEq, Repr

/-- The shared object, the main program's own object and the main program (rotary_motion.hh:4-6). -/
structure St where
  shared : Rotary
  own : Rotary
  pc : Pc
  deriving DecidableEq, Repr

/-- One step; `none` if it cannot be made: rotary_motion.hh:9-26. -/
def step (s : St) : Act → Option (St × List Event)
  | .turn d => some ({ s with shared := ⟨s.shared.absPos + d, s.shared.motion + d⟩ }, [.turn d])
  | .use => if s.pc = .idle then some ({ s with pc := .read false s.shared.motion }, [.load]) else none
  | .transfer => if s.pc = .idle then some ({ s with pc := .read true s.shared.motion }, [.load]) else none
  | .add => if s.pc = .idle then some ({ s with own := { s.own with motion := s.own.motion + s.shared.motion }, pc := .added }, []) else none
  | .cont =>
    match s.pc with
    | .idle => none
    | .read false v => some (⟨{ s.shared with motion := 0 }, s.own, .idle⟩, [.used v])
    | .read true v => some (⟨{ s.shared with motion := 0 }, ⟨s.own.absPos + v, s.own.motion + v⟩, .idle⟩, [.used v])
    | .added => some (⟨s.shared, { s.own with absPos := s.own.absPos + s.shared.motion }, .idle⟩, [])

/-- A schedule (rotary_motion.hh:9-26). -/
def run (s : St) : List Act → Option (St × List Event)
  | [] => some (s, [])
  | a :: l =>
    match step s a with
    | none => none
    | some (s, e) => match run s l with
      | none => none
      | some (s, es) => some (s, e ++ es)

/-- Initial state: rotary_motion.hh:5-6. -/
def init : St := ⟨{}, {}, .idle⟩

namespace Change

/-- A step: the interrupt calls `update(b)`; the main program calls `changed()`; it goes on in that call (change_detector.hh:10-23). -/
inductive Act where
  | update (b : Bool)
  | ask
  | cont
  deriving DecidableEq, Repr

/-- What happens: the state given to `update` differs from the last one; `changed()` answers (change_detector.hh:10-23). -/
inductive Event where
  | change
  | answer (b : Bool)
  deriving DecidableEq, Repr

/-- The detector, and whether the main program is in a call that has seen `changed_` set (change_detector.hh:7-8, 18-19). -/
structure St where
  c : ChangeDet
  saw : Bool
  deriving DecidableEq, Repr

/-- One step; `none` if it cannot be made: change_detector.hh:10-23. -/
def step (s : St) : Act → Option (St × List Event)
  | .update b => some ({ s with c := s.c.update b }, if s.c.last = b then [] else [.change])
  | .ask => if s.saw then none else if s.c.changed then some ({ s with saw := true }, []) else some (s, [.answer false])
  | .cont => if s.saw then some (⟨{ s.c with changed := false }, false⟩, [.answer true]) else none

/-- A schedule (change_detector.hh:10-23). -/
def run (s : St) : List Act → Option (St × List Event)
  | [] => some (s, [])
  | a :: l =>
    match step s a with
    | none => none
    | some (s, e) => match run s l with
      | none => none
      | some (s, es) => some (s, e ++ es)

/-- Initial state: change_detector.hh:7-8. -/
def init : St := ⟨{}, false⟩

end Change
end MotionIsr
