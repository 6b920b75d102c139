import Verif.Model.Poll
/-!
# PollChange used from two contexts, and PollEvent polled by its own action

util/poll_change.hh: one context (main program, interrupt or other core) polls, another one takes changes; any context calls `reset()` or `force_next_poll()`. The loads and stores of the two interleave in any order. The members are neither atomic
nor volatile: that the compiler makes these loads and stores in the order of the source is an assumption.

util/poll_event.hh: the action may poll the same object.
-/
namespace PollIsr

/-- Where the polling context is in `poll` (poll_change.hh:19-28, 32-42). -/
inductive PPc where
  | idle
  /-- before `last_update_time = now` (21, 34) -/
  | stamp (now : BitVec 32) (b : Bool)
  /-- before the comparison with `current_state` (23, 37) -/
  | compare (b : Bool)
  /-- before `current_state = state` (24, 38) -/
  | setCurrent (b : Bool)
  /-- before `change_detected = true` (25, 39) -/
  | setChanged
  deriving DecidableEq, Repr

/-- The object and both contexts (poll_change.hh:52-57); `taking`: `take_change` has found `change_detected` set and not cleared it yet (45-46). -/
structure St where
  p : PollChange := {}
  pc : PPc := .idle
  taking : Bool := false
  deriving DecidableEq, Repr

/-- A step (poll_change.hh:11-50). -/
inductive Act where
  | poll (now : BitVec 32) (b : Bool)
  | pollStep
  | take
  | takeStep
  | reset
  | force
  deriving DecidableEq, Repr

/-- What happens (poll_change.hh:11-50): the state is sampled; the change is stored; `reset()`; `take_change` answers. -/
inductive Event where
  | sample (b : Bool)
  | change
  | reset
  | answer (b : Bool)
  deriving DecidableEq, Repr

/-- One step: poll_change.hh:11-50. A call that starts while the same context is in one is not a step of that context: nothing happens. -/
def step (ticks : BitVec 32) (s : St) : Act → St × List Event
  | .poll now b =>
    match s.pc with
    | .idle => if now - s.p.last ≥ ticks then ({ s with pc := .stamp now b }, [.sample b]) else (s, [])
    | _ => (s, [])
  | .pollStep =>
    match s.pc with
    | .idle => (s, [])
    | .stamp now b => ({ s with p := { s.p with last := now }, pc := .compare b }, [])
    | .compare b => if s.p.current != b then ({ s with pc := .setCurrent b }, []) else ({ s with pc := .idle }, [])
    | .setCurrent b => ({ s with p := { s.p with current := b }, pc := .setChanged }, [])
    | .setChanged => ({ s with p := { s.p with changed := true }, pc := .idle }, [.change])
  | .take =>
    if s.taking then (s, [])
    else if s.p.changed then ({ s with taking := true }, []) else (s, [.answer false])
  | .takeStep => if s.taking then ({ s with p := { s.p with changed := false }, taking := false }, [.answer true]) else (s, [])
  | .reset => ({ s with p := s.p.reset }, [.reset])
  | .force => ({ s with p := s.p.forceNextPoll }, [])

/-- A schedule (poll_change.hh:11-50). -/
def run (ticks : BitVec 32) : St → List Act → St × List Event
  | s, [] => (s, [])
  | s, a :: l =>
    let r := step ticks s a
    let t := run ticks r.1 l
    (t.1, r.2 ++ t.2)

end PollIsr

namespace PollNest

/-- A call of `poll`: the time passed, and the calls its action makes if it runs (poll_event.hh:9-25). -/
inductive Call where
  | mk (now : Nat) (inner : List Call)

mutual
/-- `poll` with an action that may poll the same object: `last_poll` after it, and the calls made, in the order in which they start, each with whether its action ran: poll_event.hh:9-25. -/
def callTrace (W period last : Nat) : Call → Nat × List (Nat × Bool)
  | .mk now inner =>
    match PollEvent.poll W period last now with
    | (true, l) =>
      let r := callsTrace W period l inner
      (r.1, (now, true) :: r.2)
    | (false, l) => (l, [(now, false)])

/-- Calls one after the other (poll_event.hh:9-25). -/
def callsTrace (W period last : Nat) : List Call → Nat × List (Nat × Bool)
  | [] => (last, [])
  | c :: l =>
    let r := callTrace W period last c
    let t := callsTrace W period r.1 l
    (t.1, r.2 ++ t.2)
end

/-- `poll` with an action that polls the same object at the same time with itself as action: how often the action runs, `none` if it has not ended after `fuel` calls (poll_event.hh:9-25). -/
def selfPoll (W period last now : Nat) : Nat → Option Nat
  | 0 => none
  | fuel + 1 =>
    match PollEvent.poll W period last now with
    | (true, l) => (selfPoll W period l now fuel).map (· + 1)
    | (false, _) => some 0

end PollNest
