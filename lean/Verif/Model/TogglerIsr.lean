import Verif.Model.Toggler
/-!
# Togglers fed by an interrupt

util/debouncer.hh, util/debouncer_compact.hh. The interrupt registers states or edges (`register_state`, or the edges of a Debouncer); the main program asks is_just_pressed() and is_just_released(), and the interrupt may come between any
two accesses to memory of such a call; the interrupt's own calls are not interrupted. The members of `Toggler` are separate variables; those of `TogglerCompact` share one byte, so that storing one of them is a load and a store of the
byte. (The members are neither atomic nor volatile: that the compiler makes these accesses in this order is an assumption.)
-/
namespace TogglerIsr

/-- What the interrupt calls: `register_state(b)`, `register_rising_edge()`, `register_falling_edge()` (debouncer.hh:63-89, debouncer_compact.hh:64-90). -/
inductive Isr where
  | state (b : Bool)
  | rise
  | fall
  deriving DecidableEq, Repr

/-- A step: an interrupt; the main program calls `is_just_pressed()` (`true`) or `is_just_released()` (`false`); it goes one step on in that call (debouncer.hh:40-58, debouncer_compact.hh:41-59). -/
inductive Act where
  | isr (i : Isr)
  | ask (pressed : Bool)
  | cont
  deriving DecidableEq, Repr

/-- What happens: the state changes from low to high or back (`edge true`, `edge false`); an edge is registered that withdraws an event of the other kind; an answer (debouncer.hh:40-89). -/
inductive Event where
  | edge (up : Bool)
  | onlyEdge (up : Bool)
  | answer (pressed : Bool) (b : Bool)
  deriving DecidableEq, Repr

/-- Where the main program is: outside, or in a call that has seen the flag set (debouncer.hh:41-42, 53-54). -/
inductive Pc where
  | idle
  | saw (pressed : Bool)
  deriving DecidableEq, Repr

/-- A toggler (debouncer.hh:4-16) and the main program. -/
structure St where
  t : Toggler
  pc : Pc
  deriving DecidableEq, Repr

/-- The interrupt's calls: debouncer.hh:63-89. -/
def isr (t : Toggler) : Isr → Toggler × List Event
  | .state b => (t.registerState b, if b = t.high then [] else [.edge b])
  | .rise => (t.registerRisingEdge, [.onlyEdge true])
  | .fall => (t.registerFallingEdge, [.onlyEdge false])

/-- One step; `none` if it cannot be made: debouncer.hh:40-89. -/
def step (s : St) : Act → Option (St × List Event)
  | .isr i => some ({ s with t := (isr s.t i).1 }, (isr s.t i).2)
  | .ask p =>
    if s.pc = .idle then
      if (if p then s.t.rising else s.t.falling) then some ({ s with pc := .saw p }, []) else some (s, [.answer p false])
    else none
  | .cont =>
    match s.pc with
    | .idle => none
    | .saw true => some (⟨{ s.t with rising := false }, .idle⟩, [.answer true true])
    | .saw false => some (⟨{ s.t with falling := false }, .idle⟩, [.answer false true])

/-- A schedule (debouncer.hh:40-89). -/
def run (s : St) : List Act → Option (St × List Event)
  | [] => some (s, [])
  | a :: l =>
    match step s a with
    | none => none
    | some (s, e) => match run s l with
      | none => none
      | some (s, es) => some (s, e ++ es)

/-- Initial state: debouncer.hh:12-16. -/
def init : St := ⟨{}, .idle⟩

namespace Compact

/-- Where the main program is: outside; in a call that has seen the flag set; in one that has loaded the byte for storing the cleared flag (debouncer_compact.hh:42-43, 54-55). -/
inductive Pc where
  | idle
  | saw (pressed : Bool)
  | loaded (pressed : Bool) (byte : TogglerCompact)
  deriving DecidableEq, Repr

/-- A toggler (debouncer_compact.hh:5-16) and the main program. -/
structure St where
  t : TogglerCompact
  pc : Pc
  deriving DecidableEq, Repr

/-- The interrupt's calls: debouncer_compact.hh:64-90. -/
def isr (t : TogglerCompact) : Isr → TogglerCompact × List Event
  | .state b => (t.registerState b, if b = t.isHigh then [] else [.edge b])
  | .rise => (t.registerRisingEdge, [.onlyEdge true])
  | .fall => (t.registerFallingEdge, [.onlyEdge false])

/-- One step; `none` if it cannot be made: debouncer_compact.hh:41-90. -/
def step (s : St) : Act → Option (St × List Event)
  | .isr i => some ({ s with t := (isr s.t i).1 }, (isr s.t i).2)
  | .ask p =>
    if s.pc = .idle then
      if (if p then s.t.rising else s.t.falling) ≠ 0 then some ({ s with pc := .saw p }, []) else some (s, [.answer p false])
    else none
  | .cont =>
    match s.pc with
    | .idle => none
    | .saw p => some ({ s with pc := .loaded p s.t }, [])
    | .loaded true byte => some (⟨{ byte with rising := 0 }, .idle⟩, [.answer true true])
    | .loaded false byte => some (⟨{ byte with falling := 0 }, .idle⟩, [.answer false true])

/-- A schedule (debouncer_compact.hh:41-90). -/
def run (s : St) : List Act → Option (St × List Event)
  | [] => some (s, [])
  | a :: l =>
    match step s a with
    | none => none
    | some (s, e) => match run s l with
      | none => none
      | some (s, es) => some (s, e ++ es)

/-- Initial state: debouncer_compact.hh:13-16. -/
def init : St := ⟨{}, .idle⟩

end Compact
end TogglerIsr
