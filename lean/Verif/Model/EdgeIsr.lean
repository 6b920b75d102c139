import Verif.Model.Toggler
/-!
# An edge detector updated by an interrupt

util/edge_detector.hh:3-40. An interrupt calls `update()` or `reset()` of an `EdgeStateDetector`; the main program calls one of its queries. A query loads one member, then (unless the first one decides, `&&`) the other; interrupts may come between the
two loads, and are not interrupted themselves. In `changed()` the order of the two loads is unspecified: both are modelled. The members are neither atomic nor volatile: that the compiler makes two loads is an assumption.
-/
namespace EdgeIsr

/-- A query: edge_detector.hh:12-34 (`changed`, with the order of its loads: `stateFirst`). -/
inductive Query where
  | changed (stateFirst : Bool)
  | wentHigh
  | wentLow
  | stayingHigh
  | stayingLow
  deriving DecidableEq, Repr

/-- An interrupt: `update(b)` or `reset()` (edge_detector.hh:7-10, 36-39). -/
inductive Intr where
  | update (b : Bool)
  | reset
  deriving DecidableEq, Repr

/-- One interrupt: edge_detector.hh:7-10, 36-39. -/
def intr (e : EdgeState) : Intr → EdgeState
  | .update b => e.update b
  | .reset => e.reset

/-- Interrupts one after the other (edge_detector.hh:7-10, 36-39). -/
def intrs (e : EdgeState) (is : List Intr) : EdgeState := is.foldl intr e

/-- The answer of a query that starts with the detector in state `e`, if the interrupts `is` come between its two loads: edge_detector.hh:12-34. If the first load decides, there is no second one. -/
def call (q : Query) (e : EdgeState) (is : List Intr) : Bool :=
  match q with
  | .changed false => e.last != (intrs e is).state
  | .changed true => (intrs e is).last != e.state
  | .wentHigh => if !e.last then (intrs e is).state else false
  | .wentLow => if e.last then !(intrs e is).state else false
  | .stayingHigh => if e.last then (intrs e is).state else false
  | .stayingLow => if !e.last then !(intrs e is).state else false

end EdgeIsr
