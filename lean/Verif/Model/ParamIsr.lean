import Verif.Model.Params
/-!
# Parameters set by an interrupt

util/parameter.hh. The interrupt sets a Parameter, the variable of a RefParameter or a LatchedParam; the main program asks `isChanged()` or `did_change()`, and the interrupt may come between any two accesses to memory of such a call; the interrupt
itself is not interrupted. The members are neither atomic nor volatile: that the compiler makes these accesses in this order is an assumption.
-/
namespace ParamIsr
variable {α : Type} [DecidableEq α]

/-- A step: the interrupt sets a value; the main program asks; it goes on in that call (parameter.hh:15-30, 58-73, 101-113). -/
inductive Act (α : Type) where
  | set (v : α)
  | ask
  | cont
  deriving DecidableEq, Repr

/-- What happens: the interrupt set a value (`news`: it counts as a change); a call of the main program begins; it answers (parameter.hh:15-30, 58-73, 101-113). -/
inductive Event (α : Type) where
  | set (v : α) (news : Bool)
  | begin
  | answer (b : Bool)
  deriving DecidableEq, Repr

/-- A `Parameter` and the main program: in `isChanged()` it has read `changed` (parameter.hh:69-73). -/
structure St (α : Type) where
  p : Param α
  saw : Option Bool

/-- One step of `Parameter`; `none` if it cannot be made: parameter.hh:58-63, 69-73. -/
def step (s : St α) : Act α → Option (St α × List (Event α))
  | .set v => some ({ s with p := s.p.set v }, [.set v (decide (v ≠ s.p.cur))])
  | .ask => if s.saw = none then some ({ s with saw := some s.p.changed }, [.begin]) else none
  | .cont => match s.saw with
    | none => none
    | some b => some (⟨{ s.p with changed := false }, none⟩, [.answer b])

/-- A schedule (parameter.hh:58-73). -/
def run (s : St α) : List (Act α) → Option (St α × List (Event α))
  | [] => some (s, [])
  | a :: l =>
    match step s a with
    | none => none
    | some (s, e) => match run s l with
      | none => none
      | some (s, es) => some (s, e ++ es)

/-- Initial state: parameter.hh:50-56, 88-89. -/
def init (v : α) : St α := ⟨Param.init v, none⟩

namespace Ref

/-- A `RefParameter` and the main program: whether `isChanged()` has found a difference and is about to read the variable again (parameter.hh:106-112). -/
structure St (α : Type) where
  p : RefParam α
  saw : Bool

/-- One step; `none` if it cannot be made: parameter.hh:101-113. -/
def step (s : St α) : Act α → Option (St α × List (Event α))
  | .set v => some ({ s with p := { s.p with ref := v } }, [.set v (decide (v ≠ s.p.ref))])
  | .ask => if s.saw then none else if s.p.ref = s.p.last then some (s, [.begin, .answer false]) else some ({ s with saw := true }, [.begin])
  | .cont => if s.saw then some (⟨{ s.p with last := s.p.ref }, false⟩, [.answer true]) else none

/-- A schedule (parameter.hh:101-113). -/
def run (s : St α) : List (Act α) → Option (St α × List (Event α))
  | [] => some (s, [])
  | a :: l =>
    match step s a with
    | none => none
    | some (s, e) => match run s l with
      | none => none
      | some (s, es) => some (s, e ++ es)

end Ref

namespace Latch

/-- A `LatchedParam` with exact differences and the main program: whether `did_change()` has seen `changed` set (parameter.hh:8-9, 24-30). -/
structure St where
  p : Latched Int
  saw : Bool
  deriving DecidableEq

/-- One step, with threshold `m`; `none` if it cannot be made: parameter.hh:15-30. -/
def step (m : Int) (s : St) : Act Int → Option (St × List (Event Int))
  | .set v => match s.p.store (fun _ => true) m v with
    | .ok (p, b) => some ({ s with p := p }, [.set v b])
    | .ub => none
  | .ask => if s.saw then none else if s.p.changed then some ({ s with saw := true }, [.begin]) else some (s, [.begin, .answer false])
  | .cont => if s.saw then some (⟨{ s.p with changed := false }, false⟩, [.answer true]) else none

/-- A schedule (parameter.hh:15-30). -/
def run (m : Int) (s : St) : List (Act Int) → Option (St × List (Event Int))
  | [] => some (s, [])
  | a :: l =>
    match step m s a with
    | none => none
    | some (s, e) => match run m s l with
      | none => none
      | some (s, es) => some (s, e ++ es)

end Latch
end ParamIsr
