import Verif.Model.OscIsr
/-! # Specification: the order in which calls and interrupts take effect -/
namespace OscIsr.Spec
open Oscs

/-- one after another, undisturbed: a store by the interrupt, or a whole update() -/
inductive Call where
  | set (x : Set)
  | update
  deriving DecidableEq, Repr

/-- the oscillator after these calls, one after another -/
def after (a : Accum) : List Call → Accum
  | [] => a
  | .set (.phase p) :: l => after (a.setPhase p) l
  | .set (.inc i) :: l => after { a with inc := i } l
  | .update :: l => after a.update l

/-- What the schedule amounts to (`n` accesses of an update() have been made): an update() takes effect when it loads the increment, increments are
stored when they are stored, phases stored during an update() are forgotten. -/
def effective : Nat → List Act → List Call
  | _, [] => []
  | 0, .isr x :: l => .set x :: effective 0 l
  | n + 1, .isr (.inc i) :: l => .set (.inc i) :: effective (n + 1) l
  | n + 1, .isr (.phase _) :: l => effective (n + 1) l
  | _, .update :: l => effective 1 l
  | 1, .cont :: l => .update :: effective 2 l
  | _, .cont :: l => effective 0 l

/-- everything the schedule contains, in order: nothing is lost, an update() takes effect when it loads the increment -/
def everything : Nat → List Act → List Call
  | _, [] => []
  | n, .isr x :: l => .set x :: everything n l
  | _, .update :: l => everything 1 l
  | 1, .cont :: l => .update :: everything 2 l
  | _, .cont :: l => everything 0 l

/-- no phase is stored during an update() -/
def NoPhaseWithin : Nat → List Act → Prop
  | _, [] => True
  | n + 1, .isr (.phase _) :: _ => n + 1 = 0
  | n, .isr _ :: l => NoPhaseWithin n l
  | _, .update :: l => NoPhaseWithin 1 l
  | 1, .cont :: l => NoPhaseWithin 2 l
  | _, .cont :: l => NoPhaseWithin 0 l

/-- for a OneShot: the width is set, or a whole update() is made -/
inductive CallO where
  | set (w : ℚ)
  | update
  deriving DecidableEq

/-- a OneShot's width after these calls, one after another, and the answers of update() -/
def afterO (dec : ℚ → ℚ) (w : ℚ) : List CallO → ℚ × List Bool
  | [] => (w, [])
  | .set w :: l => afterO dec w l
  | .update :: l =>
    if w > 0 then let r := afterO dec (dec w) l; (r.1, true :: r.2)
    else let r := afterO dec w l; (r.1, false :: r.2)

/-- the answers in a history -/
def answers : List EvO → List Bool
  | [] => []
  | .ret b :: l => b :: answers l
  | _ :: l => answers l

/-- Where the main program is, seen from outside, with the widths set since the test. -/
inductive Mode where
  | out
  | tested (ws : List ℚ)
  | loaded

/-- What the history amounts to: widths set between test and load come before the update() if the last of them is positive, otherwise after it;
widths set between load and store are forgotten. -/
def effectiveO : Mode → List EvO → List CallO
  | _, [] => []
  | .out, .set w :: l => .set w :: effectiveO .out l
  | .tested ws, .set w :: l => effectiveO (.tested (ws ++ [w])) l
  | .loaded, .set _ :: l => effectiveO .loaded l
  | _, .test :: l => effectiveO (.tested []) l
  | .tested ws, .load :: l =>
    (if ws.getLast?.any (fun w => decide (w ≤ 0)) then .update :: ws.map .set else ws.map .set ++ [.update]) ++ effectiveO .loaded l
  | _, .load :: l => effectiveO .loaded l
  | .out, .ret _ :: l => .update :: effectiveO .out l
  | _, .ret _ :: l => effectiveO .out l

/-- a width is set between the load and the store of an update() -/
def lost : Mode → List EvO → Bool
  | _, [] => false
  | .loaded, .set _ :: _ => true
  | m, .set _ :: l => lost m l
  | _, .test :: l => lost (.tested []) l
  | _, .load :: l => lost .loaded l
  | _, .ret _ :: l => lost .out l

end OscIsr.Spec
