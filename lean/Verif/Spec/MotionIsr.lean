import Verif.Model.MotionIsr
/-! # Specification: where the motion goes, and when a change is owed (C180) -/

namespace MotionIsr.Spec

/-- By how much the encoder was turned. -/
def turned : List Event → Int
  | [] => 0
  | .turn d :: l => d + turned l
  | _ :: l => turned l

/-- How much motion the main program has got. -/
def got : List Event → Int
  | [] => 0
  | .used v :: l => v + got l
  | _ :: l => got l

/-- How much the encoder was turned while a call had read `motion` and not yet cleared it (`w`: such a call is running). -/
def within (w : Bool) : List Event → Int
  | [] => 0
  | .turn d :: l => (if w then d else 0) + within w l
  | .load :: l => within true l
  | .used _ :: l => within false l

/-- Is the answer "changed" owed? From a change on, until it is given. -/
def owed (o : Bool) : List Change.Event → Bool
  | [] => o
  | .change :: l => owed true l
  | .answer b :: l => owed (if b then false else o) l

/-- How often the state changed. -/
def changes : List Change.Event → Nat
  | [] => 0
  | .change :: l => changes l + 1
  | .answer _ :: l => changes l

/-- How often "changed" was answered. -/
def yes : List Change.Event → Nat
  | [] => 0
  | .answer b :: l => (if b then 1 else 0) + yes l
  | .change :: l => yes l

end MotionIsr.Spec
