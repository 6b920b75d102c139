import Verif.Model.TogglerIsr
/-! # Specification: which answers the main program is owed (C169) -/

namespace TogglerIsr.Spec

/-- Is a "yes" owed to is_just_pressed() (`p = true`) or is_just_released() (`p = false`)? From an edge of that kind on, until the answer "yes" has been given or the edge has been withdrawn. -/
def owed (p : Bool) (o : Bool) : List Event → Bool
  | [] => o
  | .edge up :: l => owed p (if up = p then true else o) l
  | .onlyEdge up :: l => owed p (up = p) l
  | .answer q b :: l => owed p (if q = p ∧ b = true then false else o) l

/-- The registered state. -/
def level (h : Bool) : List Event → Bool
  | [] => h
  | .edge up :: l => level up l
  | .onlyEdge up :: l => level up l
  | .answer _ _ :: l => level h l

/-- How many edges of one kind were registered. -/
def edges (p : Bool) : List Event → Nat
  | [] => 0
  | .edge up :: l => (if up = p then 1 else 0) + edges p l
  | .onlyEdge up :: l => (if up = p then 1 else 0) + edges p l
  | .answer _ _ :: l => edges p l

/-- How often "yes" was answered to one question. -/
def yes (p : Bool) : List Event → Nat
  | [] => 0
  | .answer q b :: l => (if q = p ∧ b = true then 1 else 0) + yes p l
  | _ :: l => yes p l

end TogglerIsr.Spec
