import Verif.Model.ParamIsr
/-! # Specification: changes owed (C182) -/

namespace ParamIsr.Spec
variable {α : Type}

/-- Is the answer "changed" owed? From a change on, until the answer is given. -/
def owed (o : Bool) : List (Event α) → Bool
  | [] => o
  | .set _ n :: l => owed (o || n) l
  | .begin :: l => owed o l
  | .answer b :: l => owed (if b then false else o) l

/-- Are all answers right: "changed" exactly if that was owed? (`o`: owed now.) -/
def Right (o : Bool) : List (Event α) → Prop
  | [] => True
  | .set _ n :: l => Right (o || n) l
  | .begin :: l => Right o l
  | .answer b :: l => b = o ∧ Right (if b then false else o) l

/-- Does no change fall inside a call before which no change was owed? (`o`: owed now, `w`: inside such a call.) -/
def Quiet (o w : Bool) : List (Event α) → Prop
  | [] => True
  | .set _ n :: l => (w = true → n = false) ∧ Quiet (o || n) w l
  | .begin :: l => Quiet o (!o) l
  | .answer b :: l => Quiet (if b then false else o) false l

/-- The value set last (`v` initially). -/
def latest (v : α) : List (Event α) → α
  | [] => v
  | .set x _ :: l => latest x l
  | _ :: l => latest v l

/-- The value at the last answer "changed" (`r` initially; `v`: the value now). -/
def reported (v r : α) : List (Event α) → α
  | [] => r
  | .set x _ :: l => reported x r l
  | .begin :: l => reported v r l
  | .answer b :: l => reported v (if b then v else r) l

/-- How many changes there were. -/
def changes : List (Event α) → Nat
  | [] => 0
  | .set _ n :: l => (if n then 1 else 0) + changes l
  | _ :: l => changes l

/-- How often "changed" was answered. -/
def yes : List (Event α) → Nat
  | [] => 0
  | .answer b :: l => (if b then 1 else 0) + yes l
  | _ :: l => yes l

end ParamIsr.Spec
