import Verif.Model.WearShared
/-! # What several objects over one block should read -/
namespace WearLevel.Spec
variable {D : Type}

/-- The record written last by anyone, and for each object the record that was last when the object was constructed or itself wrote. -/
structure View (D : Type) where
  last : Option D
  seen : Nat → Option D

def view : List (SharedAct D) → View D → View D
  | [], w => w
  | .construct i :: as, w => view as ⟨w.last, fun j => if j = i then w.last else w.seen j⟩
  | .write i d :: as, w => view as ⟨some d, fun j => if j = i then some d else w.seen j⟩

def records : List (SharedAct D) → List D
  | [] => []
  | .construct _ :: as => records as
  | .write _ d :: as => d :: records as

/-- every write directly after a construction of the same object -/
def freshWrites (l : List (Nat × D)) : List (SharedAct D) := l.flatMap fun p => [.construct p.1, .write p.1 p.2]

end WearLevel.Spec
