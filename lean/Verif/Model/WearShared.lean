import Verif.Model.WearLevel
/-! # Several wear levellers over one block

util/wear_level.hh. Each object has its own `cell_` (line 19, 82); the storage is common to all. -/
namespace WearLevel
variable {σ D : Type}

/-- What the program does: construct (again) object `i`, or write a record with it: wear_level.hh:28-39, 60-76, 86-96, 109-123. -/
inductive SharedAct (D : Type) where
  | construct (i : Nat)
  | write (i : Nat) (d : D)
  deriving DecidableEq, Repr

/-- The storage and every object's `cell_` after a history: wear_level.hh:19, 28-39, 60-76, 82, 86-96, 109-123; the answers of write()
are left out. -/
def sharedRun (S : Storage σ D) (valid : D → Bool) (v : Variant) (numCells : Nat) (data0 : D) :
    List (SharedAct D) → σ × (Nat → Nat) → σ × (Nat → Nat)
  | [], p => p
  | .construct i :: as, p =>
    let r := ctor S valid numCells p.1 data0
    sharedRun S valid v numCells data0 as (r.1, fun j => if j = i then r.2 else p.2 j)
  | .write i d :: as, p =>
    let r := write S v numCells d (p.2 i) p.1
    sharedRun S valid v numCells data0 as (r.1, fun j => if j = i then r.2.1 else p.2 j)

end WearLevel
