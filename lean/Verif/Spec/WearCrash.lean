import Verif.Spec.WearLevel
/-! # Specification: wear levelling through any history of power cuts (C203)

What a user does, and what happens to the device: a record is written; the device is restarted; power fails after `k` low-level operations of a
`write(d)` call (a low-level write that was reached leaves `j` in its cell: the record, or the residue of an interrupted write), and the device is
restarted; or anything happens to the block, which then holds `rest`, and the device is restarted.
-/
namespace WearLevel.Crash
variable {σ D : Type}

inductive Act (D : Type) where
  | write (d : D)
  | restart
  | cut (d : D) (k : Nat) (j : D)
  | damage (rest : List D)
  deriving DecidableEq, Repr

/-- What reached the block: it was erased; a cell that was free was given `j`; it came to hold `rest`. -/
inductive Op (D : Type) where
  | erase
  | write (j : D)
  | becomes (rest : List D)
  deriving DecidableEq, Repr

/-- The part of low-level events that matters, with `j` as what was written. -/
def opsOf (j : D) : List Event → List (Op D)
  | [] => []
  | .erase true :: l => .erase :: opsOf j l
  | .write _ true :: l => .write j :: opsOf j l
  | _ :: l => opsOf j l

/-- The history: block and `cell_` after it, and what reached the block. -/
def run [DecidableEq D] (e : D) (clash : D → D → D) (valid : D → Bool) (v : Variant) (N : Nat) (data0 : D) :
    List (Act D) → List D × Nat → (List D × Nat) × List (Op D)
  | [], p => (p, [])
  | .write d :: as, p =>
    let r := write (flash e clash) v N d p.2 p.1
    let ev := writeLog (flash e clash) v N d p.2 p.1
    let q := run e clash valid v N data0 as (r.1, r.2.1)
    (q.1, opsOf d (ev.map (·.1)) ++ q.2)
  | .restart :: as, p => run e clash valid v N data0 as (ctor (flash e clash) valid N p.1 data0)
  | .cut d k j :: as, p =>
    let ev := (writeLog (flash e clash true (fun _ => j)) v N d p.2 p.1).take k
    let left := (ev.getLast?.map (·.2)).getD p.1
    let q := run e clash valid v N data0 as (ctor (flash e clash) valid N left data0)
    (q.1, opsOf j (ev.map (·.1)) ++ q.2)
  | .damage rest :: as, p =>
    let q := run e clash valid v N data0 as (ctor (flash e clash) valid N rest data0)
    (q.1, .becomes rest :: q.2)

/-- The record that counts: the last valid one that reached the block since it was last erased. -/
def counts (valid : D → Bool) (o : Option D) : List (Op D) → Option D
  | [] => o
  | .erase :: l => counts valid none l
  | .write j :: l => counts valid (if valid j then some j else o) l
  | .becomes rest :: l => counts valid (latest valid rest rest.length) l

/-- Damage leaves the size of the block as it is. -/
def Sized (N : Nat) : List (Act D) → Prop
  | [] => True
  | .damage rest :: l => rest.length = N ∧ Sized N l
  | _ :: l => Sized N l

/-- The last valid record that reached the block, whatever was erased. -/
def lastValid (valid : D → Bool) (o : Option D) : List (Op D) → Option D
  | [] => o
  | .write j :: l => lastValid valid (if valid j then some j else o) l
  | _ :: l => lastValid valid o l

/-- The block is not damaged, and whenever it was erased a valid record reached it next: power did not fail in between, and the record written was valid. -/
def Covered (valid : D → Bool) : List (Op D) → Prop
  | [] => True
  | .erase :: .write j :: l => valid j = true ∧ Covered valid l
  | .erase :: _ => False
  | .write _ :: l => Covered valid l
  | .becomes _ :: _ => False

end WearLevel.Crash
