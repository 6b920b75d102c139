import Verif.Model.Small
/-!
# Loops that write through zip() and countzip()

util/zip.hh, util/countzip.hh: dereferencing the iterator gives a tuple of references, so the body of `for (auto [in, out] : zip(a, b))` reads and writes the elements themselves. The same container may be passed more than once.
-/

namespace ZipWrite
open Zip

variable {α : Type}

/-- The containers of the program, by name (zip.hh:72-91 keeps references to those passed as lvalues). -/
abbrev Mem (α : Type) := Nat → List α

/-- A statement of the body: assign to the reference number `k` of the tuple a value computed from all references (zip.hh:63-65). -/
abbrev Stmt (α : Type) := Nat × (List α → α)

/-- One assignment through a reference into container `a` at `i` (zip.hh:63-65, `*args`). -/
def write (m : Mem α) (a i : Nat) (v : α) : R (Mem α) := do
  let l ← arrSet (m a) i v
  .ok fun b => if b = a then l else m b

/-- The body: its statements in order, each of which reads and writes through the references (zip.hh:63-65). An assignment to a component the tuple does not have does not compile. -/
def runBody (args is : List Nat) : List (Stmt α) → Mem α → R (Mem α)
  | [], m => .ok m
  | (k, f) :: st, m => do
    let t ← deref (args.map m) is
    match args[k]?, is[k]? with
    | some a, some i => do
      let m' ← write m a i (f t)
      runBody args is st m'
    | _, _ => .ub

/-- A range-for over `zip(args...)` or `countzip(args...)` with the body `body n` for the n-th tuple: zip.hh:40-61, 83-88, countzip.hh:40-62. The end iterators are taken once. `none` when more than `fuel` steps are taken. -/
def loop (args ends : List Nat) (body : Nat → List (Stmt α)) : Nat → Nat → List Nat → Mem α → R (Option (Mem α))
  | 0, _, is, m => if anyMatch is ends then .ok (some m) else .ok none
  | fuel + 1, cnt, is, m =>
    if anyMatch is ends then .ok (some m)
    else do
      let m' ← runBody args is (body cnt) m
      loop args ends body fuel (cnt + 1) (incr is) m'

/-- The whole loop (zip.hh:94-99, countzip.hh:99-107). -/
def forEach (args : List Nat) (body : Nat → List (Stmt α)) (fuel : Nat) (m : Mem α) : R (Option (Mem α)) :=
  loop args (args.map fun a => (m a).length) body fuel 0 (args.map fun _ => 0) m

end ZipWrite
