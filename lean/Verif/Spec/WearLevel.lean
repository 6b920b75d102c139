import Verif.Model.WearLevel
/-!
# Environment of the wear levellers: storage blocks

`flash` is a block of cells without faults: `e` is the content of an erased cell, a cell is writeable iff it is in the
block and erased, writing an erased cell stores the data, writing any other cell leaves some mixture `clash old new`.
Accesses outside the block fail.  With `eraseOk = false` the erase command fails and leaves the block unchanged.  `put d`
is what ends up in the cell when `d` is written: `d` itself, or the residue of an interrupted write.

`logged` wraps any storage and records every operation with its answer and the storage state right after it (so the log
also lists the states in which a power loss can leave the storage).
-/
namespace WearLevel
variable {σ D : Type}

def flash [DecidableEq D] (e : D) (clash : D → D → D) (eraseOk : Bool := true) (put : D → D := id) : Storage (List D) D where
  read s d c := match s[c]? with
    | some x => (s, true, x)
    | none => (s, false, d)
  write s d c := match s[c]? with
    | some x => (s.set c (if x = e then put d else clash x d), true)
    | none => (s, false)
  erase s := if eraseOk then (List.replicate s.length e, true) else (s, false)
  writeable s c := (s, decide (s[c]? = some e))

inductive Event where
  | read (cell : Nat) (ok : Bool)
  | write (cell : Nat) (ok : Bool)
  | erase (ok : Bool)
  | probe (cell : Nat) (writeable : Bool)
  deriving DecidableEq, Repr

def Event.isErase : Event → Bool
  | .erase _ => true
  | _ => false

def Event.isProbe : Event → Bool
  | .probe _ _ => true
  | _ => false

def Event.isWrite : Event → Bool
  | .write _ _ => true
  | _ => false

def logged (S : Storage σ D) : Storage (σ × List (Event × σ)) D where
  read s d c := let r := S.read s.1 d c; ((r.1, s.2 ++ [(.read c r.2.1, r.1)]), r.2)
  write s d c := let r := S.write s.1 d c; ((r.1, s.2 ++ [(.write c r.2, r.1)]), r.2)
  erase s := let r := S.erase s.1; ((r.1, s.2 ++ [(.erase r.2, r.1)]), r.2)
  writeable s c := let r := S.writeable s.1 c; ((r.1, s.2 ++ [(.probe c r.2, r.1)]), r.2)

/-- The operations a call of `write` performs, with the state after each. -/
def writeLog (S : Storage σ D) (v : Variant) (numCells : Nat) (data : D) (cell : Nat) (s : σ) : List (Event × σ) :=
  (write (logged S) v numCells data cell (s, [])).1.2

/-- What a user does with a wear leveller: write a record or restart the device. -/
inductive Act (D : Type) where
  | write (d : D)
  | restart
  deriving DecidableEq, Repr

/-- The effect of a history on storage and `cell_`. -/
def runActs (S : Storage σ D) (valid : D → Bool) (v : Variant) (numCells : Nat) (data0 : D) : List (Act D) → σ × Nat → σ × Nat
  | [], p => p
  | .write d :: as, p => let r := write S v numCells d p.2 p.1; runActs S valid v numCells data0 as (r.1, r.2.1)
  | .restart :: as, p => runActs S valid v numCells data0 as (ctor S valid numCells p.1 data0)

/-- The topmost valid record below cell `c` of a block. -/
def latest (valid : D → Bool) (cells : List D) (c : Nat) : Option D := (cells.take c).reverse.find? valid

/-- The outcome of a call of `read`: the record if it returned true. -/
def result (r : σ × Bool × D) : Option D := if r.2.1 then some r.2.2 else none

/-- Each cell is written at most once between two erases; `acc` are the cells written since the last erase. -/
def levelled (acc : List Nat) : List Event → Prop
  | [] => True
  | .write p _ :: l => p ∉ acc ∧ levelled (p :: acc) l
  | .erase true :: l => levelled [] l
  | .erase false :: l | .read _ _ :: l | .probe _ _ :: l => levelled acc l

/-- The erases and writes that `n` writes to a blank block of `N` cells should cause: cells 0, 1, 2, ... in turn, with an
erase before each return to cell 0. -/
def schedule (N : Nat) : Nat → List Event
  | 0 => []
  | n + 1 => schedule N n ++ (if n > 0 ∧ n % N = 0 then [.erase true] else []) ++ [.write (n % N) true]

/-- The last record written in a history, `o` if there is none. -/
def lastWritten (o : Option D) : List (Act D) → Option D
  | [] => o
  | .write d :: as => lastWritten (some d) as
  | .restart :: as => lastWritten o as

def writes : List (Act D) → List D
  | [] => []
  | .write d :: as => d :: writes as
  | .restart :: as => writes as

end WearLevel
