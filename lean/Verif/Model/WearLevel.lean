import Verif.Basic
/-!
# `WearLeveler` and `WearLevel` (util/wear_level.hh)

Both classes are the same code except for one assignment; `Variant` selects it.  The `Storage` class is a parameter, as in
the code: any state `σ` with four operations.  Its `read` gets the old contents of the caller's variable and returns the
new contents, so that a failing read may leave it alone.  `cell_++` is on naturals (it would take 2^64 failed writes to wrap).
-/
namespace WearLevel

/-- What wear_level.hh:11-17 requires of `Storage`, for an arbitrary implementation. -/
structure Storage (σ D : Type) where
  read : σ → D → Nat → σ × Bool × D
  write : σ → D → Nat → σ × Bool
  erase : σ → σ × Bool
  writeable : σ → Nat → σ × Bool

/-- `leveler`: class WearLeveler, wear_level.hh:18-77; `level`: class WearLevel, wear_level.hh:80-124. -/
inductive Variant where
  | leveler
  | level
  deriving DecidableEq, Repr

variable {σ D : Type}

/-- The scan of the constructors, wear_level.hh:30-38 and 87-95, starting at `cell_`: resulting storage and `cell_`. -/
def scan (S : Storage σ D) (valid : D → Bool) : Nat → σ → D → σ × Nat
  | 0, s, _ => (s, 0)
  | c + 1, s, data =>
    let r := S.read s data c
    if r.2.1 then
      if valid r.2.2 then (r.1, c + 1) else scan S valid c r.1 r.2.2
    else scan S valid c r.1 r.2.2

/-- Constructors: wear_level.hh:28-39 and 86-96; `data0` is the initial value of the local `data`. -/
def ctor (S : Storage σ D) (valid : D → Bool) (numCells : Nat) (s : σ) (data0 : D) : σ × Nat :=
  scan S valid numCells s data0

/-- `read`: wear_level.hh:43-52 and 98-107; the loop with counter `c`, which starts at `cell_`. -/
def read (S : Storage σ D) (valid : D → Bool) : Nat → σ → D → σ × Bool × D
  | 0, s, data => (s, false, data)
  | c + 1, s, data =>
    let r := S.read s data c
    if valid r.2.2 then (r.1, true, r.2.2) else read S valid c r.1 r.2.2

/-- The loop of `write`: wear_level.hh:62-75 and 111-122. Returns storage, `cell_` and the result. -/
def writeLoop (S : Storage σ D) (v : Variant) (numCells : Nat) (data : D) (erasedOnce : Bool) (cell : Nat) (s : σ) :
    σ × Nat × Bool :=
  let w := S.writeable s cell
  if w.2 = true then
    let r := S.write w.1 data cell
    (r.1, cell + 1, r.2)
  else if cell + 1 ≥ numCells then
    if erasedOnce then (w.1, cell + 1, false)
    else
      let r := S.erase w.1
      if r.2 then writeLoop S v numCells data true 0 r.1
      else
        match v with
        | .leveler => (r.1, 0, false)
        | .level => (r.1, cell + 1, false)
  else writeLoop S v numCells data erasedOnce (cell + 1) w.1
termination_by (if erasedOnce then 0 else 1, numCells - cell)
decreasing_by
  · simp_all [Prod.lex_def]
  · simp_all [Prod.lex_def]; omega

/-- `write`: wear_level.hh:60-76 and 109-123. -/
def write (S : Storage σ D) (v : Variant) (numCells : Nat) (data : D) (cell : Nat) (s : σ) : σ × Nat × Bool :=
  writeLoop S v numCells data false cell s

end WearLevel
