import Verif.Model.Oscs
/-!
# Oscillators, down counters and one-shots set by an interrupt

util/oscs.hh. The main program calls update() (or process()); an interrupt sets phase, frequency or pulse width, and may come between any two
accesses to the members. The setters store one member each, so that in the opposite arrangement (the interrupt updates, the main program sets)
only TriangleOscillator::val(), which reads the phase twice, can be disturbed. The members are neither atomic nor volatile: that the compiler makes
these accesses in this order is an assumption; with fewer loads there are fewer places for interrupts.
-/
namespace OscIsr
open Oscs

/-- What the interrupt does: oscs.hh:57-79, 114-119, 178-180, 196-204 (a phase or an increment is stored). -/
inductive Set where
  | phase (p : Nat)
  | inc (i : Nat)
  deriving DecidableEq, Repr

/-- A step: the interrupt; the main program begins update(), or goes on in it (oscs.hh:37-39, 97-99). -/
inductive Act where
  | isr (x : Set)
  | update
  | cont
  deriving DecidableEq, Repr

/-- Where the main program is in `phase_ += increment_`: outside; after loading the phase; after loading both (oscs.hh:38, 98). -/
inductive Pc where
  | idle
  | loaded (p : Nat)
  | both (p i : Nat)
  deriving DecidableEq, Repr

/-- the interrupt's store in a PhaseAccum or TriangleOscillator: oscs.hh:66-78, 115-118. -/
def setA (a : Accum) : Set → Accum
  | .phase p => { a with phase := p }
  | .inc i => { a with inc := i }

/-- One step; `none` if it cannot be made: oscs.hh:37-39, 97-99. -/
def step (s : Accum × Pc) : Act → Option (Accum × Pc)
  | .isr x => some (setA s.1 x, s.2)
  | .update => if s.2 = .idle then some (s.1, .loaded s.1.phase) else none
  | .cont =>
    match s.2 with
    | .idle => none
    | .loaded p => some (s.1, .both p s.1.inc)
    | .both p i => some ({ s.1 with phase := (p + i) % W }, .idle)

/-- A schedule (oscs.hh:37-39, 97-99). -/
def run (s : Accum × Pc) : List Act → Option (Accum × Pc)
  | [] => some s
  | a :: l =>
    match step s a with
    | none => none
    | some s => run s l

/-- `val()` of a TriangleOscillator that reads `p1` for the comparison and `p2` for the result: oscs.hh:42-44. -/
def triVal (p1 p2 : Nat) : Nat := if p1 > 0xFFFFFFFF / 2 then (0xFFFFFFFF + W - p2 * 2 % W) % W else p2 * 2 % W

/-- the interrupt's store in a DownCounter: oscs.hh:178-180, 196-204. -/
def setD (t : Down) : Set → Down
  | .phase p => { t with phase := p }
  | .inc i => { t with inc := i }

/-- several interrupts (oscs.hh:178-204). -/
def isrs (t : Down) (l : List Set) : Down := l.foldl setD t

/-- `DownCounter::update()` with interrupts: `a` after the test of line 183, `b` between the two loads of line 186, `c` after them, `d` between the
two loads of line 187, `e` before the store: oscs.hh:182-190. -/
def downUpdate (a b c d e : List Set) (t : Down) : Down :=
  let z := t.inc
  let t := isrs t a
  let t := if z = 0 then { t with phase := 0 } else t
  let p1 := t.phase
  let t := isrs t b
  let i1 := t.inc
  if p1 > i1 then
    let t := isrs t c
    let p2 := t.phase
    let t := isrs t d
    let i2 := t.inc
    let t := isrs t e
    { t with phase := (p2 + W - i2) % W }
  else
    let t := isrs t c
    { t with phase := 0 }

/-- A step with a OneShot: the interrupt sets the pulse width (start(w); stop() is a width of 0); the main program begins update(), or goes on in it
(oscs.hh:220-236). -/
inductive ActO where
  | isr (w : ℚ)
  | update
  | cont
  deriving DecidableEq

/-- What happens: the width was set; the test of update() succeeded; the width was loaded again; update() returned (oscs.hh:220-236). -/
inductive EvO where
  | set (w : ℚ)
  | test
  | load
  | ret (b : Bool)
  deriving DecidableEq

/-- Where the main program is in OneShot::update(): outside; after the test; after the load for `-=` (oscs.hh:226-228). -/
inductive PcO where
  | idle
  | tested
  | loaded (w : ℚ)
  deriving DecidableEq

/-- One step; `dec w` is `w - increment_` (rounded); `none` if it cannot be made: oscs.hh:225-231. -/
def stepO (dec : ℚ → ℚ) (s : ℚ × PcO) : ActO → Option ((ℚ × PcO) × List EvO)
  | .isr w => some ((w, s.2), [.set w])
  | .update =>
    if s.2 = .idle then
      if s.1 > 0 then some ((s.1, .tested), [.test]) else some (s, [.ret false])
    else none
  | .cont =>
    match s.2 with
    | .idle => none
    | .tested => some ((s.1, .loaded s.1), [.load])
    | .loaded w => some ((dec w, .idle), [.ret true])

/-- A schedule (oscs.hh:220-236). -/
def runO (dec : ℚ → ℚ) (s : ℚ × PcO) : List ActO → Option ((ℚ × PcO) × List EvO)
  | [] => some (s, [])
  | a :: l =>
    match stepO dec s a with
    | none => none
    | some (s, e) =>
      match runO dec s l with
      | none => none
      | some (s, es) => some (s, e ++ es)

end OscIsr
