import Verif.Model.Bounce
/-! # Specification: strokes of a bouncing contact

A contact goes to a new level, chatters, and then stays there. Nothing here mentions shift registers or patterns. -/

namespace Debouncer.Bounce

/-- One stroke: after the first sample at the new level, `chatter` is read (anything at all), then the level `hold` times. -/
structure Stroke where
  chatter : List Bool
  hold : Nat

/-- What is read during strokes going alternately to the level `up` and to its opposite. -/
def signal : Bool → List Stroke → List Bool
  | _, [] => []
  | up, s :: l => up :: (s.chatter ++ (List.replicate s.hold up ++ signal (!up) l))

/-- Every stroke chatters for at most `n - 2` samples after its first and then holds for at least `n - 1`. -/
def settles (n : Nat) (l : List Stroke) : Bool := l.all fun s => s.chatter.length + 2 ≤ n && n ≤ s.hold + 1

/-- The level in force as `is_high` should tell it: the debounced one, or the raw sample. -/
def told (raw : Bool) (up b : Bool) : Bool := if raw then up else b

/-- What a user should hear: the event of a stroke once, at its first sample, and no other. -/
def expected (raw : Bool) : Bool → List Stroke → List (Bool × Bool × Bool)
  | _, [] => []
  | up, s :: l => (up, !up, up) :: ((s.chatter.map fun b => (false, false, told raw up b)) ++
      (List.replicate s.hold (false, false, up) ++ expected raw (!up) l))

/-- The configuration takes the first sample at a level after `n - 1` at the other one for an event, as the default does with `n = 12`. -/
def firstAfter (n : Nat) (c : DebounceCfg) : Bool :=
  (List.range 32).all (fun i => c.stateMask.getLsbD i == decide (i < n)) &&
    (List.range n).all (fun i => c.risingPattern.getLsbD i == decide (i = 0) && c.fallingPattern.getLsbD i == decide (i ≠ 0))

/-- How often a press (release) is told. -/
def presses (l : List (Bool × Bool × Bool)) : Nat := (l.filter fun a => a.1).length
def releases (l : List (Bool × Bool × Bool)) : Nat := (l.filter fun a => a.2.1).length

end Debouncer.Bounce
