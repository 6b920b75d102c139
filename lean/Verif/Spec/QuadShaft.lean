import Verif.Model.Poll
/-! # Specification: the shaft of an encoder

The shaft stands at a whole number of quarter steps; every fourth position is a detent. It is read often enough that it moves by at most one
quarter step between two readings, forwards (clockwise) or backwards. Contact bounce is the shaft, as the pins show it, going to and fro. -/

namespace Quad.Shaft

/-- What the shaft does between two readings. -/
inductive Move where
  | fwd | back | stay
  deriving DecidableEq, Repr

/-- By how many quarter steps. -/
def Move.by : Move → Int
  | .fwd => 1
  | .back => -1
  | .stay => 0

/-- The pins (A, B) at a position: both high at a detent (both low if inverted), then A, neither, B. -/
def pinsAt (invert : Bool) (x : Int) : Bool × Bool :=
  if x % 4 = 0 then (true != invert, true != invert)
  else if x % 4 = 1 then (true != invert, false != invert)
  else if x % 4 = 2 then (false != invert, false != invert)
  else (false != invert, true != invert)

/-- The pins read after each move. -/
def readings (invert : Bool) : Int → List Move → List (Bool × Bool)
  | _, [] => []
  | x, m :: l => pinsAt invert (x + m.by) :: readings invert (x + m.by) l

/-- Where the shaft ends. -/
def final : Int → List Move → Int
  | x, [] => x
  | x, m :: l => final (x + m.by) l

/-- The number of quarter steps made in one direction without turning round, negative if backwards. -/
def newRun (r : Int) : Move → Int
  | .fwd => if r > 0 then r + 1 else 1
  | .back => if r < 0 then r - 1 else -1
  | .stay => r

/-- What is reported: a step whenever the shaft arrives at a detent by three quarter steps or more without turning round. -/
def arrivals : Int → Int → List Move → List Direction
  | _, _, [] => []
  | x, r, m :: l =>
    (if (x + m.by) % 4 = 0 ∧ m = .fwd ∧ newRun r m ≥ 3 then Direction.cw
      else if (x + m.by) % 4 = 0 ∧ m = .back ∧ newRun r m ≤ -3 then Direction.ccw
      else Direction.none) :: arrivals (x + m.by) (newRun r m) l

/-- The detent the shaft was at last, after one move. -/
def newDetent (det x : Int) (m : Move) : Int := if (x + m.by) % 4 = 0 then (x + m.by) / 4 else det

/-- What a user should be told: a step exactly when the shaft arrives at another detent than the last. -/
def changes : Int → Int → List Move → List Direction
  | _, _, [] => []
  | det, x, m :: l =>
    (if newDetent det x m = det + 1 then Direction.cw else if newDetent det x m = det - 1 then Direction.ccw else Direction.none) ::
      changes (newDetent det x m) (x + m.by) l

/-- The shaft never turns back from the last quarter before the next detent. -/
def calm : Int → Int → List Move → Bool
  | _, _, [] => true
  | det, x, m :: l => !(x - 4 * det == 3 && m == .back) && !(x - 4 * det == -3 && m == .fwd) && calm (newDetent det x m) (x + m.by) l

/-- Clockwise steps minus counterclockwise ones. -/
def net (l : List Direction) : Int := l.count .cw - l.count .ccw

end Quad.Shaft
