import Verif.Model.Poll
/-! # Specification of polling and of the encoder -/

namespace PollEvent.Spec
/-- Ticks elapsed from `last` to `now` on a clock with `W` values. -/
def elapsed (W last now : Nat) : Nat := (now + W - last) % W
end PollEvent.Spec

namespace Quad.Spec

/-- The sequence of distinct consecutive pin states, latest first, before it only (low, low). -/
def distinct : List (Bool × Bool) → List (Bool × Bool) → List (Bool × Bool)
  | acc, [] => acc
  | acc, s :: l => if s = acc.headD (false, false) then distinct acc l else distinct (s :: acc) l

/-- The pin states, written as in a timing diagram (A, B), of a clockwise detent: oldest first. -/
def cwPattern (invert : Bool) : List (Bool × Bool) :=
  [(true, false), (false, false), (false, true), (true, true)].map (fun s => (s.1 != invert, s.2 != invert))

/-- The same counterclockwise: A and B swapped. -/
def ccwPattern (invert : Bool) : List (Bool × Bool) :=
  [(false, true), (false, false), (true, false), (true, true)].map (fun s => (s.1 != invert, s.2 != invert))

/-- The last four of the distinct states, oldest first, padded with (low, low). -/
def lastFour (d : List (Bool × Bool)) : List (Bool × Bool) :=
  [d.getD 3 (false, false), d.getD 2 (false, false), d.getD 1 (false, false), d.getD 0 (false, false)]

end Quad.Spec
