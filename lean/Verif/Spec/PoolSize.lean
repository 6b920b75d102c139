import Verif.Spec.Pool
/-! # Specification: how many entries of a thread-safe pool are asked for at a time (C235) -/
namespace TsPool.Size

/-- Entries in use after an observation. -/
def use (u : Int) : Event → Int
  | .created _ _ => u + 1
  | .destroyed _ _ true => u - 1
  | _ => u

/-- Entries in use and running calls of `create()` together, after a step and what it observed: `create()` begins, fails, or gets an entry (which changes nothing), or an entry is given back. -/
def demand (d : Int) (a : Act) (es : List Event) : Int :=
  es.foldl (fun d e => match e with | .failed _ => d - 1 | .destroyed _ _ true => d - 1 | _ => d) (if a = .startCreate then d + 1 else d)

/-- At no time are there more than `m` entries in use. -/
def UseAtMost (m : Int) : Int → List (Nat × Act × List Event) → Prop
  | u, [] => u ≤ m
  | u, (_, _, es) :: l => u ≤ m ∧ UseAtMost m (es.foldl use u) l

/-- At no time are there more than `m` entries in use and running calls of `create()` together. -/
def DemandAtMost (m : Int) : Int → List (Nat × Act × List Event) → Prop
  | d, [] => d ≤ m
  | d, (_, a, es) :: l => d ≤ m ∧ DemandAtMost m (demand d a es) l

end TsPool.Size
