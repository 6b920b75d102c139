import Verif.Model.StaticString
/-!
# `StaticString` read by an interrupt while the main program assigns to it (util/static_string.hh)

The class has `volatile` overloads of `copy` for strings shared with interrupts.  Every assignment is the list of the
contents of `_data` after each of its stores, in program order; an interrupt that comes during the call finds `_data` as
before the call or as one of these.
-/
namespace StringIsr

/-- `copy(const char *)`: static_string.hh:27-35; also 102, 104-111.  `s` are the bytes from the pointer on; `i` of them
have been copied. A source without NUL is not modelled (no store). -/
def copySteps (cap : Nat) (data : List Byte) (i : Nat) : List Byte → List (List Byte)
  | [] => []
  | c :: s =>
    if c ≠ 0 ∧ i < cap then data.set i c :: copySteps cap (data.set i c) (i + 1) s
    else [data.set i 0]

/-- `copy(std::string_view)`: static_string.hh:41-49. -/
def copySvSteps (cap : Nat) (data : List Byte) (i : Nat) : List Byte → List (List Byte)
  | [] => [data.set i 0]
  | c :: s =>
    data.set i c :: (if i + 1 ≥ cap then [(data.set i c).set (i + 1) 0] else copySvSteps cap (data.set i c) (i + 1) s)

/-- `clear()`: static_string.hh:37-39. -/
def clearSteps (data : List Byte) : List (List Byte) := [data.set 0 0]

/-- An assignment by the main program (static_string.hh:27-49). -/
inductive Call where
  | copy (s : List Byte)
  | copySv (s : List Byte)
  | clear

/-- The contents after each store of a call (static_string.hh:27-49). -/
def steps (cap : Nat) (data : List Byte) : Call → List (List Byte)
  | .copy s => copySteps cap data 0 s
  | .copySv s => copySvSteps cap data 0 s
  | .clear => clearSteps data

/-- All contents that an interrupt can find during a sequence of calls (static_string.hh:27-49). -/
def allSteps (cap : Nat) (data : List Byte) : List Call → List (List Byte)
  | [] => [data]
  | c :: cs => data :: (steps cap data c ++ allSteps cap ((steps cap data c).getLast?.getD data) cs)

end StringIsr
