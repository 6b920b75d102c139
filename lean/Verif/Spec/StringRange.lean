import Verif.Mem
/-! # What a text is after its characters have been edited in place -/
namespace StringRange.Spec

/-- the characters before the first NUL -/
def cut : List Byte → List Byte
  | [] => []
  | c :: t => if c = 0 then [] else c :: cut t

/-- each character replaced, from the first to the last, the variables of the loop handed on -/
def edited {σ : Type} (body : σ → Byte → σ × Byte) : σ → List Byte → List Byte
  | _, [] => []
  | v, c :: t => (body v c).2 :: edited body (body v c).1 t

/-- characters replaced at given positions -/
def written : List Byte → List (Nat × Byte) → List Byte
  | t, [] => t
  | t, (i, c) :: ws => written (t.set i c) ws

end StringRange.Spec
