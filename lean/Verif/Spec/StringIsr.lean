import Verif.Basic
import Verif.Mem
/-!
# What an interrupt reads in a string that is being assigned
-/
namespace StringIsrSpec

/-- The first `j` characters of the new text, the rest of the old one. -/
def mixed (new old : List Byte) (j : Nat) : List Byte := new.take j ++ old.drop j

/-- The text before the first NUL of some bytes; none if there is no NUL. -/
inductive Reads : List Byte → List Byte → Prop
  | nul (l : List Byte) : Reads (0 :: l) []
  | char (c : Byte) (l t : List Byte) : c ≠ 0 → Reads l t → Reads (c :: l) (c :: t)

/-- What is read, one after the other, while `new` is assigned to a string whose array holds `data`: after `j` characters
these and whatever follows in the array; at last the new text. -/
def during (new data : List Byte) : List (List Byte) :=
  (List.range new.length).map (fun j => new.take (j + 1) ++ data.drop (j + 1))

end StringIsrSpec
