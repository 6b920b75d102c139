import Verif.Model.MemTestTop
/-! # Specification: the bytes of words (C217) -/

namespace MemTestTop.Spec

/-- The byte addresses the words at the given addresses consist of. -/
def covers (words : List Nat) (byte : Nat) : Prop := ∃ w ∈ words, w ≤ byte ∧ byte < w + 4

end MemTestTop.Spec
