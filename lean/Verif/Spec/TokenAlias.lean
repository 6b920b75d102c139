import Verif.Basic
/-! # Specification: tokens that are followed by a delimiter (C205) -/

namespace TokenAlias.Spec

/-- How many of the tokens are followed by a delimiter: all of them if the text ends with one, all but the last otherwise. -/
def followed (s delims : List Nat) (ts : List (List Nat)) : Nat := if (s.getLast?.any fun c => delims.contains c) then ts.length else ts.length - 1

end TokenAlias.Spec
