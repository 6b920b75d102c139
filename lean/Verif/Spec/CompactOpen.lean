import Verif.Spec.CompactBinary
/-! # What a writer has described when some of its objects are not ended -/
namespace CompactBinary.Spec

/-- The entries of one description, then those of another. -/
def append : Desc → Desc → Desc
  | .done, e => e
  | .field k v rest, e => .field k v (append rest e)
  | .raw k v rest, e => .raw k v (append rest e)
  | .object k sub rest, e => .object k sub (append rest e)

/-- The calls up to some moment: complete entries, then an object that has been begun with its key and is not ended, and so on inwards. -/
def openCalls (d : Desc) : List (List Byte × Desc) → List Op
  | [] => calls d
  | (k, d') :: l => calls d ++ .beginObject k :: openCalls d' l

/-- What a reader takes this for: each object that is not ended is empty, and its entries follow it on the same level. -/
def flattened (d : Desc) : List (List Byte × Desc) → Desc
  | [] => d
  | (k, d') :: l => append d (.raw k [] (flattened d' l))

/-- Nesting depth of all of it. -/
def openDepth (d : Desc) : List (List Byte × Desc) → Nat
  | [] => depth d
  | (_, d') :: l => max (depth d) (openDepth d' l + 1)

end CompactBinary.Spec
