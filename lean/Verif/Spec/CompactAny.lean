import Verif.Spec.CompactDeep
/-! # What any sequence of calls on the writer describes -/
namespace CompactBinary.Spec

/-- The entries so far of the outermost level, then, from the outside to the inside, each open object's key and its entries so far. -/
abbrev Shape := Desc × List (List Byte × Desc)

/-- An entry is added to the innermost open object. -/
def addEntry (e : Desc) : Desc → List (List Byte × Desc) → Shape
  | d, [] => (append d e, [])
  | d, (k, d') :: l => (d, (k, (addEntry e d' l).1) :: (addEntry e d' l).2)

/-- The innermost open object is ended and becomes an entry of the one around it. Without an open object nothing happens. -/
def closeInner : Desc → List (List Byte × Desc) → Shape
  | d, [] => (d, [])
  | d, [(k, d')] => (append d (.object k d' .done), [])
  | d, (k, d') :: q :: l => (d, (k, (closeInner d' (q :: l)).1) :: (closeInner d' (q :: l)).2)

/-- One call. -/
def shapeStep (s : Shape) : Op → Shape
  | .field k v => addEntry (.field k v .done) s.1 s.2
  | .raw k v => addEntry (.raw k v .done) s.1 s.2
  | .beginObject k => (s.1, s.2 ++ [(k, .done)])
  | .endObject => closeInner s.1 s.2

/-- All calls. -/
def shape (ops : List Op) : Shape := ops.foldl shapeStep (.done, [])

/-- What a reader takes this for if the writer keeps `m` levels: objects that are not ended and objects further inside than `m` are empty
and followed by their entries. -/
def understood : Nat → Desc → List (List Byte × Desc) → Desc
  | m, d, [] => limited m d
  | m, d, (k, d') :: l => append (limited m d) (.raw k [] (understood (m - 1) d' l))

end CompactBinary.Spec
