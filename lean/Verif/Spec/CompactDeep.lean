import Verif.Spec.CompactOpen
/-! # What a writer with a limited number of marks describes when objects are nested deeper -/
namespace CompactBinary.Spec

/-- Only `n` levels of objects are kept: an object further inside is empty and its entries follow it on the same level. -/
def limited : Nat → Desc → Desc
  | _, .done => .done
  | n, .field k v rest => .field k v (limited n rest)
  | n, .raw k v rest => .raw k v (limited n rest)
  | 0, .object k sub rest => .raw k [] (append (limited 0 sub) (limited 0 rest))
  | n + 1, .object k sub rest => .object k (limited n sub) (limited (n + 1) rest)

/-- The value of the field (not an object) under a path of keys. -/
def fieldAt (f : Fmt) : List (List Byte) → Desc → Option (List Byte)
  | [], _ => none
  | _ :: _, .done => none
  | k :: ks, .field k' v rest => if sameKey f k' k then (if ks = [] then some v else none) else fieldAt f (k :: ks) rest
  | k :: ks, .raw k' v rest => if sameKey f k' k then (if ks = [] then some v else none) else fieldAt f (k :: ks) rest
  | k :: ks, .object k' sub rest => if sameKey f k' k then fieldAt f ks sub else fieldAt f (k :: ks) rest
termination_by ks d => (ks.length, sizeOf d)

end CompactBinary.Spec
