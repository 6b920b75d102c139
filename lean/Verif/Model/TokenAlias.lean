import Verif.Model.Strings
/-!
# `tokenize_string` on an element of the vector it appends to (util/string_util.hh)

`str` is a view and `delimiters` a reference, so each may refer to a string that is an element of `tokens` itself: `tokenize_string(v[0], v)`. `push_back` on a vector without spare capacity moves the elements elsewhere, and both then refer to
strings that are gone. The vector is its elements and its capacity; how much it grows is a parameter.
-/
namespace TokenAlias
open Strings

/-- The loop, string_util.hh:33-42. `sIn`, `dIn`: `str`, `delimiters` refer to an element of `tokens`. After a reallocation the searches of lines 38 and 41 use `delimiters` in any case, and characters of `str` if `pos` is inside it; using either
then is undefined. Once both are known to be independent of the vector it goes on with the new capacity. `none` when the loop has not ended after `fuel` rounds. -/
def loop (grow : Nat → Nat) (sIn dIn : Bool) (s delims : List Nat) : Nat → List (List Nat) → Nat → Option Nat → Option Nat → Option (R (List (List Nat)))
  | 0, _, _, _, _ => none
  | _ + 1, tokens, _, none, none => some (.ok tokens)
  | _ + 1, _, _, none, some _ => some .ub
  | fuel + 1, tokens, cap, some l, pos =>
    let moved := decide (tokens.length = cap)
    if moved && (dIn || (sIn && pos.isSome)) then some .ub
    else
      let lastPos := findFirst s (fun c => !delims.contains c) pos
      let pos' := findFirst s (fun c => delims.contains c) lastPos
      loop grow sIn dIn s delims fuel (tokens ++ [substr s l pos]) (if moved then grow cap else cap) lastPos pos'

/-- `tokenize_string`: string_util.hh:26-43. -/
def tokenize (grow : Nat → Nat) (sIn dIn : Bool) (s : List Nat) (tokens : List (List Nat)) (cap : Nat) (delims : List Nat) (fuel : Nat) : Option (R (List (List Nat))) :=
  let lastPos := findFirst s (fun c => !delims.contains c) (some 0)
  let pos := findFirst s (fun c => delims.contains c) lastPos
  loop grow sIn dIn s delims fuel tokens cap lastPos pos

end TokenAlias
