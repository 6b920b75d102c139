import Verif.Model.CompactBinary
/-!
# `CompactBinaryParser` with a `DataSizeT` wider than `size_t`

util/compact_binary_parser.hh with, for example, `DataSizeT` = `uint64_t` on a 32-bit processor: a size read from the blob is cut to `size_t` (`W` bits) when it is given to `advance`, `subspan` or returned by `get_size`. The same
simplifications as in `Verif/Model/CompactBinary.lean`.
-/
namespace CompactBinary

/-- `get_size_and_offset`: compact_binary_parser.hh:76-100, with the conversion of `header.size` to `size_t` in the call of `advance` (line 96). -/
def findLoopW (f : Fmt) (W : Nat) (key : List Byte) (parsing : List Byte) (off : Nat) : R (Nat × Nat) :=
  if parsing.length ≥ f.K + f.S then do
    let header ← asBytes parsing (f.K + f.S)
    match h1 : advance parsing (f.K + f.S) with
    | none => .ok (0, 0)
    | some p1 =>
      let cmp ← keyCmp f (header.take f.K) key
      let sz := fromLe (header.drop f.K)
      if cmp then .ok (sz, off + (f.K + f.S))
      else
        match h2 : advance p1 (sz % 2 ^ W) with
        | none => .ok (0, 0)
        | some p2 => findLoopW f W key p2 (off + (f.K + f.S) + sz % 2 ^ W)
  else .ok (0, 0)
termination_by parsing.length
decreasing_by
  have := advance_length h1
  have := advance_length h2
  have := f.S_pos
  omega

/-- `get_size`: compact_binary_parser.hh:102-104; the result is converted to `size_t`. -/
def getSizeW (f : Fmt) (W : Nat) (blob key : List Byte) : R Nat := do
  let r ← findLoopW f W key blob 0
  .ok (r.1 % 2 ^ W)

/-- `get<T>`: compact_binary_parser.hh:56-66; `n` = `sizeof(T)`. -/
def getW (f : Fmt) (W : Nat) (blob : List Byte) (n : Nat) (key : List Byte) : R (Option (List Byte)) := do
  let (sz, offset) ← findLoopW f W key blob 0
  if sz = n then
    if (offset + sz) % 2 ^ W ≤ blob.length then
      let r ← asBytes (blob.drop offset) n
      .ok (some r)
    else .ok none
  else .ok none

/-- `get_node`: compact_binary_parser.hh:68-74 (`subspan` as in `getNode`). -/
def getNodeW (f : Fmt) (W : Nat) (blob : List Byte) (key : List Byte) : R (List Byte) := do
  let (sz, offset) ← findLoopW f W key blob 0
  if (offset + sz) % 2 ^ W ≤ blob.length then
    if offset ≤ blob.length ∧ sz % 2 ^ W = 2 ^ W - 1 then .ok (blob.drop offset)
    else if offset + sz % 2 ^ W ≤ blob.length then .ok ((blob.drop offset).take (sz % 2 ^ W))
    else .ub
  else .ok []

end CompactBinary
