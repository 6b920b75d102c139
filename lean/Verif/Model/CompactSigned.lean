import Verif.Model.CompactBinary
/-!
# `CompactBinaryParser` with a signed `DataSizeT`

util/compact_binary_parser.hh with, for example, `DataSizeT` = `int8_t`. The same simplifications as in `Verif/Model/CompactBinary.lean`; `DataSizeT` is no wider than
`size_t` (`W` bits). The writers store the low bytes of a size whatever the sign of the type, so their model is that of `Verif/Model/CompactBinary.lean`.
-/
namespace CompactBinary

/-- `header.size`, a signed integer of `n` bytes with this bit pattern: compact_binary_parser.hh:45-48, 80. -/
def sgn (n v : Nat) : Int := if v < 256 ^ n / 2 then v else (v : Int) - 256 ^ n

/-- Conversion of a signed value to `size_t`: compact_binary_parser.hh:59-60, 70-71, 96, 103. -/
def toSz (W : Nat) (i : Int) : Nat := (i % 2 ^ W).toNat

/-- `get_size_and_offset` for signed sizes: compact_binary_parser.hh:76-100. -/
def findLoopS (f : Fmt) (W : Nat) (key : List Byte) (parsing : List Byte) (off : Nat) : R (Int × Nat) :=
  if parsing.length ≥ f.K + f.S then do
    let header ← asBytes parsing (f.K + f.S)
    match h1 : advance parsing (f.K + f.S) with
    | none => .ok (0, 0)
    | some p1 =>
      let cmp ← keyCmp f (header.take f.K) key
      let sz := sgn f.S (fromLe (header.drop f.K))
      if cmp then .ok (sz, off + (f.K + f.S))
      else
        match h2 : advance p1 (toSz W sz) with
        | none => .ok (0, 0)
        | some p2 => findLoopS f W key p2 (off + (f.K + f.S) + toSz W sz)
  else .ok (0, 0)
termination_by parsing.length
decreasing_by
  have := advance_length h1
  have := advance_length h2
  have := f.S_pos
  omega

/-- `get_size` for signed sizes: compact_binary_parser.hh:102-104. -/
def getSizeS (f : Fmt) (W : Nat) (blob key : List Byte) : R Nat := do
  let r ← findLoopS f W key blob 0
  .ok (toSz W r.1)

/-- `offset + sz` in `ptrdiff_t`, undefined if it overflows: compact_binary_parser.hh:60, 70. -/
def addS (W : Nat) (offset : Nat) (sz : Int) : R Int := if (offset : Int) + sz < 2 ^ (W - 1) then .ok (offset + sz) else .ub

/-- `get<T>` for signed sizes: compact_binary_parser.hh:56-66; `n` = `sizeof(T)`. -/
def getS (f : Fmt) (W : Nat) (blob : List Byte) (n : Nat) (key : List Byte) : R (Option (List Byte)) := do
  let (sz, offset) ← findLoopS f W key blob 0
  if toSz W sz = n then do
    let e ← addS W offset sz
    if toSz W e ≤ blob.length then do
      let r ← asBytes (blob.drop offset) n
      .ok (some r)
    else .ok none
  else .ok none

/-- `get_node` for signed sizes: compact_binary_parser.hh:68-74 (`subspan` as in `getNode`). -/
def getNodeS (f : Fmt) (W : Nat) (blob : List Byte) (key : List Byte) : R (List Byte) := do
  let (sz, offset) ← findLoopS f W key blob 0
  let e ← addS W offset sz
  if toSz W e ≤ blob.length then
    if offset ≤ blob.length ∧ toSz W sz = 2 ^ W - 1 then .ok (blob.drop offset)
    else if offset + toSz W sz ≤ blob.length then .ok ((blob.drop offset).take (toSz W sz))
    else .ub
  else .ok []

end CompactBinary
