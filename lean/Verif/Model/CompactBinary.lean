import Verif.Mem
/-!
# `CompactBinaryWriter`, `CompactBinarySerializer`, `CompactBinaryParser`
(util/compact_binary_writer.hh, util/compact_binary_serializer.hh, util/compact_binary_parser.hh)

Simplifications: values of trivially copyable types are the list of their bytes; `KeyT` is either an array of char or a type
whose `==` compares its bytes (integers, enums); `DataSizeT` is unsigned and no wider than `size_t` (signed types: Model/CompactSigned.lean; wider ones: Model/CompactWide.lean); positions and
counts do not wrap around `size_t` except where the parser adds a size read from the blob. A `describe` callable is the list of calls
it makes (the code calls sub-object callables twice: they are taken to make the same calls each time).
-/
namespace CompactBinary

/-- `sizeof(KeyT)`, `sizeof(DataSizeT)` and `std::is_array_v<KeyT>`: compact_binary_parser.hh:42-43, compact_binary_writer.hh:29-30. -/
structure Fmt where
  K : Nat
  S : Nat
  arr : Bool
  K_pos : 0 < K
  S_pos : 0 < S

/-- Little-endian bytes of an unsigned integer of `n` bytes, after conversion to that type
(`static_cast<DataSizeT>`, `std::bit_cast`): compact_binary_serializer.hh:76-79, compact_binary_writer.hh:83-88, 121-124. -/
def leBytes : Nat → Nat → List Byte
  | 0, _ => []
  | n + 1, v => BitVec.ofNat 8 v :: leBytes n (v / 256)

/-- The unsigned integer with these little-endian bytes (`std::bit_cast<Header>`): compact_binary_parser.hh:106-116. -/
def fromLe : List Byte → Nat
  | [] => 0
  | b :: l => b.toNat + 256 * fromLe l

/-- The calls a `describe` callable makes: `field`, `raw` and `object` (compact_binary_serializer.hh:81-103). -/
inductive Desc where
  | done
  | field (key value : List Byte) (rest : Desc)
  | raw (key data : List Byte) (rest : Desc)
  | object (key : List Byte) (sub rest : Desc)
  deriving DecidableEq, Repr

/-- The loop of `write_key` for array keys: compact_binary_serializer.hh:61-68, compact_binary_writer.hh:106-113. `tmp` is what is left of the
zero-initialised array. -/
def keyLoop : List Byte → List Byte → R (List Byte)
  | _, [] => .ok []
  | [], _ :: _ => .ub
  | c :: key, _ :: tmp => if c = 0 then .ok (c :: tmp) else do
    let r ← keyLoop key tmp
    .ok (c :: r)

/-- `write_key`: compact_binary_serializer.hh:60-74, compact_binary_writer.hh:105-119: the bytes emitted. -/
def keyBytes (f : Fmt) (key : List Byte) : R (List Byte) :=
  if f.arr then keyLoop key (List.replicate f.K 0) else if key.length = f.K then .ok key else .ub

/-- `Measurer`: compact_binary_serializer.hh:33-52. -/
def measureLoop (f : Fmt) : Desc → Nat → Nat
  | .done, count => count
  | .field _ v rest, count => measureLoop f rest (count + (f.K + f.S + v.length))
  | .raw _ d rest, count => measureLoop f rest (count + (f.K + f.S + d.length))
  | .object _ sub rest, count => measureLoop f rest (count + (f.K + f.S + measureLoop f sub 0))

/-- `measure`: compact_binary_serializer.hh:138-143. -/
def measure (f : Fmt) (d : Desc) : Nat := measureLoop f d 0

/-- `WriterBase::field`, `raw`, `object`: compact_binary_serializer.hh:81-103, for a writer with state `σ` and `emit`. -/
def describe {σ : Type} (f : Fmt) (emit : σ → List Byte → R σ) : Desc → σ → R σ
  | .done, w => .ok w
  | .field key v rest, w => do
    let k ← keyBytes f key
    let w ← emit w k
    let w ← emit w (leBytes f.S v.length)
    let w ← emit w v
    describe f emit rest w
  | .raw key d rest, w => do
    let k ← keyBytes f key
    let w ← emit w k
    let w ← emit w (leBytes f.S d.length)
    let w ← emit w d
    describe f emit rest w
  | .object key sub rest, w => do
    let m := measure f sub
    let k ← keyBytes f key
    let w ← emit w k
    let w ← emit w (leBytes f.S m)
    let w ← describe f emit sub w
    describe f emit rest w

/-- `SpanWriter`: buffer and position: compact_binary_serializer.hh:106-121; also the writer's `buf` and `pos`: compact_binary_writer.hh:33-34. -/
structure Span where
  buf : List Byte
  pos : Nat
  deriving DecidableEq, Repr

/-- `SpanWriter::emit`: compact_binary_serializer.hh:114-120; `CompactBinaryWriter::emit`: compact_binary_writer.hh:90-96. -/
def Span.emit (w : Span) : List Byte → R Span
  | [] => .ok w
  | b :: l =>
    if w.pos < w.buf.length then do
      let buf ← arrSet w.buf w.pos b
      Span.emit ⟨buf, w.pos + 1⟩ l
    else Span.emit ⟨w.buf, w.pos + 1⟩ l

/-- `serialize`: compact_binary_serializer.hh:146-151; the buffer afterwards and the returned size. -/
def serialize (f : Fmt) (output : List Byte) (d : Desc) : R Span := describe f Span.emit d ⟨output, 0⟩

/-- `SinkWriter`: compact_binary_serializer.hh:123-136: the chunks given to the sink, in order, and the count. -/
structure Sink where
  chunks : List (List Byte)
  count : Nat
  deriving DecidableEq, Repr

/-- `SinkWriter::emit`: compact_binary_serializer.hh:123-136. -/
def Sink.emit (w : Sink) (bytes : List Byte) : R Sink := .ok ⟨w.chunks ++ [bytes], w.count + bytes.length⟩

/-- `stream`: compact_binary_serializer.hh:153-158. -/
def stream (f : Fmt) (d : Desc) : R Sink := describe f Sink.emit d ⟨[], 0⟩

/-! ### The imperative writer -/

/-- `CompactBinaryWriter`: compact_binary_writer.hh:31-40. `stack` holds the `size_pos` of the marks. -/
structure Writer where
  w : Span
  stack : List Nat
  depth : Nat
  deriving DecidableEq, Repr

/-- Constructor: compact_binary_writer.hh:39-44. -/
def Writer.make (maxDepth : Nat) (output : List Byte) : Writer := ⟨⟨output, 0⟩, List.replicate maxDepth 0, 0⟩

/-- `write_at`: compact_binary_writer.hh:98-103; the loop, with `position + i` as its index. -/
def writeAt (buf : List Byte) (position : Nat) : List Byte → R (List Byte)
  | [] => .ok buf
  | b :: l =>
    if position < buf.length then do
      let buf ← arrSet buf position b
      writeAt buf (position + 1) l
    else writeAt buf (position + 1) l

/-- `field`: compact_binary_writer.hh:46-52, and `raw`: 54-58. -/
def Writer.raw (f : Fmt) (c : Writer) (key data : List Byte) : R Writer := do
  let k ← keyBytes f key
  let w ← c.w.emit k
  let w ← w.emit (leBytes f.S data.length)
  let w ← w.emit data
  .ok { c with w := w }

/-- `begin_object`: compact_binary_writer.hh:60-66. -/
def Writer.beginObject (f : Fmt) (maxDepth : Nat) (c : Writer) (key : List Byte) : R Writer := do
  let k ← keyBytes f key
  let w ← c.w.emit k
  let stack ← if c.depth < maxDepth then arrSet c.stack c.depth w.pos else .ok c.stack
  let w' ← w.emit (leBytes f.S 0)
  .ok ⟨w', stack, c.depth + 1⟩

/-- `end_object`: compact_binary_writer.hh:68-78. -/
def Writer.endObject (f : Fmt) (maxDepth : Nat) (c : Writer) : R Writer :=
  if c.depth = 0 then .ok c
  else
    let depth := c.depth - 1
    if depth < maxDepth then do
      let sizePos ← arrGet c.stack depth
      let dataStart := sizePos + f.S
      let buf ← writeAt c.w.buf sizePos (leBytes f.S (c.w.pos - dataStart))
      .ok ⟨⟨buf, c.w.pos⟩, c.stack, depth⟩
    else .ok { c with depth := depth }

/-- One call on the writer (the member functions of compact_binary_writer.hh:46-78). -/
inductive Op where
  | field (key value : List Byte)
  | raw (key data : List Byte)
  | beginObject (key : List Byte)
  | endObject
  deriving DecidableEq, Repr

/-- One call on the writer: compact_binary_writer.hh:46-78. -/
def Writer.op (f : Fmt) (maxDepth : Nat) (c : Writer) : Op → R Writer
  | .field k v => c.raw f k v
  | .raw k d => c.raw f k d
  | .beginObject k => c.beginObject f maxDepth k
  | .endObject => c.endObject f maxDepth

/-- A sequence of calls on the writer: compact_binary_writer.hh:46-78. -/
def Writer.ops (f : Fmt) (maxDepth : Nat) (c : Writer) : List Op → R Writer
  | [] => .ok c
  | o :: l => do
    let c ← c.op f maxDepth o
    Writer.ops f maxDepth c l

/-! ### The parser -/

/-- `advance`: compact_binary_parser.hh:118-124. -/
def advance (block : List Byte) (offset : Nat) : Option (List Byte) :=
  if offset ≥ block.length then none else some (block.drop offset)

/-- `as<T>`: compact_binary_parser.hh:106-116, `n` = `sizeof(T)`. -/
def asBytes (bytes : List Byte) : Nat → R (List Byte)
  | 0 => .ok []
  | n + 1 => match bytes with
    | [] => .ub
    | b :: l => do
      let r ← asBytes l n
      .ok (b :: r)

/-- `compare_nullterm_array`: compact_binary_parser.hh:126-135. -/
def compareNullterm : List Byte → List Byte → Nat → R Bool
  | _, _, 0 => .ok true
  | a :: as, b :: bs, s + 1 => if a = 0 ∧ b = 0 then .ok true else if a ≠ b then .ok false else compareNullterm as bs s
  | _, _, _ + 1 => .ub

/-- The comparison of keys: compact_binary_parser.hh:85-89. -/
def keyCmp (f : Fmt) (headerKey key : List Byte) : R Bool :=
  if f.arr then compareNullterm headerKey key f.K
  else if key.length = f.K then .ok (decide (headerKey = key)) else .ub

theorem advance_length {b b' : List Byte} {n : Nat} (h : advance b n = some b') : b'.length + n = b.length := by
  unfold advance at h
  split at h
  · cases h
  · cases h; simp; omega

/-- `get_size_and_offset`: compact_binary_parser.hh:76-100; the loop with the unparsed part and its offset in the blob. -/
def findLoop (f : Fmt) (key : List Byte) (parsing : List Byte) (off : Nat) : R (Nat × Nat) :=
  if parsing.length ≥ f.K + f.S then do
    let header ← asBytes parsing (f.K + f.S)
    match h1 : advance parsing (f.K + f.S) with
    | none => .ok (0, 0)
    | some p1 =>
      let cmp ← keyCmp f (header.take f.K) key
      let sz := fromLe (header.drop f.K)
      if cmp then .ok (sz, off + (f.K + f.S))
      else
        match h2 : advance p1 sz with
        | none => .ok (0, 0)
        | some p2 => findLoop f key p2 (off + (f.K + f.S) + sz)
  else .ok (0, 0)
termination_by parsing.length
decreasing_by
  have := advance_length h1
  have := advance_length h2
  have := f.S_pos
  omega

/-- `get_size_and_offset`: compact_binary_parser.hh:76-100. -/
def getSizeAndOffset (f : Fmt) (blob key : List Byte) : R (Nat × Nat) := findLoop f key blob 0

/-- `get_size`: compact_binary_parser.hh:102-104. -/
def getSize (f : Fmt) (blob key : List Byte) : R Nat := do
  let r ← getSizeAndOffset f blob key
  .ok r.1

/-- `get<T>`: compact_binary_parser.hh:56-66; `n` = `sizeof(T)`, `W` the width of `size_t`. -/
def get (f : Fmt) (W : Nat) (blob : List Byte) (n : Nat) (key : List Byte) : R (Option (List Byte)) := do
  let (sz, offset) ← getSizeAndOffset f blob key
  if sz = n then
    if (offset + sz) % 2 ^ W ≤ blob.length then
      let r ← asBytes (blob.drop offset) n
      .ok (some r)
    else .ok none
  else .ok none

/-- `get_node`: compact_binary_parser.hh:68-74. `subspan(offset, count)` is undefined if the part is not inside the blob, except
that the count `dynamic_extent` (2^W - 1) means the rest. -/
def getNode (f : Fmt) (W : Nat) (blob : List Byte) (key : List Byte) : R (List Byte) := do
  let (sz, offset) ← getSizeAndOffset f blob key
  if (offset + sz) % 2 ^ W ≤ blob.length then
    if offset ≤ blob.length ∧ sz % 2 ^ W = 2 ^ W - 1 then .ok (blob.drop offset)
    else if offset + sz % 2 ^ W ≤ blob.length then .ok ((blob.drop offset).take (sz % 2 ^ W))
    else .ub
  else .ok []

end CompactBinary
