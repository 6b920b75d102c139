import Verif.Mem
/-!
# `CircularBuffer` and `CircularBufferOpt` (util/circular_buffer.hh, util/circular_buffer_opt.hh)

The two classes have the same members and differ in what `get` returns on an empty buffer and in `fill_buffer`.
`N` is `max_size_` (a power of two); indices are `size_t` values, modelled as naturals: every value is at most
`N`, which is less than the range of `size_t`, so `head_ + 1` does not wrap.  `peek`'s `idx += tail_` is taken modulo `2^bits`, for a `size_t` of `bits` bits.
Not modelled: `first()` (returns a non-const reference from a const member, so it cannot be instantiated).
-/
namespace CircBuf

/-- Members of CircularBuffer: circular_buffer.hh:130-133; CircularBufferOpt: circular_buffer_opt.hh:130-133. -/
structure St (T : Type) where
  buf : List T
  head : Nat
  tail : Nat
  full : Bool
  deriving DecidableEq, Repr

variable {T : Type}

/-- Default construction: circular_buffer.hh:11,130-133; circular_buffer_opt.hh:14,130-133 (`buf_{}` value-initialises). -/
def init (N : Nat) (dflt : T) : St T := ⟨List.replicate N dflt, 0, 0, false⟩

/-- circular_buffer.hh:119-122; circular_buffer_opt.hh:119-122. -/
def incHead (N : Nat) (s : St T) : St T := { s with head := (s.head + 1) &&& (N - 1) }

/-- circular_buffer.hh:124-127; circular_buffer_opt.hh:124-127. -/
def incTail (N : Nat) (s : St T) : St T := { s with tail := (s.tail + 1) &&& (N - 1) }

/-- circular_buffer.hh:13-21; circular_buffer_opt.hh:16-24. -/
def put (N : Nat) (s : St T) (item : T) : R (St T) := do
  let b ← arrSet s.buf s.head item
  let s := { s with buf := b }
  let s := if s.full then incTail N s else s
  let s := incHead N s
  pure { s with full := decide (s.head = s.tail) }

/-- circular_buffer.hh:59-62; circular_buffer_opt.hh:66-69. -/
def empty (s : St T) : Bool := !s.full && decide (s.head = s.tail)

/-- circular_buffer.hh:64-66; circular_buffer_opt.hh:71-73. -/
def isFull (s : St T) : Bool := s.full

/-- CircularBufferOpt::get: circular_buffer_opt.hh:26-37. -/
def getOpt (N : Nat) (s : St T) : R (St T × Option T) := do
  if empty s then pure (s, none)
  else
    let val ← arrGet s.buf s.tail
    let s := { s with full := false }
    pure (incTail N s, some val)

/-- CircularBuffer::get: circular_buffer.hh:23-34 (`dflt` is `T()`). -/
def get (N : Nat) (dflt : T) (s : St T) : R (St T × T) := do
  if empty s then pure (s, dflt)
  else
    let val ← arrGet s.buf s.tail
    let s := { s with full := false }
    pure (incTail N s, val)

/-- circular_buffer.hh:40-45; circular_buffer_opt.hh:47-52. -/
def removeFirst (N : Nat) (s : St T) : St T :=
  if !empty s then incTail N { s with full := false } else s

/-- circular_buffer.hh:54-57; circular_buffer_opt.hh:61-64. -/
def reset (s : St T) : St T := { s with head := s.tail, full := false }

/-- circular_buffer.hh:77-88 (also num_filled, 100-102); circular_buffer_opt.hh:84-95, 106-108. -/
def count (N : Nat) (s : St T) : Nat :=
  if !s.full then
    if s.head ≥ s.tail then s.head - s.tail else N + s.head - s.tail
  else N

/-- circular_buffer.hh:36-38; circular_buffer_opt.hh:42-44. -/
def setHead (s : St T) (head : Nat) : St T := { s with head := head }

/-- CircularBuffer::peek: circular_buffer.hh:112-116. -/
def peek (bits N : Nat) (s : St T) (idx : Nat) : R T :=
  arrGet s.buf (((idx + s.tail) % 2 ^ bits) &&& (N - 1))

/-- CircularBuffer::fill_buffer(T): circular_buffer.hh:94-97. -/
def fillVal (s : St T) (val : T) : St T := { s with buf := s.buf.map fun _ => val }

/-- A call on the buffer (the member functions of circular_buffer.hh:6-134 and circular_buffer_opt.hh:9-134). -/
inductive Op (T : Type) where
  | put (item : T)
  | get
  | removeFirst
  | reset
  deriving DecidableEq, Repr

/-- One call; the result of a `get` is recorded (`getOpt`'s result) (circular_buffer_opt.hh:9-134). -/
def stepOpt (N : Nat) (s : St T) : Op T → R (St T × List (Option T))
  | .put x => do let s ← put N s x; pure (s, [])
  | .get => do let (s, r) ← getOpt N s; pure (s, [r])
  | .removeFirst => pure (removeFirst N s, [])
  | .reset => pure (reset s, [])

/-- One call on the non-optional class (circular_buffer.hh:6-134). -/
def step (N : Nat) (dflt : T) (s : St T) : Op T → R (St T × List T)
  | .put x => do let s ← put N s x; pure (s, [])
  | .get => do let (s, r) ← get N dflt s; pure (s, [r])
  | .removeFirst => pure (removeFirst N s, [])
  | .reset => pure (reset s, [])

/-- A sequence of calls on CircularBufferOpt, with all results of `get` (circular_buffer_opt.hh:9-134). -/
def runOpt (N : Nat) (s : St T) : List (Op T) → R (St T × List (Option T))
  | [] => pure (s, [])
  | op :: ops => do
    let (s, o) ← stepOpt N s op
    let (s, os) ← runOpt N s ops
    pure (s, o ++ os)

/-- A sequence of calls on CircularBuffer, with all results of `get` (circular_buffer.hh:6-134). -/
def run (N : Nat) (dflt : T) (s : St T) : List (Op T) → R (St T × List T)
  | [] => pure (s, [])
  | op :: ops => do
    let (s, o) ← step N dflt s op
    let (s, os) ← run N dflt s ops
    pure (s, o ++ os)

/-! ### fill_buffer, where the size of an element matters: the array is the list of its bytes -/

/-- CircularBuffer::fill_buffer(array): circular_buffer.hh:90-92; `sz = sizeof(T)`. -/
def fillArrayBytes (N sz : Nat) (buf src : List Byte) : R (List Byte) := memcpy buf 0 src (sz * N)

/-- CircularBufferOpt::fill_buffer(array): circular_buffer_opt.hh:97-99: copies `max_size_` bytes. -/
def fillArrayBytesOpt (N : Nat) (buf src : List Byte) : R (List Byte) := memcpy buf 0 src N

/-- CircularBufferOpt::fill_buffer(T): circular_buffer_opt.hh:101-103: `memset` of `max_size_` bytes with the value
converted to `unsigned char`; `val` is given by its value bytes, least significant first. -/
def fillValBytesOpt (N : Nat) (buf : List Byte) (val : List Byte) : R (List Byte) := memset buf (val.headD 0) N

end CircBuf
