import Verif.Mem
import Verif.Flt
/-!
# `CircularBufferAccess` (util/circular_buffer_ext.hh) and `CircularBufferBlock` (util/circular_buffer_block.hh)

Positions are `size_t` values of `bits` bits (any number: 32 on the project's processors, 64 on a desktop), modelled as naturals below `2^bits`; decrements wrap modulo `2^bits`.
The blend `value_type xfade = d * phase + buf[wr] * (1.f - phase)` is a parameter `mix d old` of the write
functions; its instances are `mixF` (float elements) and `mixInt` (integer elements).
-/
namespace CircAccess

/-- Members: circular_buffer_ext.hh:146-149; `sz` is `buf.length`. -/
structure St (T : Type) where
  buf : List T
  rd : Nat
  wr : Nat
  deriving DecidableEq, Repr

variable {T : Type}

/-- Constructor: circular_buffer_ext.hh:23-28. -/
def init (buffer : List T) (initialOffset : Nat) : St T := ⟨buffer, 0, initialOffset⟩

/-- `clear()`: circular_buffer_ext.hh:30-34. -/
def clear (zero : T) (s : St T) : St T := { s with buf := s.buf.map fun _ => zero }

/-- `read` of a span of `n` elements: circular_buffer_ext.hh:36-46.  Returns the elements read and whether it wrapped. -/
def read (s : St T) : Nat → Bool → R (St T × List T × Bool)
  | 0, wrapped => pure (s, [], wrapped)
  | n + 1, wrapped => do
    let d ← arrGet s.buf s.rd
    let rd := s.rd + 1
    let (rd, wrapped) := if rd ≥ s.buf.length then (0, true) else (rd, wrapped)
    let (s, ds, wrapped) ← read { s with rd := rd } n wrapped
    pure (s, d :: ds, wrapped)

/-- `rd--` on `size_t` (circular_buffer_ext.hh:51, 77). -/
def dec (bits p : Nat) : Nat := (p + (2 ^ bits - 1)) % 2 ^ bits

/-- `read_reverse`: circular_buffer_ext.hh:48-58. -/
def readReverse (bits : Nat) (s : St T) : Nat → Bool → R (St T × List T × Bool)
  | 0, wrapped => pure (s, [], wrapped)
  | n + 1, wrapped => do
    let d ← arrGet s.buf s.rd
    let rd := dec bits s.rd
    let (rd, wrapped) := if rd ≥ s.buf.length then (s.buf.length - 1, true) else (rd, wrapped)
    let (s, ds, wrapped) ← readReverse bits { s with rd := rd } n wrapped
    pure (s, d :: ds, wrapped)

/-- `write`: circular_buffer_ext.hh:60-71. -/
def write (mix : T → T → T) (s : St T) : List T → Bool → R (St T × Bool)
  | [], wrapped => pure (s, wrapped)
  | d :: ds, wrapped => do
    let old ← arrGet s.buf s.wr
    let xfade := mix d old
    let b ← arrSet s.buf s.wr xfade
    let wr := s.wr + 1
    let (wr, wrapped) := if wr ≥ s.buf.length then (0, true) else (wr, wrapped)
    write mix { s with buf := b, wr := wr } ds wrapped

/-- `write_reverse`: circular_buffer_ext.hh:73-84. -/
def writeReverse (bits : Nat) (mix : T → T → T) (s : St T) : List T → Bool → R (St T × Bool)
  | [], wrapped => pure (s, wrapped)
  | d :: ds, wrapped => do
    let old ← arrGet s.buf s.wr
    let xfade := mix d old
    let b ← arrSet s.buf s.wr xfade
    let wr := dec bits s.wr
    let (wr, wrapped) := if wr ≥ s.buf.length then (s.buf.length - 1, true) else (wr, wrapped)
    writeReverse bits mix { s with buf := b, wr := wr } ds wrapped

/-- `read_check_crossed`: circular_buffer_ext.hh:86-93. -/
def readCheckCrossed (s : St T) (n marker : Nat) : R (St T × List T × Bool) := do
  let wasBefore := decide (s.rd ≤ marker)
  let (s, ds, wrapped) ← read s n false
  let isBefore := decide (s.rd ≤ marker)
  let changed := wasBefore != isBefore
  pure (s, ds, changed != wrapped)

/-- `read_reverse_check_crossed`: circular_buffer_ext.hh:95-102. -/
def readReverseCheckCrossed (bits : Nat) (s : St T) (n marker : Nat) : R (St T × List T × Bool) := do
  let wasBefore := decide (s.rd ≤ marker)
  let (s, ds, wrapped) ← readReverse bits s n false
  let isBefore := decide (s.rd ≤ marker)
  let changed := wasBefore != isBefore
  pure (s, ds, changed != wrapped)

/-- `write_check_crossed`: circular_buffer_ext.hh:104-111. -/
def writeCheckCrossed (mix : T → T → T) (s : St T) (data : List T) (marker : Nat) : R (St T × Bool) := do
  let wasBefore := decide (s.wr < marker)
  let (s, wrapped) ← write mix s data false
  let isBefore := decide (s.wr < marker)
  let changed := wasBefore != isBefore
  pure (s, changed != wrapped)

/-- `rd_pos(pos)`: circular_buffer_ext.hh:137-139. -/
def setRdPos (s : St T) (pos : Nat) : St T := { s with rd := pos }

/-- `wr_pos(pos)`: circular_buffer_ext.hh:129-131. -/
def setWrPos (s : St T) (pos : Nat) : St T := { s with wr := pos }

/-- `value_type xfade = d * phase + buf[wr] * (1.f - phase)` for float elements: circular_buffer_ext.hh:63, 76. `rnd` rounds
the result of each operation (the identity for exact arithmetic, a `Flt.Nearest` function for binary32). -/
def mixF (rnd : ℚ → ℚ) (phase d old : ℚ) : ℚ := rnd (rnd (d * phase) + rnd (old * rnd (1 - phase)))

/-- The same for integer elements: `d` and `buf[wr]` are converted to `float`, the sum is converted back by truncation:
circular_buffer_ext.hh:63, 76. Simplified: that the conversion back is undefined if the sum is out of range is not modelled. -/
def mixInt (rnd : ℚ → ℚ) (phase : ℚ) (d old : Int) : Int :=
  let x := mixF rnd phase (rnd d) (rnd old)
  if 0 ≤ x then ⌊x⌋ else ⌈x⌉

end CircAccess

namespace CircBlock

/-- `CircularBufferBlock::write`: circular_buffer_block.hh:15-26, on the byte image of `data` (elements of `sz` bytes,
`SIZE` a power of two).  `block` is given by its bytes; `block.size()` is their number divided by `sz`.
The three `memcpy` calls take element counts as byte counts. -/
def write (SIZE sz : Nat) (data block : List Byte) (startPos : Nat) : R (List Byte) := do
  let n := block.length / sz
  let offset := startPos &&& (SIZE - 1)
  if offset + n ≤ SIZE then
    memcpy data (offset * sz) block n
  else
    let spaceAvail := SIZE - offset
    let data ← memcpy data (offset * sz) block spaceAvail
    memcpy data 0 (block.drop (spaceAvail * sz)) (n - spaceAvail)

end CircBlock
