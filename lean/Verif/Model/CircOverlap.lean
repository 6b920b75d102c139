import Verif.Model.CircAccess
/-!
# `CircularBufferAccess` reading into, and writing from, the memory it works on (util/circular_buffer_ext.hh)

`CircularBufferAccess` works on memory its user owns, so the span handed to `read` or `write` may be a part of that same memory. The loops are those of Model/CircAccess.lean; each element is taken from and put into the one array, one after the other.
-/
namespace CircAccess

variable {T : Type}

/-- `read` into the `n` elements of the buffer's memory that begin at index `b`: circular_buffer_ext.hh:36-46. -/
def readInto (s : St T) (b : Nat) : Nat → Bool → R (St T × Bool)
  | 0, wrapped => pure (s, wrapped)
  | n + 1, wrapped => do
    let d ← arrGet s.buf s.rd
    let buf ← arrSet s.buf b d
    let rd := s.rd + 1
    let (rd, wrapped) := if rd ≥ s.buf.length then (0, true) else (rd, wrapped)
    readInto { s with buf := buf, rd := rd } (b + 1) n wrapped

/-- `read_reverse` into the same: circular_buffer_ext.hh:48-58. -/
def readReverseInto (bits : Nat) (s : St T) (b : Nat) : Nat → Bool → R (St T × Bool)
  | 0, wrapped => pure (s, wrapped)
  | n + 1, wrapped => do
    let d ← arrGet s.buf s.rd
    let buf ← arrSet s.buf b d
    let rd := dec bits s.rd
    let (rd, wrapped) := if rd ≥ s.buf.length then (s.buf.length - 1, true) else (rd, wrapped)
    readReverseInto bits { s with buf := buf, rd := rd } (b + 1) n wrapped

/-- `write` of the `n` elements of the buffer's memory that begin at index `a`: circular_buffer_ext.hh:60-71. `mix d old` is the blend of line 63. -/
def writeFrom (mix : T → T → T) (s : St T) (a : Nat) : Nat → Bool → R (St T × Bool)
  | 0, wrapped => pure (s, wrapped)
  | n + 1, wrapped => do
    let d ← arrGet s.buf a
    let old ← arrGet s.buf s.wr
    let buf ← arrSet s.buf s.wr (mix d old)
    let wr := s.wr + 1
    let (wr, wrapped) := if wr ≥ s.buf.length then (0, true) else (wr, wrapped)
    writeFrom mix { s with buf := buf, wr := wr } (a + 1) n wrapped

/-- `write_reverse` of the same: circular_buffer_ext.hh:73-84. -/
def writeReverseFrom (bits : Nat) (mix : T → T → T) (s : St T) (a : Nat) : Nat → Bool → R (St T × Bool)
  | 0, wrapped => pure (s, wrapped)
  | n + 1, wrapped => do
    let d ← arrGet s.buf a
    let old ← arrGet s.buf s.wr
    let buf ← arrSet s.buf s.wr (mix d old)
    let wr := dec bits s.wr
    let (wr, wrapped) := if wr ≥ s.buf.length then (s.buf.length - 1, true) else (wr, wrapped)
    writeReverseFrom bits mix { s with buf := buf, wr := wr } (a + 1) n wrapped

end CircAccess
