import Verif.Basic
/-!
# `MonotonicAllocator` (util/monotonic_allocator.hh), the size arithmetic of `AlignedAllocator` (util/aligned_allocator.hh)
and of `PaddedAligned` (util/padded_aligned.hh)

Addresses are offsets into the arena. `size_t` has `w` bits.
-/
namespace Alloc

/-- monotonic_allocator.hh:36-37. `arena` is the arena's size. -/
structure Mono where
  arena : Nat
  offset : Nat
  deriving DecidableEq, Repr

/-- Constructor: monotonic_allocator.hh:7-9. -/
def Mono.make (arena : Nat) : Mono := ⟨arena, 0⟩

/-- `arena.size() - offset` in `size_t`: monotonic_allocator.hh:12 and `free_space`: 27-29. -/
def Mono.freeSpace (w : Nat) (a : Mono) : Nat := (a.arena + 2 ^ w - a.offset % 2 ^ w) % 2 ^ w

/-- `allocate`: monotonic_allocator.hh:11-21. The result is the block's offset in the arena. -/
def Mono.allocate (w : Nat) (a : Mono) (size : Nat) : Mono × Option Nat :=
  let bytesRemaining := a.freeSpace w
  if bytesRemaining > size then (⟨a.arena, (a.offset + size) % 2 ^ w⟩, some a.offset)
  else (a, none)

/-- `reset`: monotonic_allocator.hh:23-25. -/
def Mono.reset (a : Mono) : Mono := ⟨a.arena, 0⟩

/-- `total_size`: monotonic_allocator.hh:31-33. -/
def Mono.totalSize (a : Mono) : Nat := a.arena

/-- `aligned_sz`: padded_aligned.hh:12, with `data_sz` = `sizeof(T)`. -/
def alignedSz (align dataSz : BitVec w) : BitVec w := (dataSz + (align - 1)) &&& (~~~ (align - 1))

/-- `pad_sz`: padded_aligned.hh:13. -/
def padSz (align dataSz : BitVec w) : BitVec w := alignedSz align dataSz - dataSz

/-- The byte count `allocate(n)` asks `aligned_alloc` for: aligned_allocator.hh:15-20; `none` if it asks for nothing.
`sizeT` is `sizeof(T)`. Division by an `Alignment` of 0 is undefined. -/
def alignedRequest (w align sizeT n : Nat) : R (Option Nat) :=
  if n = 0 then .ok none
  else if align = 0 then .ub
  else
    let size := (n * sizeT) % 2 ^ w
    .ok (some (((size + align + 2 ^ w - 1) % 2 ^ w / align * align) % 2 ^ w))

end Alloc
