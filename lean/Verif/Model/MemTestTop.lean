import Verif.Model.MemTest
/-!
# Memory test with 32-bit addresses

util/mem_test.hh on a machine with 32-bit pointers, for which the header is written (`check(uint32_t, uint32_t)`). A pointer that passes the end of the address space starts again at 0 (what the hardware does; the language leaves it undefined).
-/
namespace MemTestTop

/-- The write pass with 32-bit pointers: the addresses of the words written, in order; `none` if the pass has not ended after `fuel` iterations: mem_test.hh:11-14. -/
def writes (wr stop : Nat) : Nat → Option (List Nat)
  | 0 => none
  | fuel + 1 => if wr < stop then (writes ((wr + 4) % 2 ^ 32) stop fuel).map (wr :: ·) else some []

/-- `check(uint32_t, uint32_t)`: the words it writes: mem_test.hh:31-36, 11-14. -/
def writesAddr (start stop : Nat) (fuel : Nat) : Option (List Nat) := if start > stop then some [] else writes start stop fuel

/-- The words the write pass of `MemTest` with unbounded addresses writes, for comparison with `MemTest.writePass`: a memory whose state is the list of the addresses written (mem_test.hh:12). -/
def logMem : Mem (List Nat) where
  wr s a _ := s ++ [a]
  rd _ _ := 0

end MemTestTop
