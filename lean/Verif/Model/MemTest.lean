import Verif.Basic
/-!
# Memory test

util/mem_test.hh. Memory is abstract: a state `σ` with a word write and a word read at a byte address, so that faulty memories are covered too.
-/

/-- A memory: writing a 32-bit word at an address, reading one (`*wr = seed` and `*rd` in mem_test.hh:12, 21; that the compiler
makes these accesses although the pointers are not volatile is an assumption). -/
structure Mem (σ : Type) where
  wr : σ → Nat → Nat → σ
  rd : σ → Nat → Nat

namespace MemTest

/-- `encode`: mem_test.hh:5 (32-bit unsigned arithmetic). -/
def encode (x : Nat) : Nat := (x * 0x55555555 + 0x00700707) % 2 ^ 32
/-- `initseed`: mem_test.hh:6. -/
def seed0 : Nat := 0x1234FEDC

/-- The write pass: mem_test.hh:11-14; a pointer advances by 4 bytes. -/
def writePass (m : Mem σ) (s : σ) (wr stop seed : Nat) : σ :=
  if wr < stop then writePass m (m.wr s wr seed) (wr + 4) stop (encode seed) else s
  termination_by stop - wr

/-- The read pass: mem_test.hh:20-25. -/
def readPass (m : Mem σ) (s : σ) (rd stop seed : Nat) : Bool :=
  if rd < stop then (if m.rd s rd ≠ seed then false else readPass m s (rd + 4) stop (encode seed)) else true
  termination_by stop - rd

/-- `check(uint32_t *, uint32_t *)`: mem_test.hh:4-29. -/
def check (m : Mem σ) (s : σ) (start stop : Nat) : Bool := readPass m (writePass m s start stop seed0) start stop seed0

/-- `check(uint32_t, uint32_t)`: mem_test.hh:31-37. -/
def checkAddr (m : Mem σ) (s : σ) (start stop : Nat) : Bool := if start > stop then false else check m s start stop

end MemTest
