import Verif.Model.Alloc
import Verif.Model.Pool
/-!
# Allocating from an interrupt: `MonotonicAllocator` (util/monotonic_allocator.hh) and `Pool` (util/pool.hh)

A call of the main program is split at its accesses to memory; in the gaps an interrupt makes complete calls.
-/
namespace AllocIsr
open Alloc

/-! ### MonotonicAllocator -/

/-- A block that was handed out: where it begins, how long it is (monotonic_allocator.hh:14, 17). -/
structure Block where
  off : Nat
  size : Nat
  deriving DecidableEq, Repr

/-- Calls of `allocate` one after another: monotonic_allocator.hh:11-21. The blocks handed out. -/
def allocs (w : Nat) (a : Mono) : List Nat → Mono × List Block
  | [] => (a, [])
  | n :: ns =>
    match a.allocate w n with
    | (a', some o) => let r := allocs w a' ns; (r.1, ⟨o, n⟩ :: r.2)
    | (a', none) => allocs w a' ns

/-- `allocate(size)` by the main program: monotonic_allocator.hh:11-21, interrupted by allocations `g1` between reading
`offset` for the check (line 12) and for the result (line 14), `g2` before it is read to be increased, `g3` before it is
stored (line 15).  The state, the result, the blocks the interrupts got in each gap. -/
def interrupted (w : Nat) (a : Mono) (size : Nat) (g1 g2 g3 : List Nat) :
    Mono × Option Block × List Block × List Block × List Block :=
  let remaining := a.freeSpace w
  let r1 := allocs w a g1
  if remaining > size then
    let result := r1.1.offset
    let r2 := allocs w r1.1 g2
    let o := r2.1.offset
    let r3 := allocs w r2.1 g3
    (⟨a.arena, (o + size) % 2 ^ w⟩, some ⟨result, size⟩, r1.2, r2.2, r3.2)
  else (r1.1, none, r1.2, [], [])

/-! ### Pool -/

/-- A call of an interrupt: pool.hh:23-57. -/
inductive Op where
  | create
  | destroy (i : Nat)
  deriving DecidableEq, Repr

/-- What has happened to the entries: made by `create`, freed by `destroy` (pool.hh:23-57). -/
inductive Event where
  | made (i : Nat)
  | freed (i : Nat)
  deriving DecidableEq, Repr

/-- A complete `create` or `destroy` on the `used` flags (the data takes no part): pool.hh:23-33, 49-57. -/
def call (used : List Bool) : Op → List Bool × List Event
  | .create =>
    match used.findIdx? (fun b => !b) with
    | some i => (used.set i true, [.made i])
    | none => (used, [])
  | .destroy i => if used[i]? = some true then (used.set i false, [.freed i]) else (used, [])

/-- Calls one after another (pool.hh:23-57). -/
def calls (used : List Bool) : List Op → List Bool × List Event
  | [] => (used, [])
  | o :: os =>
    let r := call used o
    let r' := calls r.1 os
    (r'.1, r.2 ++ r'.2)

/-- `create()` by the main program from entry `i` on: pool.hh:24-30.  `gaps`: the calls of interrupts before `used` of each
entry is read; `win`: those between reading `used` of the entry it takes and setting it (lines 25, 26).  The flags, the
entry the main program gets, what the interrupts did. -/
def mainCreate (win : List Op) : List (List Op) → List Bool → Nat → List Bool × Option Nat × List Event
  | [], used, _ => (used, none, [])
  | g :: gs, used, i =>
    let r := calls used g
    match r.1[i]? with
    | some false =>
      let r' := calls r.1 win
      (r'.1.set i true, some i, r.2 ++ r'.2)
    | some true =>
      let r' := mainCreate win gs r.1 (i + 1)
      (r'.1, r'.2.1, r.2 ++ r'.2.2)
    | none => (r.1, none, r.2)

end AllocIsr
