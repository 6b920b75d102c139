import Verif.Model.Alloc
import Verif.Spec.Alloc
/-! # AlignedAllocator on a heap that may refuse (util/aligned_allocator.hh)

The C library's heap is not part of the library: what `aligned_alloc` answers is an input (`none` is a null pointer), and
`Spec/AlignHeap.lean` says what an answer must satisfy. -/
namespace AlignHeap
open Alloc Alloc.Spec

/-- `allocate(n)`: aligned_allocator.hh:15-27. `heap` are the blocks that `aligned_alloc` handed out and `free` has not taken
back; the result is the pointer, 0 for `nullptr`. -/
def allocate (w align sizeT n : Nat) (ans : Option Nat) (heap : List Block) : R (List Block × Nat) :=
  match alignedRequest w align sizeT n with
  | .ub => .ub
  | .ok none => .ok (heap, 0)
  | .ok (some r) =>
    match ans with
    | none => .ok (heap, 0)
    | some p => .ok (⟨p, r⟩ :: heap, p)

/-- `deallocate(p, n)`: aligned_allocator.hh:29-31. `free` of anything but null or a block of the heap is undefined. -/
def deallocate (p : Nat) (heap : List Block) : R (List Block) :=
  if p = 0 then .ok heap
  else if heap.any (fun b => b.start == p) then .ok (heap.eraseP (fun b => b.start == p))
  else .ub

/-- The heap, and what the users of all the allocators (which are interchangeable: aligned_allocator.hh:38-43) hold: pointer and
number of objects. -/
structure St where
  heap : List Block
  held : List (Nat × Nat)
  deriving DecidableEq, Repr

/-- A use of the allocators (aligned_allocator.hh:15-31): `allocate(n)`, with the heap's answer, or giving back what was
allocated `i`-th last of all that is held (nothing happens if there is none such). -/
inductive Op where
  | alloc (n : Nat) (ans : Option Nat)
  | free (i : Nat)
  deriving DecidableEq, Repr

/-- aligned_allocator.hh:15-31 -/
def step (w align sizeT : Nat) (s : St) : Op → R St
  | .alloc n ans =>
    match allocate w align sizeT n ans s.heap with
    | .ub => .ub
    | .ok (h, p) => .ok ⟨h, (p, n) :: s.held⟩
  | .free i =>
    match s.held[i]? with
    | none => .ok s
    | some (p, _) =>
      match deallocate p s.heap with
      | .ub => .ub
      | .ok h => .ok ⟨h, s.held.eraseIdx i⟩

/-- a history of uses: aligned_allocator.hh:15-31 -/
def run (w align sizeT : Nat) : St → List Op → R St
  | s, [] => .ok s
  | s, op :: l =>
    match step w align sizeT s op with
    | .ub => .ub
    | .ok s' => run w align sizeT s' l

end AlignHeap
