import Verif.Model.AlignHeap
/-! # Specification: what a heap must answer, and what users of an allocator rely on -/
namespace AlignHeap.Spec
open Alloc Alloc.Spec

/-- Two stretches of memory `[p, p + m)` and `[q, q + n)` without a common byte. -/
def Apart (p m q n : Nat) : Prop := p + m ≤ q ∨ q + n ≤ p

/-- The C standard's promise for an answer `p` of `aligned_alloc(align, r)` that is not null: an aligned block inside the address space, apart from all
the blocks in use and different from each of them. -/
def Honest (w align : Nat) (heap : List Block) (r p : Nat) : Prop :=
  0 < p ∧ align ∣ p ∧ p + r ≤ 2 ^ w ∧ ∀ b ∈ heap, p ≠ b.start ∧ Apart p r b.start b.size

/-- Every answer of the heap in the history is honest. -/
def HonestRun (w align sizeT : Nat) : St → List Op → Prop
  | _, [] => True
  | s, op :: l =>
    (∀ n p r, op = .alloc n (some p) → alignedRequest w align sizeT n = .ok (some r) → Honest w align s.heap r p) ∧
    ∀ s', step w align sizeT s op = .ok s' → HonestRun w align sizeT s' l

/-- What users rely on: every pointer they hold that is not null leads to memory for all their objects, aligned, and shared with
nobody else. -/
def Safe (w align sizeT : Nat) (held : List (Nat × Nat)) : Prop :=
  (∀ a ∈ held, a.1 ≠ 0 → align ∣ a.1 ∧ a.1 + a.2 * sizeT ≤ 2 ^ w) ∧
  held.Pairwise fun a b => a.1 ≠ 0 → b.1 ≠ 0 → Apart a.1 (a.2 * sizeT) b.1 (b.2 * sizeT)

end AlignHeap.Spec
