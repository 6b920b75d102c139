import Verif.Model.AllocIsr
/-!
# When memory handed out to main program and interrupts is sound
-/
namespace AllocIsrSpec
open AllocIsr

/-- Two blocks share no byte. -/
def Apart (a b : Block) : Prop := ∀ x, ¬ ((a.off ≤ x ∧ x < a.off + a.size) ∧ (b.off ≤ x ∧ x < b.off + b.size))

/-- All blocks lie in the arena, no two share a byte, and every one lies before the offset from which the allocator goes
on (so later ones do not overlap it either). -/
def Sound (arena offset : Nat) (bs : List Block) : Prop :=
  bs.Pairwise Apart ∧ (∀ b ∈ bs, b.off + b.size ≤ arena) ∧ (∀ b ∈ bs, ∀ x, b.off ≤ x → x < b.off + b.size → x < offset)

/-- The entries in someone's hands after some events. -/
def live (l : List Nat) : List Event → List Nat
  | [] => l
  | .made i :: es => live (i :: l) es
  | .freed i :: es => live (l.erase i) es

/-- The flags say which entries are in someone's hands, each in one hand only. -/
def Tracks (used : List Bool) (l : List Nat) : Prop := l.Nodup ∧ ∀ i, i ∈ l ↔ used[i]? = some true

end AllocIsrSpec
