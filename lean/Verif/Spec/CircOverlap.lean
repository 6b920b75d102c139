import Verif.Basic
/-! # Specification: copying within one ring of memory (C207) -/

namespace CircAccess.Spec

/-- The place `i` after `p` in a ring of `sz` places. -/
def fwd (sz p i : Nat) : Nat := (p + i) % sz

/-- The place `i` before `p` (`i ≤ sz`). -/
def bwd (sz p i : Nat) : Nat := (p + (sz - i)) % sz

/-- What a copy of `n` elements should do: place `dst j` gets the blend of what was at `src j` and at `dst j` before the copy began; all else stays. -/
def Snapshot {T : Type} (mix : T → T → T) (src dst : Nat → Nat) (n : Nat) (orig res : List T) : Prop :=
  res.length = orig.length ∧
  (∀ j, j < n → ∃ d o, orig[src j]? = some d ∧ orig[dst j]? = some o ∧ res[dst j]? = some (mix d o)) ∧
  ∀ x, (∀ j, j < n → dst j ≠ x) → res[x]? = orig[x]?

/-- What a copy of `n` elements does if the `j`-th one put is what was at `src (org j)` before the copy began. -/
def Copied {T : Type} (src dst org : Nat → Nat) (n : Nat) (orig res : List T) : Prop :=
  res.length = orig.length ∧
  (∀ j, j < n → ∃ d, orig[src (org j)]? = some d ∧ res[dst j]? = some d) ∧
  ∀ x, (∀ j, j < n → dst j ≠ x) → res[x]? = orig[x]?

/-- Some element is taken from a place that has been overwritten before. -/
def Hazard (src dst : Nat → Nat) (n : Nat) : Prop := ∃ i k, k < i ∧ i < n ∧ dst k = src i

/-- Which element of the source arrives at place `j` of the destination, both running forward, the destination beginning `d` places after the source: the first `d` repeat. -/
def repeated (d j : Nat) : Nat := if d = 0 then j else j % d

/-- The same if the two run towards each other, with `e` the sum of their beginnings: after they meet, what has been put is taken again. -/
def mirrored (sz e j : Nat) : Nat := min j ((e + (sz - j)) % sz)

end CircAccess.Spec
