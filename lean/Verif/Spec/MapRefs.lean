import Verif.Model.MapRefs
/-! # What it means for a pointer into a SeqMap to stay attached to its key -/
namespace SeqMap.Spec
variable {K V : Type} [DecidableEq K]

/-- After every call of the history `key_exists(k)` is true. -/
def Stays (k0 : K) (v0 : V) (k : K) : SeqMap.St K V → List (Call K V) → Prop
  | s, [] => keyExists s k = true
  | s, c :: cs => keyExists s k = true ∧ ∃ s', call k0 v0 s c = .ok s' ∧ Stays k0 v0 k s' cs

/-- The value last given to `k` (by `overwrite(k, _)` or through the pointer `p`), `v` if there is none. -/
def lastGiven (k : K) (p : Nat) (v : V) : List (Call K V) → V
  | [] => v
  | .overwrite k' v' :: cs => lastGiven k p (if k' = k then v' else v) cs
  | .store p' v' :: cs => lastGiven k p (if p' = p then v' else v) cs
  | _ :: cs => lastGiven k p v cs

/-- The calls after which `get(k)` no longer returns the pointer `p` it returned in state `s`: `k` is removed (the default
key cannot be); it was the last entry and is dropped; a new key takes its place in a full map; or `k` is the default key
and an entry before it is removed, which gives that entry the default key. -/
def Detaches (k0 : K) (s : SeqMap.St K V) (k : K) (p : Nat) : Call K V → Prop
  | .insert _ _ => False
  | .overwrite k' _ => keyExists s k' = false ∧ s.sz = s.keys.length ∧ s.oldest = p
  | .remove k' => (k' = k ∧ k ≠ k0) ∨ (k = k0 ∧ ∃ j, getIdx s k' = some j ∧ j < p)
  | .removeLast => p + 1 = s.sz
  | .store _ _ => False

end SeqMap.Spec
