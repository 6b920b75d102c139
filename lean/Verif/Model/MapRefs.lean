import Verif.Model.SeqMap
import Verif.Model.SequentialMap
/-!
# Pointers into SeqMap (util/seq_map.hh)

A `ValT *` is the index of the value it points to, as in `Verif/Model/SeqMap.lean`.
-/
namespace SeqMap
variable {K V : Type} [DecidableEq K]

/-- A call that may change the map, or an assignment through a pointer obtained from it (seq_map.hh:13-75). -/
inductive Call (K V : Type) where
  | insert (k : K) (v : V)
  | overwrite (k : K) (v : V)
  | remove (k : K)
  | removeLast
  | store (p : Nat) (v : V)
  deriving DecidableEq, Repr

/-- One call; `k0` and `v0` are `KeyT{}` and `ValT{}` (seq_map.hh:13-75). -/
def call (k0 : K) (v0 : V) (s : St K V) : Call K V → R (St K V)
  | .insert k v => do let (s, _) ← insert s k v; pure s
  | .overwrite k v => do let (s, _) ← overwrite s k v; pure s
  | .remove k => do let (s, _) ← remove k0 v0 s k; pure s
  | .removeLast => pure (removeLast s)
  | .store p v => do let vs ← arrSet s.vals p v; pure { s with vals := vs }

/-- A history of calls (seq_map.hh:13-75). -/
def calls (k0 : K) (v0 : V) (s : St K V) : List (Call K V) → R (St K V)
  | [] => pure s
  | c :: cs => do
    let s ← call k0 v0 s c
    calls k0 v0 s cs

end SeqMap
