import Verif.Model.SequentialMap
/-! # Specification of SequentialMap: a finite map with its keys in insertion order

The abstract state is the list `ks` of keys in insertion order and the function `f` giving each key's value. -/
namespace SequentialMap.Spec
variable {K V : Type} [DecidableEq K]

structure Map (K V : Type) where
  keys : List K
  val : K → Option V

/-- One call; `none` where the caller breaks the contract (a new key in a full map, reading an absent key). -/
def step (N : Nat) (m : Map K V) : Op K V → Option (Map K V × List (Out K V))
  | .assign k v =>
    if k ∈ m.keys then some (⟨m.keys, fun x => if x = k then some v else m.val x⟩, [])
    else if m.keys.length < N then some (⟨m.keys ++ [k], fun x => if x = k then some v else m.val x⟩, [])
    else none
  | .read k | .readConst k => (m.val k).map fun v => (m, [.val v])
  | .contains k => some (m, [.bool (decide (k ∈ m.keys))])
  | .find k => some (m, [.num (m.keys.idxOf k)])
  | .erase k => some (⟨m.keys.erase k, fun x => if x = k then none else m.val x⟩, [.num (if k ∈ m.keys then 1 else 0)])
  | .clear => some (⟨[], fun _ => none⟩, [])
  | .size => some (m, [.num m.keys.length])
  | .empty => some (m, [.bool (decide (m.keys = []))])
  | .isFull => some (m, [.bool (decide (m.keys.length = N))])
  | .iterate => some (m, [.list (m.keys.filterMap fun k => (m.val k).map fun v => (k, v))])

def run (N : Nat) (m : Map K V) : List (Op K V) → Option (Map K V × List (Out K V))
  | [] => some (m, [])
  | op :: ops =>
    match step N m op with
    | none => none
    | some (m1, o) =>
      match run N m1 ops with
      | none => none
      | some (m2, os) => some (m2, o ++ os)

end SequentialMap.Spec
