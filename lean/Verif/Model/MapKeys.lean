import Verif.Model.SeqMap
import Verif.Model.SequentialMap
/-!
# The maps with the `==` of the key type (util/seq_map.hh, util/sequential_map.hh)

`SeqMap.lean` and `SequentialMap.lean` compare keys for identity. Here `eq a b` is the `a == b` of the key type, whatever it is: of `float`
(where NaN is unequal to itself), of `StaticString` (which ignores what follows the terminator). Otherwise the functions are the same.
-/
namespace SeqMap.Keys
variable {K V : Type}

/-- The scan of seq_map.hh:24-31, 49-54, 66-73, 79-82: index of the first active key with `k == key`. -/
def scan (eq : K → K → Bool) (s : St K V) (key : K) : Option Nat := (s.keys.take s.sz).findIdx? (fun k => eq k key)

/-- `insert`: seq_map.hh:13-20. -/
def insert (s : St K V) (key : K) (val : V) : R (St K V × Bool) := do
  if s.sz ≥ s.keys.length then pure (s, false)
  else
    let ks ← arrSet s.keys s.sz key
    let vs ← arrSet s.vals s.sz val
    pure ({ s with keys := ks, vals := vs, sz := s.sz + 1 }, true)

/-- `overwrite`: seq_map.hh:22-46.  Returns the index of the value pointed to. A key that is found stays as it is. -/
def overwrite (eq : K → K → Bool) (s : St K V) (key : K) (val : V) : R (St K V × Nat) := do
  match scan eq s key with
  | some i => do
    let vs ← arrSet s.vals i val
    pure ({ s with vals := vs }, i)
  | none => do
    let (index, s) :=
      if s.sz ≥ s.keys.length then
        let oldest := s.oldest + 1
        (s.oldest, { s with oldest := if oldest ≥ s.keys.length then 0 else oldest })
      else (s.sz, { s with sz := s.sz + 1 })
    let ks ← arrSet s.keys index key
    let vs ← arrSet s.vals index val
    pure ({ s with keys := ks, vals := vs }, index)

/-- `*get(key)` if not null: seq_map.hh:48-56. -/
def get (eq : K → K → Bool) (s : St K V) (key : K) : R (Option V) :=
  match scan eq s key with
  | none => pure none
  | some i => do let v ← arrGet s.vals i; pure (some v)

/-- `remove_last`: seq_map.hh:58-61. -/
def removeLast (s : St K V) : St K V := if s.sz > 0 then { s with sz := s.sz - 1 } else s

/-- `remove`: seq_map.hh:64-75. `k0`, `v0` are `KeyT{}`, `ValT{}`. -/
def remove (eq : K → K → Bool) (k0 : K) (v0 : V) (s : St K V) (key : K) : R (St K V × Bool) := do
  match scan eq s key with
  | some i => do
    let ks ← arrSet s.keys i k0
    let vs ← arrSet s.vals i v0
    pure ({ s with keys := ks, vals := vs }, true)
  | none => pure (s, false)

/-- `key_exists`: seq_map.hh:77-84. -/
def keyExists (eq : K → K → Bool) (s : St K V) (key : K) : Bool := (s.keys.take s.sz).any (fun k => eq k key)

/-- A call (seq_map.hh:13-88). -/
inductive Op (K V : Type) where
  | insert (k : K) (v : V)
  | overwrite (k : K) (v : V)
  | get (k : K)
  | removeLast
  | remove (k : K)
  | keyExists (k : K)
  | size

/-- What a call returns (seq_map.hh:13-88); of the pointers, the value pointed to. -/
inductive Out (V : Type) where
  | val (v : Option V)
  | bool (b : Bool)
  | num (n : Nat)

/-- One call with its result (seq_map.hh:13-88). -/
def step (eq : K → K → Bool) (k0 : K) (v0 : V) (s : St K V) : Op K V → R (St K V × List (Out V))
  | .insert k v => do let (s, b) ← insert s k v; pure (s, [.bool b])
  | .overwrite k v => do let (s, i) ← overwrite eq s k v; pure (s, [.num i])
  | .get k => do let v ← get eq s k; pure (s, [.val v])
  | .removeLast => pure (removeLast s, [])
  | .remove k => do let (s, b) ← remove eq k0 v0 s k; pure (s, [.bool b])
  | .keyExists k => pure (s, [.bool (keyExists eq s k)])
  | .size => pure (s, [.num s.sz])

/-- A sequence of calls with all results (seq_map.hh:13-88). -/
def run (eq : K → K → Bool) (k0 : K) (v0 : V) (s : St K V) : List (Op K V) → R (St K V × List (Out V))
  | [] => pure (s, [])
  | op :: ops => do
    let (s, o) ← step eq k0 v0 s op
    let (s, os) ← run eq k0 v0 s ops
    pure (s, o ++ os)

end SeqMap.Keys

namespace SequentialMap.Keys
variable {K V : Type}

/-- The search loops of sequential_map.hh:24-28, 41-45, 78-82, 87-91. -/
def search (eq : K → K → Bool) (key : K) : List (K × V) → Nat → Option Nat
  | [], _ => none
  | p :: l, i => if eq p.1 key then some i else search eq key l (i + 1)

/-- `operator[]` (non-const): sequential_map.hh:23-37. -/
def index (eq : K → K → Bool) (s : St K V) (key : K) : R (St K V × Nat) :=
  match search eq key (FixedVector.toList s) 0 with
  | some i => pure (s, i)
  | none => do
    let (s, newsize) := FixedVector.pushBackForOverwrite s
    let newsize ← if newsize = FixedVector.maxSize s then
        (if newsize = 0 then R.ub else pure (newsize - 1)) else pure newsize
    let old ← arrGet s.data newsize
    let d ← arrSet s.data newsize (key, old.2)
    pure ({ s with data := d }, newsize)

/-- `m[key] = v` (sequential_map.hh:23-35). -/
def assign (eq : K → K → Bool) (s : St K V) (key : K) (v : V) : R (St K V) := do
  let (s, i) ← index eq s key
  let old ← arrGet s.data i
  let d ← arrSet s.data i (old.1, v)
  pure { s with data := d }

/-- `v = m[key]` on a non-const map (sequential_map.hh:23-35). -/
def read (eq : K → K → Bool) (s : St K V) (key : K) : R (St K V × V) := do
  let (s, i) ← index eq s key
  let p ← arrGet s.data i
  pure (s, p.2)

/-- `v = m[key]` on a const map: sequential_map.hh:15-21. -/
def readConst (eq : K → K → Bool) (s : St K V) (key : K) : R V :=
  match search eq key (FixedVector.toList s) 0 with
  | some i => do let p ← arrGet s.data i; pure p.2
  | none => .ub

/-- `find`: sequential_map.hh:77-92. -/
def find (eq : K → K → Bool) (s : St K V) (key : K) : Nat := (search eq key (FixedVector.toList s) 0).getD s.back

/-- `erase`: sequential_map.hh:96-102. -/
def erase (eq : K → K → Bool) (s : St K V) (key : K) : R (St K V × Nat) := do
  let it := find eq s key
  if it ≠ s.back then do
    let s ← FixedVector.eraseRange s it (it + 1)
    pure (s, 1)
  else pure (s, 0)

/-- `contains`: sequential_map.hh:104-110. -/
def contains (eq : K → K → Bool) (s : St K V) (key : K) : Bool := (FixedVector.toList s).any (fun p => eq p.1 key)

/-- One call with its result (sequential_map.hh:15-124). -/
def step (eq : K → K → Bool) (s : St K V) : Op K V → R (St K V × List (Out K V))
  | .assign k v => do let s ← assign eq s k v; pure (s, [])
  | .read k => do let (s, v) ← read eq s k; pure (s, [.val v])
  | .readConst k => do let v ← readConst eq s k; pure (s, [.val v])
  | .contains k => pure (s, [.bool (contains eq s k)])
  | .find k => pure (s, [.num (find eq s k)])
  | .erase k => do let (s, n) ← erase eq s k; pure (s, [.num n])
  | .clear => pure (FixedVector.clear s, [])
  | .size => pure (s, [.num (FixedVector.size s)])
  | .empty => pure (s, [.bool (decide (FixedVector.size s = 0))])
  | .isFull => pure (s, [.bool (decide (FixedVector.size s = FixedVector.maxSize s))])
  | .iterate => pure (s, [.list (FixedVector.toList s)])

/-- A sequence of calls with all results (sequential_map.hh:15-124). -/
def run (eq : K → K → Bool) (s : St K V) : List (Op K V) → R (St K V × List (Out K V))
  | [] => pure (s, [])
  | op :: ops => do
    let (s, o) ← step eq s op
    let (s, os) ← run eq s ops
    pure (s, o ++ os)

end SequentialMap.Keys
