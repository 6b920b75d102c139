import Verif.Mem
/-!
# `SeqMap` (util/seq_map.hh)

`MaxSize` is the length of the two arrays.  A returned `ValT *` is modelled by the index of the element it points to
(`none` for `nullptr`).
-/
namespace SeqMap

/-- Members: seq_map.hh:8-11. -/
structure St (K V : Type) where
  keys : List K
  vals : List V
  sz : Nat
  oldest : Nat
  deriving DecidableEq, Repr

variable {K V : Type} [DecidableEq K]

/-- A new map: the arrays are uninitialised (any contents), the counters zero: seq_map.hh:8-11. -/
def init (keys : List K) (vals : List V) : St K V := ⟨keys, vals, 0, 0⟩

/-- `insert`: seq_map.hh:13-20. -/
def insert (s : St K V) (key : K) (val : V) : R (St K V × Bool) := do
  if s.sz ≥ s.keys.length then pure (s, false)
  else
    let ks ← arrSet s.keys s.sz key
    let vs ← arrSet s.vals s.sz val
    pure ({ s with keys := ks, vals := vs, sz := s.sz + 1 }, true)

/-- The scan `for (size_t i = 0; auto k : active_keys)` of seq_map.hh:24-31, 49-54, 66-73, 79-82: index of the first
active key equal to `key`. -/
def scan (s : St K V) (key : K) : Option Nat := (s.keys.take s.sz).findIdx? (fun k => decide (k = key))

/-- `overwrite`: seq_map.hh:22-46.  Returns the index of the value pointed to. -/
def overwrite (s : St K V) (key : K) (val : V) : R (St K V × Nat) := do
  match scan s key with
  | some i => do
    let vs ← arrSet s.vals i val
    pure ({ s with vals := vs }, i)
  | none => do
    let (index, s) :=
      if s.sz ≥ s.keys.length then
        let oldest := s.oldest + 1
        (s.oldest, { s with oldest := if oldest ≥ s.keys.length then 0 else oldest })
      else (s.sz, { s with sz := s.sz + 1 })
    let ks ← arrSet s.keys index key
    let vs ← arrSet s.vals index val
    pure ({ s with keys := ks, vals := vs }, index)

/-- `get`: seq_map.hh:48-56, index of the value pointed to. -/
def getIdx (s : St K V) (key : K) : Option Nat := scan s key

/-- `*get(key)` if not null (seq_map.hh:48-57). -/
def get (s : St K V) (key : K) : R (Option V) :=
  match getIdx s key with
  | none => pure none
  | some i => do let v ← arrGet s.vals i; pure (some v)

/-- `remove_last`: seq_map.hh:58-61. -/
def removeLast (s : St K V) : St K V := if s.sz > 0 then { s with sz := s.sz - 1 } else s

/-- `remove`: seq_map.hh:64-75. -/
def remove (k0 : K) (v0 : V) (s : St K V) (key : K) : R (St K V × Bool) := do
  match scan s key with
  | some i => do
    let ks ← arrSet s.keys i k0
    let vs ← arrSet s.vals i v0
    pure ({ s with keys := ks, vals := vs }, true)
  | none => pure (s, false)

/-- `key_exists`: seq_map.hh:77-84. -/
def keyExists (s : St K V) (key : K) : Bool := (s.keys.take s.sz).any (fun k => decide (k = key))

/-- `size`: seq_map.hh:86-88. -/
def size (s : St K V) : Nat := s.sz

/-- A history of `overwrite` calls (seq_map.hh:22-46). -/
def runOverwrites (s : St K V) : List (K × V) → R (St K V)
  | [] => pure s
  | (k, v) :: h => do
    let (s, _) ← overwrite s k v
    runOverwrites s h

end SeqMap
