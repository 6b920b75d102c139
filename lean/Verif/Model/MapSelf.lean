import Verif.Model.SeqMap
import Verif.Model.SequentialMap
/-! # Map calls given references to the map's own keys and values

util/seq_map.hh and util/sequential_map.hh. A reference or pointer is the index of what it refers to; it is read where the code reads
it, after the assignments before that point. -/
namespace SeqMap
variable {K V : Type} [DecidableEq K]

/-- `insert(key, *p)`: seq_map.hh:13-20; `val` is read on line 17, after `keys[sz] = key`. -/
def insertRef (s : St K V) (key : K) (p : Nat) : R (St K V × Bool) := do
  if s.sz ≥ s.keys.length then pure (s, false)
  else
    let ks ← arrSet s.keys s.sz key
    let val ← arrGet s.vals p
    let vs ← arrSet s.vals s.sz val
    pure ({ s with keys := ks, vals := vs, sz := s.sz + 1 }, true)

/-- `overwrite(key, *p)`: seq_map.hh:22-46; `val` is read on line 27 or, after the index and the key are changed, on line 44. -/
def overwriteRef (s : St K V) (key : K) (p : Nat) : R (St K V × Nat) := do
  match scan s key with
  | some i => do
    let val ← arrGet s.vals p
    let vs ← arrSet s.vals i val
    pure ({ s with vals := vs }, i)
  | none => do
    let (index, s) :=
      if s.sz ≥ s.keys.length then
        let oldest := s.oldest + 1
        (s.oldest, { s with oldest := if oldest ≥ s.keys.length then 0 else oldest })
      else (s.sz, { s with sz := s.sz + 1 })
    let ks ← arrSet s.keys index key
    let val ← arrGet s.vals p
    let vs ← arrSet s.vals index val
    pure ({ s with keys := ks, vals := vs }, index)

end SeqMap

namespace SequentialMap
variable {K V : Type} [DecidableEq K]

/-- `m[a] = m[b]`: the right operand is evaluated first (C++17), both are references; the value is read after both calls:
sequential_map.hh:23-37. -/
def assignFrom (s : St K V) (a b : K) : R (St K V) := do
  let (s, j) ← index s b
  let (s, i) ← index s a
  let from' ← arrGet s.data j
  let old ← arrGet s.data i
  let d ← arrSet s.data i (old.1, from'.2)
  pure { s with data := d }

/-- `m.erase(it->first)`: sequential_map.hh:96-102; the key is read through the reference only by `find`, before anything moves. -/
def eraseAt (s : St K V) (it : Nat) : R (St K V × Nat) := do
  let e ← arrGet s.data it
  erase s e.1

/-- `for (auto it = m.begin(); it != m.end();) if (p(*it)) m.erase(it->first); else ++it;`: sequential_map.hh:96-102, 112-124; at most
`fuel` rounds. -/
def eraseLoop (p : K × V → Bool) : Nat → St K V → Nat → R (St K V)
  | 0, s, _ => .ok s
  | fuel + 1, s, it =>
    if it ≠ s.back then do
      let e ← arrGet s.data it
      if p e then do
        let (s, _) ← eraseAt s it
        eraseLoop p fuel s it
      else eraseLoop p fuel s (it + 1)
    else .ok s

end SequentialMap
