import Verif.Model.FixedVector
import Verif.Model.SequentialMap
import Verif.Model.SeqMap
/-!
# `FixedVector`, `SequentialMap` and `SeqMap` read by an interrupt while the main program changes them

Every changing member function is the list of the states after each of its stores, in program order; an interrupt that
comes during the call finds the state before the call or one of these, the last of which the call leaves behind.
Elements, keys and values are stored at once.  The members are ordinary variables; that the compiler keeps their stores
in program order is assumed.
-/
namespace ReadIsr

variable {T K V : Type}

/-- The state a call leaves: the one after its last store, or the one it began with (fixed_vector.hh, seq_map.hh). -/
def final {S : Type} (s : S) (tr : List S) : S := tr.getLast?.getD s

/-! ### FixedVector -/

/-- `push_back`: fixed_vector.hh:36-43: `data[back_idx] = el; back_idx++`. -/
def fvPush (s : FixedVector.St T) (el : T) : List (FixedVector.St T) :=
  if s.back ≥ s.data.length then []
  else [⟨s.data.set s.back el, s.back⟩, ⟨s.data.set s.back el, s.back + 1⟩]

/-- The loop of `resize`: fixed_vector.hh:50-52. -/
def fillSteps (el : T) (data : List T) (i : Nat) : Nat → List (List T)
  | 0 => []
  | n + 1 => data.set i el :: fillSteps el (data.set i el) (i + 1) n

/-- `resize`: fixed_vector.hh:46-57. -/
def fvResize (s : FixedVector.St T) (num : Nat) (el : T) : List (FixedVector.St T) :=
  let newBack := min num s.data.length
  let ds := if newBack > s.back then fillSteps el s.data s.back (newBack - s.back) else []
  ds.map (fun d => ⟨d, s.back⟩) ++ [⟨final s.data ds, newBack⟩]

/-- `resize_for_overwrite`: fixed_vector.hh:59-62. -/
def fvResizeOver (s : FixedVector.St T) (num : Nat) : List (FixedVector.St T) := [⟨s.data, min num s.data.length⟩]

/-- `pop_back`: fixed_vector.hh:75-81. -/
def fvPop (s : FixedVector.St T) : List (FixedVector.St T) := if s.back = 0 then [] else [⟨s.data, s.back - 1⟩]

/-- `clear`: fixed_vector.hh:95-97. -/
def fvClear (s : FixedVector.St T) : List (FixedVector.St T) := [⟨s.data, 0⟩]

/-- One assignment `data[to] = data[from]` of `std::move` and `std::move_backward`: fixed_vector.hh:108, 123, 134. -/
def moveOne (data : List T) (src dst : Nat) : List T :=
  match data[src]? with
  | some x => data.set dst x
  | none => data

/-- `std::move_backward(&data[index], &data[index + n], &data[index + n + 1])`, from the last element down:
fixed_vector.hh:108. -/
def upSteps (index : Nat) (data : List T) : Nat → List (List T)
  | 0 => []
  | n + 1 =>
    let d := moveOne data (index + n) (index + n + 1)
    d :: upSteps index d n

/-- `insert(index, d)`: fixed_vector.hh:99-112. -/
def fvInsert (s : FixedVector.St T) (index : Nat) (el : T) : List (FixedVector.St T) :=
  if s.back ≥ s.data.length ∨ index > s.back then []
  else if index = s.back then fvPush s el
  else
    let ds := upSteps index s.data (s.back - index)
    let d := (final s.data ds).set index el
    ds.map (fun d => ⟨d, s.back⟩) ++ [⟨d, s.back⟩, ⟨d, s.back + 1⟩]

/-- `std::move` of `n` elements from `src` down to `dst`, from the first up: fixed_vector.hh:123, 134. -/
def downSteps (data : List T) (src dst : Nat) : Nat → List (List T)
  | 0 => []
  | n + 1 =>
    let d := moveOne data src dst
    d :: downSteps d (src + 1) (dst + 1) n

/-- `erase(index)`: fixed_vector.hh:114-125. -/
def fvErase (s : FixedVector.St T) (index : Nat) : List (FixedVector.St T) :=
  if s.back = 0 ∨ index ≥ s.back then []
  else if index = s.back - 1 then [⟨s.data, s.back - 1⟩]
  else
    let ds := downSteps s.data (index + 1) index (s.back - (index + 1))
    ds.map (fun d => ⟨d, s.back⟩) ++ [⟨final s.data ds, s.back - 1⟩]

/-- `erase(first, last)` with pointers to elements number `first` and `last`: fixed_vector.hh:127-137. -/
def fvEraseRange (s : FixedVector.St T) (first last : Nat) : List (FixedVector.St T) :=
  if s.back = 0 ∨ last ≤ first then []
  else
    let ds := downSteps s.data last first (s.back - last)
    ds.map (fun d => ⟨d, s.back⟩) ++ [⟨final s.data ds, s.back - (last - first)⟩]

/-! ### SequentialMap -/

/-- `m[key] = v` on a map without the key and with room: sequential_map.hh:30-36 and the assignment through the returned
reference: the size, then the key, then the value. -/
def sqAssignNew (s : SequentialMap.St K V) (key : K) (v : V) : List (SequentialMap.St K V) :=
  match s.data[s.back]? with
  | some p =>
    [⟨s.data, s.back + 1⟩, ⟨s.data.set s.back (key, p.2), s.back + 1⟩, ⟨s.data.set s.back (key, v), s.back + 1⟩]
  | none => []

/-! ### SeqMap -/

/-- `insert`: seq_map.hh:13-20: key, value, size. -/
def smInsert (s : SeqMap.St K V) (key : K) (val : V) : List (SeqMap.St K V) :=
  if s.sz ≥ s.keys.length then []
  else
    [{ s with keys := s.keys.set s.sz key },
     { s with keys := s.keys.set s.sz key, vals := s.vals.set s.sz val },
     { s with keys := s.keys.set s.sz key, vals := s.vals.set s.sz val, sz := s.sz + 1 }]

/-- `overwrite`: seq_map.hh:22-46: of a key already there, its value; of a new one first `sz` or (twice, if it runs over
the end) `oldest`, then the key, then the value. -/
def smOverwrite [DecidableEq K] (s : SeqMap.St K V) (key : K) (val : V) : List (SeqMap.St K V) :=
  match SeqMap.scan s key with
  | some i => [{ s with vals := s.vals.set i val }]
  | none =>
    if s.sz ≥ s.keys.length then
      let s1 := { s with oldest := s.oldest + 1 }
      let s2 := { s with oldest := if s.oldest + 1 ≥ s.keys.length then 0 else s.oldest + 1 }
      [s1, s2, { s2 with keys := s.keys.set s.oldest key },
       { s2 with keys := s.keys.set s.oldest key, vals := s.vals.set s.oldest val }]
    else
      let s1 := { s with sz := s.sz + 1 }
      [s1, { s1 with keys := s.keys.set s.sz key },
       { s1 with keys := s.keys.set s.sz key, vals := s.vals.set s.sz val }]

/-- `remove_last`: seq_map.hh:58-61. -/
def smRemoveLast (s : SeqMap.St K V) : List (SeqMap.St K V) := if s.sz > 0 then [{ s with sz := s.sz - 1 }] else []

/-- `remove`: seq_map.hh:64-75; `k0` and `v0` are `KeyT{}` and `ValT{}`. -/
def smRemove [DecidableEq K] (k0 : K) (v0 : V) (s : SeqMap.St K V) (key : K) : List (SeqMap.St K V) :=
  match SeqMap.scan s key with
  | some i =>
    [{ s with keys := s.keys.set i k0 }, { s with keys := s.keys.set i k0, vals := s.vals.set i v0 }]
  | none => []

end ReadIsr
