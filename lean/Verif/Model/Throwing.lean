import Verif.Model.FixedVector
import Verif.Model.SeqMap
import Verif.Model.SequentialMap
import Verif.Model.CircStack
import Verif.Model.CircBuf
import Verif.Model.Pool
/-! # Containers of elements whose copying may throw

util/fixed_vector.hh, util/seq_map.hh, util/sequential_map.hh, util/circular_stack.hh, util/circular_buffer.hh,
util/circular_buffer_opt.hh, util/pool.hh. The functions again, statement by statement, with an exception possible at every construction
and assignment of an element (`elem`). An assignment that throws leaves its target as it was. Moving is copying (as for types that
have no move operations). Keys of SeqMap do not throw; those of SequentialMap may. -/
namespace Throwing

/-- How a call ends: it returns, with the number of element operations that would still succeed; an exception leaves the object in some
state; or the behaviour is undefined. (No counterpart in the code: the language's own rules.) -/
inductive Res (σ α : Type) where
  | done (a : α) (s : σ) (left : Nat)
  | threw (s : σ)
  | ub
  deriving DecidableEq, Repr

/-- A piece of a member function, run on an object, with the number of element operations that succeed before one throws (the language's
own rules: a `throw` leaves the function at once). -/
def E (σ α : Type) := σ → Nat → Res σ α

/-- sequencing of statements (the language's own rules) -/
instance (σ : Type) : Monad (E σ) where
  pure a := fun s n => .done a s n
  bind m f := fun s n =>
    match m s n with
    | .done a s n => f a s n
    | .threw s => .threw s
    | .ub => .ub

variable {σ T K V α : Type}

/-- An operation of an element that may throw (for example fixed_vector.hh:40). -/
def elem : E σ Unit := fun s n =>
  match n with
  | 0 => .threw s
  | n + 1 => .done () s n

/-- the object's members (for example fixed_vector.hh:10-11) -/
def members : E σ σ := fun s n => .done s s n

/-- change of members that cannot throw (for example fixed_vector.hh:41) -/
def update (f : σ → σ) : E σ Unit := fun s n => .done () (f s) n

/-- an access to an array, undefined outside it (for example fixed_vector.hh:40) -/
def access (r : R α) : E σ α := fun s n =>
  match r with
  | .ok a => .done a s n
  | .ub => .ub

namespace FV

/-- `data[i] = x`: fixed_vector.hh:40, 51, 110. -/
def assign (i : Nat) (x : T) : E (FixedVector.St T) Unit := do
  elem
  let s ← members
  let d ← access (arrSet s.data i x)
  update fun s => { s with data := d }

/-- `push_back`: fixed_vector.hh:36-43; the argument is a copy. -/
def pushBack (el : T) : E (FixedVector.St T) Bool := do
  elem
  let s ← members
  if s.back ≥ s.data.length then pure false
  else do
    assign s.back el
    update fun s => { s with back := s.back + 1 }
    pure true

/-- the loop of `resize`: fixed_vector.hh:50-52. -/
def fill (el : T) : Nat → Nat → E (FixedVector.St T) Unit
  | _, 0 => pure ()
  | i, n + 1 => do
    assign i el
    fill el (i + 1) n

/-- `resize`: fixed_vector.hh:46-57; the argument is a copy. -/
def resize (num : Nat) (el : T) : E (FixedVector.St T) Bool := do
  elem
  let s ← members
  let newBack := min num s.data.length
  fill el s.back (newBack - s.back)
  update fun s => { s with back := newBack }
  pure (decide (num = newBack))

/-- `pop_back`: fixed_vector.hh:75-81; the result is a copy. -/
def popBack (dflt : T) : E (FixedVector.St T) T := do
  let s ← members
  if s.back = 0 then do
    elem
    pure dflt
  else do
    update fun s => { s with back := s.back - 1 }
    let s ← members
    let v ← access (arrGet s.data s.back)
    elem
    pure v

/-- `data[j] = std::move(data[i])`: fixed_vector.hh:108, 123. -/
def moveOne (i j : Nat) : E (FixedVector.St T) Unit := do
  let s ← members
  let v ← access (arrGet s.data i)
  assign j v

/-- `std::move_backward(&data[index], &data[last], &data[last + 1])`, `n` elements: fixed_vector.hh:108. -/
def moveUp (index : Nat) : Nat → E (FixedVector.St T) Unit
  | 0 => pure ()
  | n + 1 => do
    moveOne (index + n) (index + n + 1)
    moveUp index n

/-- `std::move(&data[i + 1], &data[i + 1 + n], &data[i])`: fixed_vector.hh:123, 134. -/
def moveDown : Nat → Nat → E (FixedVector.St T) Unit
  | _, 0 => pure ()
  | i, n + 1 => do
    moveOne (i + 1) i
    moveDown (i + 1) n

/-- `insert`: fixed_vector.hh:99-112; the argument is a copy. -/
def insert (index : Nat) (d : T) : E (FixedVector.St T) Unit := do
  elem
  let s ← members
  if s.back ≥ s.data.length ∨ index > s.back then pure ()
  else if index = s.back then do
    let _ ← pushBack d
    pure ()
  else do
    moveUp index (s.back - index)
    assign index d
    update fun s => { s with back := s.back + 1 }

/-- `erase(index)`: fixed_vector.hh:114-125. -/
def erase (index : Nat) : E (FixedVector.St T) Unit := do
  let s ← members
  if s.back = 0 ∨ index ≥ s.back then pure ()
  else if index = s.back - 1 then update fun s => { s with back := s.back - 1 }
  else do
    moveDown index (s.back - 1 - index)
    update fun s => { s with back := s.back - 1 }

end FV

namespace Stack

/-- `push_back`: circular_stack.hh:27-39; the argument is a copy. -/
def pushBack (M : Nat) (el : T) : E (CircStack.St T) Unit := do
  elem
  elem
  let s ← members
  let d ← access (arrSet s.data s.top el)
  let top := s.top + 1
  let top := if top ≥ M then 0 else top
  let bottom := if s.full then top else s.bottom
  let full := if top = bottom then true else s.full
  update fun _ => ⟨d, top, bottom, full⟩

/-- `pop_back`: circular_stack.hh:41-53; the result is a copy. -/
def popBack (M : Nat) : E (CircStack.St T) (Option T) := do
  let s ← members
  if CircStack.size M s = 0 then pure none
  else do
    let top := if s.top = 0 then M - 1 else s.top - 1
    update fun s => { s with top := top, full := false }
    let s ← members
    let v ← access (arrGet s.data s.top)
    elem
    pure (some v)

end Stack

namespace Circ

/-- `put`: circular_buffer.hh:13-21; circular_buffer_opt.hh:16-24; the argument is a copy. -/
def put (N : Nat) (item : T) : E (CircBuf.St T) Unit := do
  elem
  elem
  let s ← members
  let b ← access (arrSet s.buf s.head item)
  update fun s => { s with buf := b }
  update fun s => if s.full then CircBuf.incTail N s else s
  update (CircBuf.incHead N)
  update fun s => { s with full := decide (s.head = s.tail) }

/-- CircularBuffer::get: circular_buffer.hh:23-34; `val` is constructed in the place of the result. -/
def get (N : Nat) (dflt : T) : E (CircBuf.St T) T := do
  let s ← members
  if CircBuf.empty s then do
    elem
    pure dflt
  else do
    let v ← access (arrGet s.buf s.tail)
    elem
    update fun s => { s with full := false }
    update (CircBuf.incTail N)
    pure v

/-- CircularBufferOpt::get: circular_buffer_opt.hh:26-37; the result is constructed from `val` at the end. -/
def getOpt (N : Nat) : E (CircBuf.St T) (Option T) := do
  let s ← members
  if CircBuf.empty s then pure none
  else do
    let v ← access (arrGet s.buf s.tail)
    elem
    update fun s => { s with full := false }
    update (CircBuf.incTail N)
    elem
    pure (some v)

end Circ

namespace Seq
variable [DecidableEq K]

/-- `insert`: seq_map.hh:13-20. -/
def insert (key : K) (val : V) : E (SeqMap.St K V) Bool := do
  let s ← members
  if s.sz ≥ s.keys.length then pure false
  else do
    let ks ← access (arrSet s.keys s.sz key)
    update fun s => { s with keys := ks }
    elem
    let vs ← access (arrSet s.vals s.sz val)
    update fun s => { s with vals := vs }
    update fun s => { s with sz := s.sz + 1 }
    pure true

/-- `overwrite`: seq_map.hh:22-46. -/
def overwrite (key : K) (val : V) : E (SeqMap.St K V) Nat := do
  let s ← members
  match SeqMap.scan s key with
  | some i => do
    elem
    let vs ← access (arrSet s.vals i val)
    update fun s => { s with vals := vs }
    pure i
  | none => do
    let index := if s.sz ≥ s.keys.length then s.oldest else s.sz
    update fun s =>
      if s.sz ≥ s.keys.length then { s with oldest := if s.oldest + 1 ≥ s.keys.length then 0 else s.oldest + 1 }
      else { s with sz := s.sz + 1 }
    let ks ← access (arrSet s.keys index key)
    update fun s => { s with keys := ks }
    elem
    let vs ← access (arrSet s.vals index val)
    update fun s => { s with vals := vs }
    pure index

end Seq

namespace SMap
variable [DecidableEq K]

/-- `operator[]` (not const): sequential_map.hh:23-37; the key is a copy. -/
def index (key : K) : E (SequentialMap.St K V) Nat := do
  elem
  let s ← members
  match SequentialMap.search key (FixedVector.toList s) 0 with
  | some i => pure i
  | none => do
    let newsize := (FixedVector.pushBackForOverwrite s).2
    update fun s => (FixedVector.pushBackForOverwrite s).1
    let newsize ← if newsize = FixedVector.maxSize s then access (if newsize = 0 then R.ub else .ok (newsize - 1)) else pure newsize
    let s ← members
    let old ← access (arrGet s.data newsize)
    elem
    let d ← access (arrSet s.data newsize (key, old.2))
    update fun s => { s with data := d }
    pure newsize

end SMap

namespace Pl

/-- `create`: pool.hh:23-33. The entry is marked, then a `T{}` is made and assigned. -/
def create (dflt : T) : E (List (Pool.Entry T)) (Option Nat) := do
  let s ← members
  match (Pool.createForOverwrite s).2 with
  | none => pure none
  | some i => do
    update fun s => (Pool.createForOverwrite s).1
    elem
    elem
    let s ← members
    let e ← access (arrGet s i)
    update fun s => s.set i ⟨dflt, e.used⟩
    pure (some i)

end Pl

end Throwing
