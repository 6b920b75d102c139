import Verif.Model.StaticString
/-!
# A `StaticString` as a range of characters and as a `std::string` (util/static_string.hh)

Iterators are `char *` into `_data`, here indices. A `std::string` is the list of its characters, which may contain NULs; its
`c_str()` is that list followed by a NUL.
-/
namespace StringRange
open StaticString

/-- `begin()`: static_string.hh:113, 115. -/
def begin_ : Nat := 0

/-- `end()`: static_string.hh:114, 116. -/
def end_ (data : List Byte) : R Nat := do
  let n ← StaticString.length data
  pure (begin_ + n)

/-- `for (auto c : s) …`: the characters from position `i` on, `k` positions before `end()`: static_string.hh:113-116. -/
def readLoop (data : List Byte) (i : Nat) : Nat → R (List Byte)
  | 0 => pure []
  | k + 1 => do
    let c ← arrGet data i
    let r ← readLoop data (i + 1) k
    pure (c :: r)

/-- `for (auto c : s) …`: the characters visited: static_string.hh:113-116. -/
def visited (data : List Byte) : R (List Byte) := do
  let e ← end_ data
  readLoop data begin_ (e - begin_)

/-- `for (auto &c : s) c = …`: `k` positions before the `end()` taken at the start; the loop's body computes the new character from
the old one and variables of its own: static_string.hh:113-114. -/
def editLoop {σ : Type} (body : σ → Byte → σ × Byte) (data : List Byte) (v : σ) (i : Nat) : Nat → R (List Byte)
  | 0 => pure data
  | k + 1 => do
    let c ← arrGet data i
    let data ← arrSet data i (body v c).2
    editLoop body data (body v c).1 (i + 1) k

/-- `for (auto &c : s) c = …`: static_string.hh:113-114. -/
def edit {σ : Type} (body : σ → Byte → σ × Byte) (data : List Byte) (v : σ) : R (List Byte) := do
  let e ← end_ data
  editLoop body data v begin_ (e - begin_)

/-- A store through an iterator: `*(s.begin() + i) = c`: static_string.hh:113. -/
def store (data : List Byte) (i : Nat) (c : Byte) : R (List Byte) := arrSet data (begin_ + i) c

/-- Stores through iterators, one after another. -/
def stores (data : List Byte) : List (Nat × Byte) → R (List Byte)
  | [] => pure data
  | (i, c) :: ws => do
    let data ← store data i c
    stores data ws

/-- `operator std::string()`: static_string.hh:85-90. -/
def toStd (data : List Byte) : R (List Byte) := cstr data

/-- `StaticString(std::string)`: static_string.hh:91-93; `data` is the array before it is initialised. -/
def ofStd (cap : Nat) (data s : List Byte) : R (List Byte) := copy cap data (s ++ [0])

end StringRange
