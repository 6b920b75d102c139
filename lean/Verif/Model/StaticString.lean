import Verif.Mem
/-!
# `StaticString` (util/static_string.hh)

The member array `_data` is the list of its `CAPACITY + 1` bytes.  A `const char *` argument is the list of the bytes
from the pointer to the end of the object it points into; reading past it is undefined.  A `string_view` is the list of
its characters.  Arguments do not alias the string itself, except in `copySelf` and `copySvSelf`.
-/
namespace StaticString

/-- `copy(const char *)`: static_string.hh:27-35. -/
def copyLoop (cap : Nat) (data : List Byte) (i : Nat) : List Byte → R (List Byte)
  | [] => .ub
  | c :: s =>
    if c ≠ 0 ∧ i < cap then do
      let data ← arrSet data i c
      copyLoop cap data (i + 1) s
    else arrSet data i 0

/-- `copy(const char *)`: static_string.hh:27-35. -/
def copy (cap : Nat) (data : List Byte) (s : List Byte) : R (List Byte) := copyLoop cap data 0 s

/-- `copy(std::string_view)`: static_string.hh:41-49. -/
def copySvLoop (cap : Nat) (data : List Byte) (i : Nat) : List Byte → R (List Byte)
  | [] => arrSet data i 0
  | c :: s => do
    let data ← arrSet data i c
    let i := i + 1
    if i ≥ cap then arrSet data i 0 else copySvLoop cap data i s

/-- `copy(std::string_view)`: static_string.hh:41-49. -/
def copySv (cap : Nat) (data : List Byte) (s : List Byte) : R (List Byte) := copySvLoop cap data 0 s

/-- `clear()`: static_string.hh:37-39; also the default constructor, 15-17. -/
def clear (data : List Byte) : R (List Byte) := arrSet data 0 0

/-- Reading the array as a C string, `std::string_view{_data}`: static_string.hh:60, 69, 73, 97: the characters before
the first NUL; undefined if there is none. -/
def cstr : List Byte → R (List Byte)
  | [] => .ub
  | c :: s => if c = 0 then pure [] else do let r ← cstr s; pure (c :: r)

/-- `length()` / `size()`: static_string.hh:59-65. -/
def length (data : List Byte) : R Nat := do let s ← cstr data; pure s.length

/-- `available()`: static_string.hh:80-82. -/
def available (cap : Nat) (data : List Byte) : R Nat := do let n ← length data; pure (cap - n)

/-- `operator==`: static_string.hh:67-70; `is_equal`: 72-74. -/
def equal (a b : List Byte) : R Bool := do
  let x ← cstr a
  let y ← cstr b
  pure (decide (x = y))

/-- `copy(StaticString<OTHER_CAP> const &)`: static_string.hh:104-105 (and the volatile variants 102, 107-111). -/
def copyFrom (cap : Nat) (data other : List Byte) : R (List Byte) := copy cap data other

/-- The loop of `copySelf`; `n` is `CAPACITY - i`: static_string.hh:29-34. -/
def copySelfLoop (k : Nat) (data : List Byte) (i : Nat) : Nat → R (List Byte)
  | 0 => do
    let _ ← arrGet data (k + i)
    arrSet data i 0
  | n + 1 => do
    let c ← arrGet data (k + i)
    if c ≠ 0 then do
      let data ← arrSet data i c
      copySelfLoop k data (i + 1) n
    else arrSet data i 0

/-- `s.copy(s.data() + k)`: the source lies in the string itself, reads and writes interleave: static_string.hh:27-35. -/
def copySelf (cap : Nat) (data : List Byte) (k : Nat) : R (List Byte) := copySelfLoop k data 0 cap

/-- The loop of `copySvSelf`; `m` characters are left: static_string.hh:43-48. -/
def copySvSelfLoop (cap k : Nat) (data : List Byte) (i : Nat) : Nat → R (List Byte)
  | 0 => arrSet data i 0
  | m + 1 => do
    let c ← arrGet data (k + i)
    let data ← arrSet data i c
    let i := i + 1
    if i ≥ cap then arrSet data i 0 else copySvSelfLoop cap k data i m

/-- `s.copy(std::string_view{s}.substr(k, m))`: static_string.hh:41-49. -/
def copySvSelf (cap : Nat) (data : List Byte) (k m : Nat) : R (List Byte) := copySvSelfLoop cap k data 0 m

end StaticString
