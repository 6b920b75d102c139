import Verif.Basic
/-!
# `VersionUtil::Version` (util/version_tools.hh)

Characters are their codes. A `string_view` is the memory from `data()` on, and its length. `long` has `L` bits, `unsigned` 32.
-/
namespace Version

/-- version_tools.hh:9-13. -/
structure Version where
  major : Nat := 0
  minor : Nat := 0
  revision : Nat := 0
  isNormal : Bool := true
  deriving DecidableEq, Repr

/-- `set_field`: version_tools.hh:15-26. -/
def setField (v : Version) (index val : Nat) : Version :=
  if val > 255 then v
  else
    let v := if index = 0 then { v with major := val } else v
    let v := if index = 1 then { v with minor := val } else v
    if index = 2 then { v with revision := val } else v

/-- The digits `strtol` reads: the value so far; undefined if the memory ends before a non-digit (called in version_tools.hh:49). -/
def strtolDigits : List Nat → Nat → R Nat
  | [], _ => .ub
  | c :: mem, acc => if 48 ≤ c ∧ c ≤ 57 then strtolDigits mem (acc * 10 + (c - 48)) else .ok acc

/-- The sign `strtol` accepts (called in version_tools.hh:49). -/
def strtolSign (L : Nat) : List Nat → R Int
  | [] => .ub
  | c :: mem =>
    if c = 45 then do
      let n ← strtolDigits mem 0
      .ok (max (-(n : Int)) (-2 ^ (L - 1)))
    else if c = 43 then do
      let n ← strtolDigits mem 0
      .ok (min (n : Int) (2 ^ (L - 1) - 1))
    else do
      let n ← strtolDigits (c :: mem) 0
      .ok (min (n : Int) (2 ^ (L - 1) - 1))

/-- `strtol(s, nullptr, 10)` of the C library: skips white space, reads an optional sign and digits, clamps to `long` (called in version_tools.hh:49). -/
def strtol (L : Nat) : List Nat → R Int
  | [] => .ub
  | c :: mem => if c = 32 ∨ (9 ≤ c ∧ c ≤ 13) then strtol L mem else strtolSign L (c :: mem)

/-- Conversion of `long` to `unsigned`: version_tools.hh:50. -/
def toUnsigned (x : Int) : Nat := (x % 4294967296).toNat

/-- The loop of `Version(std::string_view)`: version_tools.hh:40-57. `mem`, `len` are the remaining view. Simplified: the counter `i` does not
wrap (it would after 2^32 dots). -/
def parseLoop (L : Nat) (mem : List Nat) (len i : Nat) (v : Version) : R Version :=
  match h : (mem.take len).findIdx? (· == 46) with
  | some pos => do
    let num ← strtol L mem
    parseLoop L (mem.drop (pos + 1)) (len - (pos + 1)) (i + 1) (setField v i (toUnsigned num))
  | none => do
    let num ← strtol L mem
    let v := setField v i (toUnsigned num)
    .ok { v with isNormal := !(mem.take len).contains 45 }
termination_by len
decreasing_by
  have := List.findIdx?_eq_some_iff_getElem.mp h
  obtain ⟨h1, _⟩ := this
  simp at h1; omega

/-- `Version(std::string_view)`: version_tools.hh:37-58. -/
def parse (L : Nat) (mem : List Nat) (len : Nat) : R Version := parseLoop L mem len 0 {}

/-- `can_host_version`: version_tools.hh:61-63. -/
def canHost (a b : Version) : Bool := a.major == b.major && decide (a.minor ≥ b.minor)

/-- `operator==`: version_tools.hh:78. -/
def eq (a b : Version) : Bool := decide (a = b)

/-- `operator<=>`: version_tools.hh:65-76. -/
def cmp (a b : Version) : Ordering :=
  if a.major = b.major ∧ a.minor = b.minor ∧ a.revision = b.revision ∧ a.isNormal = b.isNormal then .eq
  else if a.major < b.major ∨ (a.major = b.major ∧ a.minor < b.minor) ∨
      (a.major = b.major ∧ a.minor = b.minor ∧ a.revision < b.revision) ∨
      (a.major = b.major ∧ a.minor = b.minor ∧ a.revision = b.revision ∧ !a.isNormal ∧ b.isNormal) then .lt
  else .gt

/-- `is_later`: version_tools.hh:80-82. -/
def isLater (a b : Version) : Bool := cmp a b == .gt

end Version
