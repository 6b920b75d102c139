import Verif.Basic
/-!
# String helpers: util/string_util.hh, util/string_compare.hh, util/contains_word.hh

A string is the list of its character codes; positions are indices into it and `none` stands for `npos`.
-/
namespace Strings

/-- The search of `std::string::find` in the suffix `s` that starts at position `i` (called in string_util.hh:15, contains_word.hh:28). -/
def findFrom (f : List Nat) : List Nat → Nat → Option Nat
  | [], i => if f.isPrefixOf [] then some i else none
  | c :: s, i => if f.isPrefixOf (c :: s) then some i else findFrom f s (i + 1)

/-- `std::string::find(f, index)` (C++ standard) (called in string_util.hh:15, contains_word.hh:28). -/
def find (s f : List Nat) (index : Nat) : Option Nat :=
  if index > s.length then none else findFrom f (s.drop index) index

/-- `std::string::replace(index, n, r)` (C++ standard) (called in string_util.hh:19). -/
def replace (s : List Nat) (index n : Nat) (r : List Nat) : List Nat := s.take index ++ r ++ s.drop (index + n)

/-- The loop of `ReplaceString::replace_all`: string_util.hh:14-21. `none` when it has not ended after `fuel` rounds. -/
def replaceLoop (f r : List Nat) : Nat → List Nat → Nat → Option (List Nat)
  | 0, _, _ => none
  | fuel + 1, s, index =>
    match find s f index with
    | none => some s
    | some i => replaceLoop f r fuel (replace s i f.length r) (i + f.length)

/-- `ReplaceString::replace_all`: string_util.hh:12-23. -/
def replaceAll (f r : List Nat) (fuel : Nat) (s : List Nat) : Option (List Nat) := replaceLoop f r fuel s 0

/-- `find_first_of` / `find_first_not_of` from `pos` (C++ standard), `p` telling which characters stop the search; from `npos` they give `npos` (called in string_util.hh:28, 31, 38, 41). -/
def findFirst (s : List Nat) (p : Nat → Bool) : Option Nat → Option Nat
  | none => none
  | some pos => ((s.drop pos).findIdx? p).map (· + pos)

/-- `substr(l, p - l)`; with `p` = `npos` the count is larger than the rest (called in string_util.hh:35). -/
def substr (s : List Nat) (l : Nat) : Option Nat → List Nat
  | none => s.drop l
  | some p => (s.drop l).take (p - l)

/-- The loop of `tokenize_string`: string_util.hh:33-42. `none` when it has not ended after `fuel` rounds; `substr(npos)` throws, here `.ub`. -/
def tokenizeLoop (s delims : List Nat) : Nat → List (List Nat) → Option Nat → Option Nat → Option (R (List (List Nat)))
  | 0, _, _, _ => none
  | _ + 1, tokens, none, none => some (.ok tokens)
  | _ + 1, _, none, some _ => some .ub
  | fuel + 1, tokens, some l, pos =>
    let lastPos := findFirst s (fun c => !delims.contains c) pos
    let pos' := findFirst s (fun c => delims.contains c) lastPos
    tokenizeLoop s delims fuel (tokens ++ [substr s l pos]) lastPos pos'

/-- `tokenize_string`: string_util.hh:26-43. -/
def tokenize (s : List Nat) (tokens : List (List Nat)) (delims : List Nat) (fuel : Nat) : Option (R (List (List Nat))) :=
  let lastPos := findFirst s (fun c => !delims.contains c) (some 0)
  let pos := findFirst s (fun c => delims.contains c) lastPos
  tokenizeLoop s delims fuel tokens lastPos pos

/-- `std::tolower` in the "C" locale (called in string_compare.hh:1-18). -/
def tolower (c : Nat) : Nat := if 65 ≤ c ∧ c ≤ 90 then c + 32 else c

/-- `less_ci`, i.e. `lexicographical_compare` with the comparison given: string_compare.hh:7-11. -/
def lessCi : List Nat → List Nat → Bool
  | _, [] => false
  | [], _ :: _ => true
  | a :: s, b :: t =>
    if tolower a < tolower b then true
    else if tolower b < tolower a then false
    else lessCi s t

/-- The element-wise part of `std::ranges::equal` (called in string_compare.hh:1-18). -/
def allEq : List Nat → List Nat → Bool
  | [], [] => true
  | a :: s, b :: t => tolower a == tolower b && allEq s t
  | _, _ => false

/-- `equal_ci`, i.e. `std::ranges::equal` (sizes first, then elements): string_compare.hh:14-18. -/
def equalCi (s t : List Nat) : Bool := s.length == t.length && allEq s t

/-- `contains_word`: contains_word.hh:4-32. Codes are those of `unsigned char`; `containsWordC` below adds the conversion of `char` to `int`. -/
def containsWord (name word : List Nat) : Bool :=
  let lname := name.map tolower
  let lword := word.map tolower
  let spaceLword := 32 :: lword
  let lwordSpace := lword ++ [32]
  let spaceLwordSpace := 32 :: lword ++ [32]
  if lname = lword then true
  else if spaceLword.isSuffixOf lname then true
  else if lwordSpace.isPrefixOf lname then true
  else if (find lname spaceLwordSpace 0).isSome then true
  else false

/-- `std::tolower(c)` for a `char` with byte value `c` passed as `int` (contains_word.hh:7, 9), `signedChar` telling whether `char` is signed: undefined for negative values other than EOF (-1, the byte 255), which is returned as is. -/
def tolowerC (signedChar : Bool) (c : Nat) : R Nat := if signedChar = true ∧ 128 ≤ c ∧ c < 255 then .ub else .ok (tolower c)

/-- `std::transform(..., std::tolower)`: contains_word.hh:6-9. -/
def lowerAll (signedChar : Bool) : List Nat → R (List Nat)
  | [] => .ok []
  | c :: s => do
    let d ← tolowerC signedChar c
    let r ← lowerAll signedChar s
    .ok (d :: r)

/-- `contains_word` with the platform's `char`: contains_word.hh:4-32. -/
def containsWordC (signedChar : Bool) (name word : List Nat) : R Bool := do
  let lname ← lowerAll signedChar name
  let lword ← lowerAll signedChar word
  let spaceLword := 32 :: lword
  let lwordSpace := lword ++ [32]
  let spaceLwordSpace := 32 :: lword ++ [32]
  if lname = lword then .ok true
  else if spaceLword.isSuffixOf lname then .ok true
  else if lwordSpace.isPrefixOf lname then .ok true
  else if (find lname spaceLwordSpace 0).isSome then .ok true
  else .ok false

end Strings
