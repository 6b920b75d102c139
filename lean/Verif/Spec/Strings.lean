/-! # Specification of the string helpers -/
namespace Strings.Spec

/-- `f` replaced by `r` in a text scanned left to right; `skip` is how many characters of the last match are still to be passed over. -/
def replaced (f r : List Nat) : List Nat → Nat → List Nat
  | [], _ => []
  | _ :: s, skip + 1 => replaced f r s skip
  | c :: s, 0 => if f <+: c :: s then r ++ replaced f r s (f.length - 1) else c :: replaced f r s 0

/-- `f` replaced by the shorter `r`, but after each replacement as many characters as were saved are passed over unexamined: `skip` characters of the last match are still to be dropped, then `pass` characters to be passed over. -/
def replacedPassing (f r : List Nat) : List Nat → Nat → Nat → List Nat
  | [], _, _ => []
  | _ :: s, skip + 1, pass => replacedPassing f r s skip pass
  | c :: s, 0, pass + 1 => c :: replacedPassing f r s 0 pass
  | c :: s, 0, 0 => if f <+: c :: s then r ++ replacedPassing f r s (f.length - 1) (f.length - r.length) else c :: replacedPassing f r s 0 0

/-- The tokens of a text: delimiters, a token, then a delimiter or the end, and so on. -/
inductive Runs (delims : List Nat) : List Nat → List (List Nat) → Prop
  | nil (d) : (∀ c ∈ d, c ∈ delims) → Runs delims d []
  | cons (d t rest ts) : (∀ c ∈ d, c ∈ delims) → t ≠ [] → (∀ c ∈ t, c ∉ delims) → (∀ c ∈ rest.head?, c ∈ delims) →
      Runs delims rest ts → Runs delims (d ++ t ++ rest) (t :: ts)

/-- Two characters are the same but for ASCII case. -/
def sameLetter (a b : Nat) : Prop := a = b ∨ (65 ≤ a ∧ a ≤ 90 ∧ b = a + 32) ∨ (65 ≤ b ∧ b ≤ 90 ∧ a = b + 32)

/-- Two texts are the same but for ASCII case. -/
def Same (s t : List Nat) : Prop := s.length = t.length ∧ ∀ (i a b : Nat), s[i]? = some a → t[i]? = some b → sameLetter a b

/-- `word` occurs in `name` with each end at an end of `name` or next to a space. -/
def HasWord (name word : List Nat) : Prop :=
  ∃ pre occ post, name = pre ++ occ ++ post ∧ Same occ word ∧ (pre = [] ∨ pre.getLast? = some 32) ∧ (post = [] ∨ post.head? = some 32)

end Strings.Spec
