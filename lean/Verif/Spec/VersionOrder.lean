import Verif.Spec.Version
/-! # Specification: which of two version texts is the older -/
namespace Version.Spec

/-- A version text: its numbers, and what follows them (`"-rc1"`, or nothing). -/
structure Text where
  nums : List Nat
  suf : List Nat
  deriving DecidableEq, Repr

/-- the characters -/
def Text.chars (t : Text) : List Nat := dotted t.nums ++ t.suf

/-- the `i`-th number; missing numbers count as 0 -/
def Text.num (t : Text) (i : Nat) : Nat := (t.nums[i]?).getD 0

/-- `a` is older than `b`: at the first place where the numbers differ it has the smaller one; or all the numbers are the same, and
`a` is a pre-release (has a suffix) and `b` is not. -/
def Text.Older (a b : Text) : Prop :=
  (∃ i, (∀ j < i, a.num j = b.num j) ∧ a.num i < b.num i) ∨ ((∀ i, a.num i = b.num i) ∧ a.suf ≠ [] ∧ b.suf = [])

/-- the library's range: one to three numbers up to 255, then nothing or a dash and anything without a dot -/
structure Text.Plain (t : Text) : Prop where
  some : t.nums ≠ []
  three : t.nums.length ≤ 3
  byte : ∀ n ∈ t.nums, n ≤ 255
  suf : suffix t.suf

end Version.Spec
