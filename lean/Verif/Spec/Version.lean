import Verif.Model.Version
import Verif.Spec.IntToStr
/-! # Specification of versions: precedence and text form -/
namespace Version.Spec

/-- `a` precedes `b`: compare major, minor, revision in this order; a pre-release precedes the normal version. -/
inductive Precedes : Version → Version → Prop
  | major {a b} : a.major < b.major → Precedes a b
  | minor {a b} : a.major = b.major → a.minor < b.minor → Precedes a b
  | revision {a b} : a.major = b.major → a.minor = b.minor → a.revision < b.revision → Precedes a b
  | prerelease {a b} : a.major = b.major → a.minor = b.minor → a.revision = b.revision →
      a.isNormal = false → b.isNormal = true → Precedes a b

/-- The text of numbers separated by dots. -/
def dotted : List Nat → List Nat
  | [] => []
  | [n] => (Digits.Spec.dec n).map Digits.Spec.chr
  | n :: m :: l => (Digits.Spec.dec n).map Digits.Spec.chr ++ 46 :: dotted (m :: l)

/-- A suffix: empty, or a dash followed by anything without a dot. -/
def suffix (s : List Nat) : Prop := s = [] ∨ ∃ t, s = 45 :: t ∧ 46 ∉ t

/-- The field a text gives: 0 if it is missing or not in 0..255. -/
def fieldOf (ns : List Nat) (i : Nat) : Nat :=
  match ns[i]? with
  | some n => if n ≤ 255 then n else 0
  | none => 0

end Version.Spec
