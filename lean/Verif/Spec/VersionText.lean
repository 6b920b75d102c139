/-! # Specification: the number at the start of a text, and texts made of parts separated by dots -/
namespace Version.Spec

/-- White space of the C locale. -/
def space (c : Nat) : Prop := c = 32 ∨ (9 ≤ c ∧ c ≤ 13)

/-- A decimal digit's character code. -/
def digit (c : Nat) : Prop := 48 ≤ c ∧ c ≤ 57

/-- The value of a string of decimal digits. -/
def decVal : List Nat → Nat
  | [] => 0
  | c :: s => (c - 48) * 10 ^ s.length + decVal s

/-- `t` starts with the number `z`: white space, at most one sign, as many digits as there are, then anything. Without a digit it is 0. -/
inductive Starts (t : List Nat) : Int → Prop
  | plus (ws sg ds junk : List Nat) : t = ws ++ sg ++ ds ++ junk → (∀ c ∈ ws, space c) → sg = [] ∨ sg = [43] → (∀ c ∈ ds, digit c) →
      (∀ c l, junk = c :: l → ¬ digit c) → (sg = [] → ds = [] → ∀ c l, junk = c :: l → ¬ space c ∧ c ≠ 43 ∧ c ≠ 45) → Starts t (decVal ds)
  | minus (ws ds junk : List Nat) : t = ws ++ [45] ++ ds ++ junk → (∀ c ∈ ws, space c) → (∀ c ∈ ds, digit c) →
      (∀ c l, junk = c :: l → ¬ digit c) → Starts t (-(decVal ds : Int))

/-- The parts with a dot between each two. -/
def joined : List (List Nat) → List Nat
  | [] => []
  | [t] => t
  | t :: u :: l => t ++ 46 :: joined (u :: l)

/-- `zs` are the numbers the parts start with. -/
inductive Numbers : List (List Nat) → List Int → Prop
  | nil : Numbers [] []
  | cons {t z ts zs} : Starts t z → Numbers ts zs → Numbers (t :: ts) (z :: zs)

end Version.Spec
