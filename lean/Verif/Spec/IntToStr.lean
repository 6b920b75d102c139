/-! # Specification: positional notation -/
namespace Digits.Spec

/-- The digits of `v` in base `b + 2`, most significant first, no leading zeros (`[0]` for 0). -/
def digits (b v : Nat) : List Nat := if v < b + 2 then [v] else digits b (v / (b + 2)) ++ [v % (b + 2)]
termination_by v
decreasing_by exact Nat.div_lt_self (by omega) (by omega)

/-- Decimal digits. -/
def dec (v : Nat) : List Nat := digits 8 v

/-- Character codes of a digit: 0-9, A-F. -/
def chr (d : Nat) : Nat := if d < 10 then 48 + d else 55 + d

/-- The decimal representation of an integer, as character codes. -/
def decStr (v : Int) : List Nat := if v < 0 then 45 :: (dec v.natAbs).map chr else (dec v.natAbs).map chr

/-- The upper-case hexadecimal representation. -/
def hexStr (v : Nat) : List Nat := (digits 14 v).map chr

/-- The buffer after writing `s` at its start. -/
def written (buf s : List Nat) : List Nat := s ++ buf.drop s.length

end Digits.Spec
