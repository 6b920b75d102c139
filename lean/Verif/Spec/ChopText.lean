/-! # Specification: what int_to_str_chop really writes -/
namespace ChopText.Spec

/-- The characters, each with the decimal place it belongs to, for a value below `10 ^ n`, most significant first: a
value of exactly `10 ^ k` gives nothing for `k = 0` and otherwise the single character ':' in place `k - 1`; otherwise a leading digit 0
gives nothing and any other digit gives itself. -/
def kept : Nat → Nat → List (Nat × Nat)
  | 0, _ => []
  | n + 1, v =>
    if v = 10 ^ n then (if n = 0 then [] else [(n - 1, 58)])
    else if v / 10 ^ n = 0 then kept n v
    else (n, 48 + v / 10 ^ n) :: kept n (v % 10 ^ n)

end ChopText.Spec
