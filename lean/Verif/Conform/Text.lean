import Verif.Model.IntToStr
/-! # The project's own tests of numbers as text, run on the model

tests/int_to_str_tests.cc and tests/print_tests.cc. These are tests of the model, not proofs about it. Left out: `print(INT_MIN)` (print_tests.cc:122-127), which is signed overflow and `ub` in
the model (`Print.C51_int_min_violated`). -/
namespace Conform.Text
open IntToStr

/-- A character. -/
def c (x : Char) : Nat := x.toNat
/-- A string literal with its terminator. -/
def lit (s : String) : List Nat := s.toList.map c ++ [0]
/-- The characters of a string. -/
def str (s : String) : List Nat := s.toList.map c

def b5 : List Nat := [0x7F, 0x7F, 0x7F, 0x7F, 0x7F]

-- int_to_str_tests.cc:6-48
example : chop 123 b5 = .ok (lit "123" ++ [0x7F]) := by decide +kernel
example : chop 0 b5 = .ok (lit "0" ++ [0x7F, 0x7F, 0x7F]) := by decide +kernel
example : chop 12345 b5 = .ok (lit "2345") := by decide +kernel
example : chop (-123) b5 = .ok (lit "-123") := by decide +kernel
example : chop (-12345) (lit "-123") = .ok (lit "-345") := by decide +kernel
-- int_to_str_tests.cc:50-63
example : numDigits 1 = 1 ∧ numDigits 12 = 2 ∧ numDigits 123 = 3 ∧ numDigits 1234 = 4 ∧ numDigits 12345 = 5 ∧ numDigits 123456 = 6 ∧ numDigits 1234567 = 7 ∧ numDigits 12345678 = 8 ∧
    numDigits 123456789 = 9 ∧ numDigits 1234567890 = 10 ∧ numDigits 2147483647 = 10 ∧ numDigits 4294967295 = 10 := by decide +kernel
-- int_to_str_tests.cc:65-121
example : intToStr 123 b5 = .ok (lit "123" ++ [0x7F], true) ∧ intToStr 1234 (lit "123" ++ [0x7F]) = .ok (lit "1234", true) := by decide +kernel
example : intToStr 0 b5 = .ok (lit "0" ++ [0x7F, 0x7F, 0x7F], true) := by decide +kernel
example : intToStr 12345 b5 = .ok (b5, false) ∧ intToStr (-12345) b5 = .ok ([45, 0x7F, 0x7F, 0x7F, 0x7F], false) ∧ intToStr (-1234) b5 = .ok ([45, 0x7F, 0x7F, 0x7F, 0x7F], false) := by
  decide +kernel
example : intToStr (-1) b5 = .ok (lit "-1" ++ [0x7F, 0x7F], true) ∧ intToStr (-12) (lit "-1" ++ [0x7F, 0x7F]) = .ok (lit "-12" ++ [0x7F], true) ∧ intToStr (-123) (lit "-12" ++ [0x7F]) = .ok (lit "-123", true) := by
  decide +kernel

open Print
-- print_tests.cc:16-29
example : print [.cstr (lit "Hi")] = .ok (str "Hi") ∧ one (.cstr (lit "Test")) = .ok (str "Test") := by decide +kernel
-- print_tests.cc:43-70
example : print [.cstr (lit "Hi"), .int 1] = .ok (str "Hi1") ∧ print [.int (-12), .cstr (lit "Oh")] = .ok (str "-12Oh") ∧
    print [.cstr (lit "O"), .view (lit "xy") 2, .cstr (lit " "), .cstr (lit "abc")] = .ok (str "Oxy abc") := by decide +kernel
-- print_tests.cc:72-147
example : print [.int 0] = .ok (str "0") ∧ print [.int 2] = .ok (str "2") ∧ print [.int 20] = .ok (str "20") ∧ print [.int 201] = .ok (str "201") ∧ print [.int 1234567890] = .ok (str "1234567890") ∧
    print [.int 2147483647] = .ok (str "2147483647") ∧ print [.int (-2)] = .ok (str "-2") ∧ print [.int (-20)] = .ok (str "-20") ∧ print [.int (-201)] = .ok (str "-201") := by decide +kernel
-- print_tests.cc:149-192
example : print [.hex 0xD0B] = .ok (str "D0B") ∧ print [.hex 0xABCD1234] = .ok (str "ABCD1234") ∧ print [.hex 0xFFFFFFFF] = .ok (str "FFFFFFFF") ∧ print [.hex 0x7FFFFFFF] = .ok (str "7FFFFFFF") := by decide +kernel
-- print_tests.cc:207-221
example : (print [.cstr (lit "One"), .int 201, .cstr (lit "Three")]).bind (fun s => .ok s.length) = .ok 11 ∧ (print [.cstr (lit "e"), .int (-130), .cstr (lit "Three")]).bind (fun s => .ok s.length) = .ok 10 := by decide +kernel

end Conform.Text
