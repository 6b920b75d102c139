import Verif.Basic
/-!
# `int_to_str`, `int_to_str_chop`, `num_digits` (util/int_to_str.cc) and `print` (util/print.hh)

Characters are their codes (`'0'` is 48, `'-'` 45, `'A'` 65). An `int32_t` is an `Int` in its range. Buffer sizes are below 2^32.
-/
namespace IntToStr

/-- Negation of an `int32_t`: undefined for the most negative value (int_to_str.cc:45, 108; print.hh:53). -/
def neg32 (v : Int) : R Int := if v = -2147483648 then .ub else .ok (-v)

/-- The template arguments of the calls in int_to_str.cc:49-68 and 122-141, print.hh:58-67. -/
def places10 : List Nat :=
  [1000000000, 100000000, 10000000, 1000000, 100000, 10000, 1000, 100, 10, 1]

/-- `Log10<Place>()`: int_to_str.cc:11-19. -/
def log10 (place : Nat) : Nat := if place ≤ 1 then 1 else log10 (place / 10) + 1
termination_by place
decreasing_by omega

/-- `digit<Place>`: int_to_str.cc:21-29: the remaining value and the character (0 for none). -/
def digit (place value avail : Nat) : Nat × Nat :=
  if value > place then
    let dig := value / place
    (value - dig * place, if avail > log10 place then 48 + dig else 0)
  else (value, 0)

/-- The calls of `digit` in `int_to_str_chop`: int_to_str.cc:49-68, and the terminator: 70. -/
def chopLoop : List Nat → Nat → Nat → List Nat → R (List Nat)
  | [], _, len, buf => arrSet buf len 0
  | p :: ps, val, len, buf =>
    let r := digit p val (buf.length - len)
    if r.2 ≠ 0 then do
      let buf ← arrSet buf len r.2
      chopLoop ps r.1 (len + 1) buf
    else chopLoop ps r.1 len buf

/-- `int_to_str_chop`: int_to_str.cc:32-71. -/
def chop (value : Int) (buf : List Nat) : R (List Nat) :=
  if buf.length ≤ 1 then .ok buf
  else if value = 0 then do
    let buf ← arrSet buf 0 48
    arrSet buf 1 0
  else if value < 0 then do
    let buf ← arrSet buf 0 45
    let value ← neg32 value
    chopLoop places10 value.toNat 1 buf
  else chopLoop places10 value.toNat 0 buf

/-- `_digit<Place>`: int_to_str.cc:77-85. -/
def digit' (place value : Nat) : Nat × Nat :=
  if value ≥ place then
    let dig := value / place
    (value - dig * place, 48 + dig)
  else (value, 0)

/-- `num_digits`: int_to_str.cc:88-100. -/
def numDigits (value : Nat) : Nat :=
  if value < 10 then 1
  else if value < 100 then 2
  else if value < 1000 then 3
  else if value < 10000 then 4
  else if value < 100000 then 5
  else numDigits (value / 100000) + 5
termination_by value
decreasing_by omega

/-- The calls of `_digit` in `int_to_str`: int_to_str.cc:122-141, and the terminator: 143. -/
def strLoop : List Nat → Nat → Nat → List Nat → R (List Nat)
  | [], _, len, buf => arrSet buf len 0
  | p :: ps, val, len, buf =>
    let r := digit' p val
    if r.2 ≠ 0 then do
      let buf ← arrSet buf len r.2
      strLoop ps r.1 (len + 1) buf
    else strLoop ps r.1 len buf

/-- `int_to_str` after the sign: int_to_str.cc:110-144. -/
def strTail (value : Int) (len : Nat) (buf : List Nat) : R (List Nat × Bool) :=
  if value = 0 then do
    let buf ← arrSet buf 0 48
    let buf ← arrSet buf 1 0
    .ok (buf, true)
  else
    let numDig := numDigits value.toNat
    if numDig + len + 1 > buf.length then .ok (buf, false)
    else do
      let buf ← strLoop places10 value.toNat len buf
      .ok (buf, true)

/-- `int_to_str`: int_to_str.cc:102-145. -/
def intToStr (value : Int) (buf : List Nat) : R (List Nat × Bool) :=
  if value < 0 then
    if buf.length = 0 then .ok (buf, false)
    else do
      let buf ← arrSet buf 0 45
      let value ← neg32 value
      strTail value 1 buf
  else strTail value 0 buf

end IntToStr

namespace Print

/-- `print_digit` for a list of places: print.hh:32-40; the characters given to `putc`. -/
def digits : List Nat → Nat → Bool → List Nat
  | [], _, _ => []
  | p :: ps, value, printZero =>
    if printZero || decide (value ≥ p) then
      let dig := value / p
      (if dig < 10 then 48 + dig else 65 + dig - 10) :: digits ps (value - dig * p) true
    else digits ps value printZero

/-- The template arguments in print.hh:80-87. -/
def places16 : List Nat := [0x10000000, 0x1000000, 0x100000, 0x10000, 0x1000, 0x100, 0x10, 0x1]

/-- `printone(int32_t)`: print.hh:43-68. -/
def int (val : Int) : R (List Nat) :=
  if val = 0 then .ok [48]
  else if val < 0 then do
    let v ← IntToStr.neg32 val
    .ok (45 :: digits IntToStr.places10 v.toNat false)
  else .ok (digits IntToStr.places10 val.toNat false)

/-- `printone(Hex)`: print.hh:70-88. -/
def hex (x : Nat) : List Nat := if x = 0 then [48] else digits places16 x false

/-- `printone(const char *)`: print.hh:13-17 (and 19-23): `mem` is the memory from the pointer to the end of its object. -/
def cstr : List Nat → R (List Nat)
  | [] => .ub
  | c :: mem => if c = 0 then .ok [] else do
    let r ← cstr mem
    .ok (c :: r)

/-- `printone(std::string_view)`: print.hh:25-28: the view is `data()`'s memory and its length. -/
def view (mem : List Nat) (_len : Nat) : R (List Nat) := cstr mem

/-- `static_cast<int32_t>(f)` for a finite `f`: truncation, undefined if the result does not fit (print.hh:94). -/
def toInt32 (f : Rat) : R Int :=
  let i := f.num.tdiv f.den
  if -2147483648 ≤ i ∧ i ≤ 2147483647 then .ok i else .ub

/-- `printone(float)`: print.hh:90-96; `none` is an infinity or NaN, whose conversion is undefined. -/
def flt : Option Rat → R (List Nat)
  | none => .ub
  | some f => do
    let i ← toInt32 f
    let s ← int i
    .ok (63 :: (s ++ [63]))

/-- One argument of `print`: print.hh:13-96. -/
inductive Arg where
  | int (v : Int)
  | flt (f : Option Rat)
  | hex (x : Nat)
  | cstr (mem : List Nat)
  | view (mem : List Nat) (len : Nat)

/-- One argument of `print`: print.hh:10-108. -/
def one : Arg → R (List Nat)
  | .int v => int v
  | .flt f => flt f
  | .hex x => .ok (hex x)
  | .cstr m => cstr m
  | .view m n => view m n

/-- `print<putc>(args...)`: print.hh:105-108. -/
def print : List Arg → R (List Nat)
  | [] => .ok []
  | a :: l => do
    let x ← one a
    let y ← print l
    .ok (x ++ y)

end Print
