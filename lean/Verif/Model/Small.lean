import Verif.Basic
import Mathlib.Algebra.Order.Field.Rat
import Mathlib.Data.Rat.Defs
/-!
# Small containers and helpers

util/byte_block.hh, util/input_output_buffer.hh, util/bitfield.hh, util/zip.hh, util/countzip.hh, util/iterator_helpers.hh, util/callable.hh, util/big_buffer.hh, util/padded_aligned.hh, util/soft_neon.hh.
-/

namespace ByteBlock
/-- `printU8`: byte_block.hh:22-24. `data` is the byte vector. -/
def printU8 (data : List Nat) (x : Nat) : List Nat := data ++ [(x >>> 0) &&& 0xFF]
/-- `printU16LE`: byte_block.hh:25-28. -/
def printU16 (data : List Nat) (x : Nat) : List Nat := data ++ [(x >>> 0) &&& 0xFF] ++ [(x >>> 8) &&& 0xFF]
/-- `printU32LE`: byte_block.hh:29-34. -/
def printU32 (data : List Nat) (x : Nat) : List Nat := data ++ [(x >>> 0) &&& 0xFF] ++ [(x >>> 8) &&& 0xFF] ++ [(x >>> 16) &&& 0xFF] ++ [(x >>> 24) &&& 0xFF]
/-- `printRaw`: byte_block.hh:36-39; `mem` is the memory from `x` on. -/
def printRaw (data : List Nat) (mem : List Nat) : Nat → R (List Nat)
  | 0 => .ok data
  | size + 1 => match mem with
    | [] => .ub
    | b :: rest => printRaw (data ++ [b]) rest size
end ByteBlock

/-- `InputBuffer` and `OutputBuffer`: input_output_buffer.hh:8-46, 51-90 (same members). -/
structure IOBuf (α : Type) where
  buf : List α
  head : Nat
  deriving DecidableEq

namespace IOBuf
variable {α : Type}
/-- Initial state: input_output_buffer.hh:44-45, 88-89. -/
def init (n : Nat) (z : α) : IOBuf α := ⟨List.replicate n z, 0⟩
/-- `full`: input_output_buffer.hh:19-21, 63-65. -/
def full (b : IOBuf α) : Bool := decide (b.head ≥ b.buf.length)
/-- `reset`: input_output_buffer.hh:23-25, 67-69. -/
def reset (b : IOBuf α) : IOBuf α := { b with head := 0 }
/-- `InputBuffer::put`: input_output_buffer.hh:11-17. -/
def put (b : IOBuf α) (x : α) : R (IOBuf α) := do
  if b.full then .ok b
  else
    let buf ← arrSet b.buf b.head x
    .ok { buf := buf, head := b.head + 1 }
/-- `OutputBuffer::get`: input_output_buffer.hh:54-61. -/
def get (b : IOBuf α) (z : α) : R (IOBuf α × α) := do
  if b.full then .ok (b, z)
  else
    let t ← arrGet b.buf b.head
    .ok ({ b with head := b.head + 1 }, t)
/-- Writing an element of the output buffer through `data()`: input_output_buffer.hh:71-73. -/
def fill (b : IOBuf α) (i : Nat) (x : α) : R (IOBuf α) := do
  let buf ← arrSet b.buf i x
  .ok { b with buf := buf }
end IOBuf

namespace Bitfield
/-- `bitfield(args...)`, a left fold of `|`: bitfield.hh:18-21; at least one argument (an empty fold over `|` does not compile). -/
def bitfield (x : Nat) (xs : List Nat) : Nat := xs.foldl (· ||| ·) x
/-- `OR({...})`: bitfield.hh:23-31. `val` is not initialised; reading it (in `|=` or `return`) is undefined. `val0` is its initial value, `none` for indeterminate. -/
def orLoop (val0 : Option Nat) (fields : List Nat) : R Nat :=
  match fields with
  | [] => match val0 with
    | none => .ub
    | some v => .ok v
  | el :: rest => match val0 with
    | none => .ub
    | some v => orLoop (some (v ||| el)) rest
/-- `OR`: bitfield.hh:23-31. -/
def OR (fields : List Nat) : R Nat := orLoop none fields
end Bitfield

namespace Zip
/-- `any_match`, the fold of `||` over the positions: iterator_helpers.hh:29-38. -/
def anyMatch (l r : List Nat) : Bool := (l.zip r).foldl (fun b p => b || decide (p.1 = p.2)) false

/-- `*it`, reading every container at its iterator: zip.hh:63-65. Iterators are positions; the element types of the containers are identified (a simplification). -/
def deref {α : Type} : List (List α) → List Nat → R (List α)
  | c :: cs, i :: is => do let x ← arrGet c i; let xs ← deref cs is; .ok (x :: xs)
  | _, _ => .ok []

/-- `++it`: zip.hh:40-43. -/
def incr (is : List Nat) : List Nat := is.map (· + 1)

/-- A range-for over `zip(...)`: `begin` to `end`, comparing with `!=`: zip.hh:51-61, 83-88. Returns the tuples visited; `none` when more than `fuel` steps are taken. -/
def loop {α : Type} (cs : List (List α)) (ends : List Nat) : Nat → List Nat → R (Option (List (List α)))
  | 0, is => if anyMatch is ends then .ok (some []) else .ok none
  | fuel + 1, is =>
    if anyMatch is ends then .ok (some [])
    else do
      let x ← deref cs is
      let r ← loop cs ends fuel (incr is)
      .ok (r.map (x :: ·))

/-- `for (auto t : zip(cs...))` (zip.hh:1-99). -/
def zip {α : Type} (cs : List (List α)) (fuel : Nat) : R (Option (List (List α))) := loop cs (cs.map List.length) fuel (cs.map fun _ => 0)

/-- The same with the counter of countzip.hh:40-44, 64-66, 69. -/
def countLoop {α : Type} (cs : List (List α)) (ends : List Nat) : Nat → Nat → List Nat → R (Option (List (Nat × List α)))
  | 0, _, is => if anyMatch is ends then .ok (some []) else .ok none
  | fuel + 1, cnt, is =>
    if anyMatch is ends then .ok (some [])
    else do
      let x ← deref cs is
      let r ← countLoop cs ends fuel (cnt + 1) (incr is)
      .ok (r.map ((cnt, x) :: ·))

/-- `for (auto t : countzip(cs...))` (and `enumerate`): countzip.hh:83-107. -/
def countzip {α : Type} (cs : List (List α)) (fuel : Nat) : R (Option (List (Nat × List α))) := countLoop cs (cs.map List.length) fuel 0 (cs.map fun _ => 0)
end Zip

/-- Objects owning something by a pointer or in place: `FunctionSized` (callable.hh:20-74) owns the callable constructed in `m_data`, `BigBuffer` (big_buffer.hh:9-33) the heap object `data`. A variable is
`none` before construction and after destruction; a constructed variable refers to a resource or, for a default-constructed `FunctionSized`, to none. `made` and `freed` list the resources constructed and destroyed. -/
structure Owners where
  vars : Nat → Option (Option Nat)
  next : Nat
  made : List Nat
  freed : List Nat

namespace Owners
/-- No variables (callable.hh:21-94, big_buffer.hh:10-33). -/
def init : Owners := ⟨fun _ => none, 0, [], []⟩
/-- Set a variable (callable.hh:21-94, big_buffer.hh:10-33). -/
def setVar (s : Owners) (x : Nat) (v : Option (Option Nat)) : Owners := { s with vars := fun y => if y = x then v else s.vars y }
/-- `FunctionSized()`: callable.hh:23. -/
def defaultCtor (s : Owners) (x : Nat) : R Owners := if s.vars x = none then .ok (s.setVar x (some none)) else .ub
/-- `FunctionSized(Callable)` constructs the callable in `m_data` (callable.hh:25-31; the parameter's own construction and destruction cancel); `BigBuffer()` allocates (big_buffer.hh:14-16). -/
def construct (s : Owners) (x : Nat) : R Owners :=
  if s.vars x = none then .ok { (s.setVar x (some (some s.next))) with next := s.next + 1, made := s.next :: s.made } else .ub
/-- Implicit copy constructor (memberwise: neither class declares one): callable.hh:20-74, big_buffer.hh:9-33. -/
def copyCtor (s : Owners) (x y : Nat) : R Owners :=
  if s.vars x = none then match s.vars y with
    | some v => .ok (s.setVar x (some v))
    | none => .ub
  else .ub
/-- Implicit copy assignment (memberwise) (callable.hh:21-94, big_buffer.hh:10-33). -/
def assign (s : Owners) (x y : Nat) : R Owners :=
  match s.vars x, s.vars y with
  | some _, some v => .ok (s.setVar x (some v))
  | _, _ => .ub
/-- Destructor: callable.hh:33-36, big_buffer.hh:17-19. -/
def destroy (s : Owners) (x : Nat) : R Owners :=
  match s.vars x with
  | none => .ub
  | some none => .ok (s.setVar x none)
  | some (some r) => .ok { (s.setVar x none) with freed := r :: s.freed }
/-- `call`: callable.hh:38-44; which resource is called. Undefined if none is stored, or if it has been destroyed. -/
def call (s : Owners) (x : Nat) : R Nat :=
  match s.vars x with
  | some (some r) => if r ∈ s.freed then .ub else .ok r
  | _ => .ub
/-- `operator bool`: callable.hh:46-48. -/
def isSet (s : Owners) (x : Nat) : R Bool :=
  match s.vars x with
  | some v => .ok v.isSome
  | none => .ub
end Owners

namespace PaddedAligned
/-- `aligned_sz`: padded_aligned.hh:12, in a 2^w-valued `size_t`. -/
def alignedSz (w dataSz align : Nat) : Nat := ((dataSz + (align - 1)) % 2 ^ w) &&& (2 ^ w - 1 - (align - 1))
/-- `pad_sz`: padded_aligned.hh:13. -/
def padSz (w dataSz align : Nat) : Nat := (alignedSz w dataSz align + 2 ^ w - dataSz) % 2 ^ w
end PaddedAligned

/-- Vectors of soft_neon.hh:4-22 with exact lanes. -/
structure V4 where
  (a b c d : ℚ)
  deriving DecidableEq
/-- soft_neon.hh:14-22. -/
structure V2 where
  (a b : ℚ)
  deriving DecidableEq

namespace Neon
/-- Lane of a 4-vector: soft_neon.hh:6-11. -/
def V4.lane (v : V4) : Nat → R ℚ
  | 0 => .ok v.a | 1 => .ok v.b | 2 => .ok v.c | 3 => .ok v.d | _ => .ub
/-- `vget_lane_f32`: soft_neon.hh:75-77. -/
def V2.lane (v : V2) : Nat → R ℚ
  | 0 => .ok v.a | 1 => .ok v.b | _ => .ub
/-- `vdupq_n_f32`: soft_neon.hh:24-27. -/
def vdup (x : ℚ) : V4 := ⟨x, x, x, x⟩
/-- `vld1q_f32`: soft_neon.hh:29-31. -/
def vld1 (l : List ℚ) : R V4 := do
  let a ← arrGet l 0; let b ← arrGet l 1; let c ← arrGet l 2; let d ← arrGet l 3
  .ok ⟨a, b, c, d⟩
/-- `vmulq_f32`: soft_neon.hh:33-40. -/
def vmul (x y : V4) : V4 := ⟨x.a * y.a, x.b * y.b, x.c * y.c, x.d * y.d⟩
/-- `vmlaq_f32`, which also updates `dst`; the result is the new `dst`: soft_neon.hh:42-54. -/
def vmla (dst x y : V4) : V4 := ⟨dst.a + x.a * y.a, dst.b + x.b * y.b, dst.c + x.c * y.c, dst.d + x.d * y.d⟩
/-- `vsubq_f32`: soft_neon.hh:56-58. -/
def vsub (x y : V4) : V4 := ⟨x.a - y.a, x.b - y.b, x.c - y.c, x.d - y.d⟩
/-- `vpadd_f32`: soft_neon.hh:60-65. -/
def vpadd (x y : V2) : V2 := ⟨x.a + x.b, y.a + y.b⟩
/-- `vget_low_f32`: soft_neon.hh:67-69. -/
def vlow (x : V4) : V2 := ⟨x.a, x.b⟩
/-- `vget_high_f32`: soft_neon.hh:71-73. -/
def vhigh (x : V4) : V2 := ⟨x.c, x.d⟩
/-- `vmaxq_f32`: soft_neon.hh:79-86. -/
def vmax (x y : V4) : V4 := ⟨max x.a y.a, max x.b y.b, max x.c y.c, max x.d y.d⟩
end Neon
