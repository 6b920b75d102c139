import Verif.Model.MemTest
/-! # Specification: memories with faults in the data -/

namespace MemTest.Faults

/-- `x` with bit `b` being `v`. -/
def withBit (x b : Nat) (v : Bool) : Nat := if x.testBit b = v then x else x ^^^ 2 ^ b

/-- Two data lines that touch: both show the AND of the two bits (`or = false`), or both the OR. -/
def shorted (or : Bool) (b c x : Nat) : Nat :=
  let d := if or then x.testBit b || x.testBit c else x.testBit b && x.testBit c
  withBit (withBit x b d) c d

/-- A memory that stores well and reads `g address value` where `value` is stored. -/
def reads {L : Type} [DecidableEq L] (loc : Nat → L) (g : Nat → Nat → Nat) : Mem (L → Nat) where
  wr s a v := fun l => if l = loc a then v else s l
  rd s a := g a (s (loc a))

/-- A memory in which every write of the word at `agg` also changes what is stored for the word at `vic`. -/
def coupled {L : Type} [DecidableEq L] (loc : Nat → L) (agg vic : Nat) (change : Nat → Nat) : Mem (L → Nat) where
  wr s a v := fun l => if a = agg ∧ l = loc vic ∧ l ≠ loc a then change (s l) else if l = loc a then v else s l
  rd s a := s (loc a)

/-- Different words of the range are stored in different places. -/
def Apart {L : Type} (loc : Nat → L) (start stop : Nat) : Prop :=
  ∀ i j, start + 4 * i < stop → start + 4 * j < stop → loc (start + 4 * i) = loc (start + 4 * j) → i = j

end MemTest.Faults
