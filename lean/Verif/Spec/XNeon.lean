import Verif.Model.XNeon
/-! # Specification: the processor's vector instructions, which take their arguments by value -/
namespace XNeon.Spec
open XFlt

/-- The larger of two floats, as the processor computes it (`VMAX`): NaN if either is. -/
def larger (x y : XF) : XF := if x = .nan ∨ y = .nan then .nan else if le x y then y else x

/-- lane by lane -/
def hmax (x y : X4) : X4 := ⟨larger x.a y.a, larger x.b y.b, larger x.c y.c, larger x.d y.d⟩

/-- A statement with the processor's instructions: only the destination changes. -/
def hstep (rnd : ℚ → ℚ) (ma : XF → XF → XF → XF) (s : Nat → X4) : Stmt → Nat → X4
  | .dup i x => set s i (vdup x)
  | .load i v => set s i v
  | .mul i x y => set s i (vmul rnd (s x) (s y))
  | .mla i acc x y => set s i (vmla ma (s acc) (s x) (s y))
  | .sub i x y => set s i (vsub rnd (s x) (s y))
  | .max i x y => set s i (hmax (s x) (s y))

def hrun (rnd : ℚ → ℚ) (ma : XF → XF → XF → XF) (s : Nat → X4) : List Stmt → Nat → X4
  | [] => s
  | p :: l => hrun rnd ma (hstep rnd ma s p) l

/-- the variables a statement reads -/
def reads : Stmt → List Nat
  | .dup _ _ => []
  | .load _ _ => []
  | .mul _ x y => [x, y]
  | .mla _ acc x y => [acc, x, y]
  | .sub _ x y => [x, y]
  | .max _ x y => [x, y]

/-- its destination -/
def dest : Stmt → Nat
  | .dup i _ => i
  | .load i _ => i
  | .mul i _ _ => i
  | .mla i _ _ _ => i
  | .sub i _ _ => i
  | .max i _ _ => i

/-- A maximum is harmless if a lane of its first argument is NaN only where the second one's is. -/
def MaxFine (s : Nat → X4) : Stmt → Prop
  | .max _ x y => ((s x).a = .nan → (s y).a = .nan) ∧ ((s x).b = .nan → (s y).b = .nan) ∧ ((s x).c = .nan → (s y).c = .nan) ∧
      ((s x).d = .nan → (s y).d = .nan)
  | _ => True

/-- the variables used up: accumulators of `vmlaq_f32` that have not been assigned since -/
def used (u : Nat → Prop) : Stmt → Nat → Prop
  | .mla i acc _ _ => fun v => v ≠ i ∧ (u v ∨ v = acc)
  | p => fun v => v ≠ dest p ∧ u v

/-- On the processor the program never reads an accumulator after handing it to `vmlaq_f32` (unless assigned again, for example with the
result), its maxima are harmless, and in the end variable `out` is not used up. -/
def Fine (rnd : ℚ → ℚ) (ma : XF → XF → XF → XF) (out : Nat) : (Nat → Prop) → (Nat → X4) → List Stmt → Prop
  | u, _, [] => ¬ u out
  | u, s, p :: l => (∀ v ∈ reads p, ¬ u v) ∧ MaxFine s p ∧ Fine rnd ma out (used u p) (hstep rnd ma s p) l

end XNeon.Spec
