import Verif.Model.CircAccess
import Verif.XFlt
/-!
# `CircularBufferAccess` on every float (util/circular_buffer_ext.hh)

As `Model/CircAccess.lean`, with elements that may be infinite or NaN, and with the conversion of the blend back to an integer element, which
can be undefined.
-/
namespace XCirc
open XFlt CircAccess

/-- `d * phase + buf[wr] * (1.f - phase)` for float elements: circular_buffer_ext.hh:63, 76. -/
def mixX (rnd : ℚ → ℚ) (phase d old : XF) : XF :=
  add rnd (mul rnd d phase) (mul rnd old (sub rnd (.fin 1) phase))

/-- The same for elements of a signed integer type of `w` bits: converted to float and back: circular_buffer_ext.hh:63, 76. -/
def mixIntX (rnd : ℚ → ℚ) (w : Nat) (phase : XF) (d old : Int) : R Int :=
  toSigned w (mixX rnd phase (ofQ rnd d) (ofQ rnd old))

/-- A call that may change the buffer or the write position: circular_buffer_ext.hh:30-34, 60-84, 129-131. -/
inductive Op where
  | write (data : List XF) (phase : XF)
  | writeReverse (data : List XF) (phase : XF)
  | setWr (pos : Nat)
  | clear

/-- One call: circular_buffer_ext.hh:30-34, 60-84, 129-131. -/
def step (bits : Nat) (rnd : ℚ → ℚ) (s : St XF) : Op → R (St XF)
  | .write data phase => do
    let (s, _) ← CircAccess.write (mixX rnd phase) s data false
    pure s
  | .writeReverse data phase => do
    let (s, _) ← CircAccess.writeReverse bits (mixX rnd phase) s data false
    pure s
  | .setWr pos => pure (setWrPos s pos)
  | .clear => pure (CircAccess.clear (.fin 0) s)

/-- Several calls: circular_buffer_ext.hh:30-34, 60-84, 129-131. -/
def run (bits : Nat) (rnd : ℚ → ℚ) : St XF → List Op → R (St XF)
  | s, [] => pure s
  | s, o :: l => do
    let s ← step bits rnd s o
    run bits rnd s l

end XCirc
