import Verif.Props.Spsc
import Verif.Mem
/-! # Properties C07 (position setters) and C119 (construction from a span) of LockFreeFifoSpsc -/
namespace Spsc
open Spec
variable {T : Type}

/-- **C07**: `set_write_pos(d)` on a fresh FIFO gives the same fixed delay as construction with offset `d`. -/
theorem C07_set_write_pos {w k : Nat} (hk : k < w) (dflt : T) (mv : T → T) (d : Nat) (hd : d < 2 ^ k) (xs : List T) :
    taken (run (fixedCfg w k) dflt mv (setWritePos (init w (2 ^ k) dflt 0) (BitVec.ofNat w d)) (putGetStream xs)).2 =
      ((List.replicate d dflt ++ xs).take xs.length).map some :=
  (C07_delay_put_get hk dflt mv d hd xs).2

example := C07_set_write_pos (w := 32) (k := 3) (by decide) 0 id 5 (by decide) [1, 2, 3]

/-- **C07**: `set_read_pos(p)` with `p` at most `d` behind the write position is `set_read_offset(d)`. -/
theorem C07_set_read_pos {w : Nat} (s : St w T) (d : BitVec w) (h : d ≤ s.head) :
    setReadPos s (s.head - d) = setReadOffset s d := by
  simp [setReadPos, setReadOffset, h]

/-- **C119 (partial)**: constructed from a span of one-byte elements, the FIFO's slots hold the span's elements.
Missing: wider elements (next theorem). -/
theorem C119_span_ctor_partial (cap : Nat) (src : List (BitVec 8)) (h : src.length = cap) :
    spanCtorBytes cap 1 src = src := by
  simp [spanCtorBytes, ← h]

/-- **C119**, exactly what happens for elements of any width: the elements that lie wholly in the first max_size *bytes* are the span's, those that lie beyond them are zero. -/
theorem C119_span_ctor_exact (cap sz : Nat) (src : List (BitVec 8)) (hs : 0 < sz) (hl : src.length = cap * sz) :
    (spanCtorBytes cap sz src).length = cap * sz ∧
    (∀ i, (i + 1) * sz ≤ cap → elemBytes sz (spanCtorBytes cap sz src) i = elemBytes sz src i) ∧
    (∀ i, i < cap → cap ≤ i * sz → elemBytes sz (spanCtorBytes cap sz src) i = List.replicate sz 0#8) := by
  have hc : cap ≤ cap * sz := Nat.le_mul_of_pos_right cap hs
  unfold spanCtorBytes elemBytes
  refine ⟨by simp; omega, ?_, ?_⟩
  · intro i hi
    rw [Nat.add_mul, Nat.one_mul] at hi
    rw [List.drop_append_of_le_length (by rw [List.length_take]; omega), List.take_append_of_le_length (by rw [List.length_drop, List.length_take]; omega), List.drop_take, List.take_take,
      Nat.min_eq_left (by omega)]
  · intro i hi h
    have : (i + 1) * sz ≤ cap * sz := Nat.mul_le_mul_right sz hi
    rw [Nat.add_mul, Nat.one_mul] at this
    rw [List.drop_append, List.drop_of_length_le (by rw [List.length_take]; omega), List.nil_append, List.drop_replicate, List.take_replicate, List.length_take]
    congr 1; omega

/-- **C119 is violated** for every wider element type: if the span's last element is not all zero bytes, it is not
copied, whatever the capacity. -/
theorem C119_span_ctor_violated (cap sz : Nat) (hc : 0 < cap) (hs : 1 < sz) (src : List (BitVec 8))
    (hl : src.length = cap * sz) (hne : src.getLast? ≠ some 0#8) :
    spanCtorBytes cap sz src ≠ src := by
  intro h
  apply hne
  rw [← h]
  have h1 : cap < cap * sz := by
    have := Nat.mul_lt_mul_of_pos_left hs hc
    omega
  unfold spanCtorBytes
  rw [List.getLast?_append, List.getLast?_replicate, if_neg (by omega)]
  rfl

example : spanCtorBytes 2 2 [1, 2, 3, 4] = [1, 2, 0, 0] := by decide

end Spsc
