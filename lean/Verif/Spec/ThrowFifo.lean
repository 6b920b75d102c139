import Verif.Model.ThrowFifo
/-! # What can be seen of a FIFO -/
namespace ThrowFifo.Spec

/-- The items it holds, oldest first: as many as `num_filled()` says, from the read position on. -/
def items {w : Nat} {T : Type} (cfg : Spsc.Cfg w) (s : Spsc.St w T) : List (Option T) :=
  (List.range (s.head - s.tail).toNat).map fun i => s.buf[cfg.idx (s.tail + BitVec.ofNat w i)]?

end ThrowFifo.Spec
