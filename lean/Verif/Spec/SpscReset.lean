import Verif.Spec.Spsc
/-! # Specification: when the producer may reset (C06) -/

namespace Spsc.Spec
open Spsc

/-- The consumer is in no call, or has started one and not yet accessed the FIFO. -/
def notBegun : CPc w T → Bool
  | .idle => true
  | .get0 _ => true
  | .rem0 => true
  | .fill0 _ => true
  | .reset0 => true
  | _ => false

/-- Whenever a `reset()` of the producer stores, the FIFO is empty or the consumer has not begun a call. -/
def CalmResets (cfg : Cfg w) (dflt : T) (mv : T → T) : St w T → List (Act T) → Bool
  | _, [] => true
  | s, a :: as =>
    (match a, s.ppc with
      | .pStep _, .reset1 _ => decide (s.tail = s.head) || notBegun s.cpc
      | _, _ => true) && CalmResets cfg dflt mv (step cfg dflt mv s a).1 as

end Spsc.Spec
