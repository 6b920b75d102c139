import Verif.Model.RgbLedIsr
/-! # Specification: a call of the main program as if nothing could interrupt it (C210) -/

namespace RgbLed.Spec

/-- The interrupt comes `n` times before the call and `m` times after it; `call` is what the call does on its own. -/
def atomic (call : RgbLed → RgbLed) (n m : Nat) (l : RgbLed) : RgbLed × List Color :=
  ((run m (call (run n l).1)).1, (run n l).2 ++ (run m (call (run n l).1)).2)

/-- Whatever the interrupts, all is as if each had come before the call or after it. -/
def Atomic (rate : Nat) (asgs : List Asg) (call : RgbLed → RgbLed) (l : RgbLed) (irqs : List Nat) : Prop :=
  ∃ n m, interrupted rate asgs irqs l = atomic call n m l

/-- What is left of a flash after `n` frames at `inc` per frame. -/
def left (p inc n : Nat) : Nat := if n = 0 then p else if inc = 0 then 0 else p - n * inc

end RgbLed.Spec
