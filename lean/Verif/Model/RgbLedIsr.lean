import Verif.Model.Oscs
/-!
# An RGB LED animated by a timer interrupt (util/rgbled.hh)

`update_animation()` is called by an interrupt, `flash_once_ms` and `fade_once_ms` by the main program, which the interrupt may stop between any two assignments. Simplified: each assignment, a colour included, is one step; the compiler keeps their order.
-/
namespace RgbLed
open Oscs

/-- The assignments of `flash_once_ms` and `fade_once_ms` (rgbled.hh:32-36, 41; oscs.hh:179, 197), `f` being the frequency already computed. -/
inductive Asg where
  | color (c : Color) | phase | freq (f : Nat) | smooth (b : Bool)
  deriving DecidableEq, Repr

/-- One assignment: rgbled.hh:32-36, 41. -/
def assign (rate : Nat) (l : RgbLed) : Asg → RgbLed
  | .color c => { l with flashCol := c }
  | .phase => { l with flasher := l.flasher.reset }
  | .freq f => { l with flasher := l.flasher.setFreq rate f }
  | .smooth b => { l with smooth := b }

/-- The assignments of `flash_once_ms`, in order: rgbled.hh:31-37. -/
def flashAsgs (c : Color) (f : Nat) : List Asg := [.color c, .phase, .freq f, .smooth false]

/-- The assignments of `fade_once_ms`: rgbled.hh:39-42. -/
def fadeAsgs (c : Color) (f : Nat) : List Asg := flashAsgs c f ++ [.smooth true]

/-- The main program makes its assignments; before each of them, and after the last, the interrupt has come as often as `irqs` says. The colours shown are collected (rgbled.hh:31-42, 82-91). -/
def interrupted (rate : Nat) : List Asg → List Nat → RgbLed → RgbLed × List Color
  | [], irqs, l => run (irqs.headD 0) l
  | a :: as, irqs, l =>
    let (l, cs) := run (irqs.headD 0) l
    let (l, cs') := interrupted rate as irqs.tail (assign rate l a)
    (l, cs ++ cs')

end RgbLed
