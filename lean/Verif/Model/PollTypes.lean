import Verif.Model.ParamsInt
import Mathlib.Algebra.Order.Field.Rat
/-!
# `PollEvent` with other clocks (util/poll_event.hh)

`TimeT` a signed type narrower than `int`, whose arithmetic is in `int` and does not overflow, or `float`, whose times are rationals and whose arithmetic rounds.
-/
namespace PollTypes
open ParamsInt

/-- `PollEvent::poll` for a signed `TimeT` with `w` < 32 bits: whether the action runs, and the new `last_poll`: poll_event.hh:9-25. -/
def pollNarrow (w : Nat) (period last now : Int) : Bool × Int :=
  let expired :=
    if now < last then
      if now ≥ conv ⟨w, true⟩ (last + period) then true else false
    else if now - last ≥ period then true
    else false
  if expired then (true, now) else (false, last)

/-- Poll at each of the given times: poll_event.hh:9-29. -/
def pollsNarrow (w : Nat) (period : Int) : Int → List Int → List Bool
  | _, [] => []
  | last, now :: l => (pollNarrow w period last now).1 :: pollsNarrow w period (pollNarrow w period last now).2 l

/-- `PollEvent<float>::poll`: whether the action runs, and the new `last_poll`: poll_event.hh:9-25. -/
def pollFloat (rnd : ℚ → ℚ) (period last now : ℚ) : Bool × ℚ :=
  let expired :=
    if now < last then
      if now ≥ rnd (last + period) then true else false
    else if rnd (now - last) ≥ period then true
    else false
  if expired then (true, now) else (false, last)

/-- Poll at each of the given times; the times at which the action runs: poll_event.hh:9-29. -/
def runsFloat (rnd : ℚ → ℚ) (period : ℚ) : ℚ → List ℚ → List ℚ
  | _, [] => []
  | last, now :: l =>
    if (pollFloat rnd period last now).1 then now :: runsFloat rnd period (pollFloat rnd period last now).2 l
    else runsFloat rnd period (pollFloat rnd period last now).2 l

end PollTypes
