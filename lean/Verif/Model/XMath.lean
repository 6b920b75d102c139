import Verif.XFlt
/-!
# Mathematical helpers for every float, including infinities and NaN (util/math.hh)
-/
namespace XMath
open XFlt

/-- `map_value<float, float, float>`: math.hh:19-23. -/
def mapValue (rnd : ℚ → ℚ) (x inMin inMax outMin outMax : XF) : XF :=
  add rnd (div rnd (mul rnd (sub rnd x inMin) (sub rnd outMax outMin)) (sub rnd inMax inMin)) outMin

/-- `constrain<float>`: math.hh:25-28. -/
def constrain (val min max : XF) : XF := if lt val min then min else if lt max val then max else val

/-- `max<float>`: math.hh:30-37. -/
def max (a b : XF) : XF := if lt b a then a else b

/-- `min<float>`: math.hh:39-46. -/
def min (a b : XF) : XF := if lt a b then a else b

/-- `between<float>`: math.hh:48-51. -/
def between (rnd : ℚ → ℚ) (x low high : XF) : Option XF := if le low x && le x high then some (sub rnd x low) else none

/-- `interpolate`: math.hh:53-55. -/
def interpolate (rnd : ℚ → ℚ) (in1 in2 phase : XF) : XF := add rnd (mul rnd in1 (sub rnd (.fin 1) phase)) (mul rnd in2 phase)

/-- `interpolate3`: math.hh:58-60. -/
def interpolate3 (rnd : ℚ → ℚ) (in1 in2 phase : XF) : XF := add rnd in1 (mul rnd phase (sub rnd in2 in1))

/-- `f_abs`: math.hh:171-173. -/
def fAbs (x : XF) : XF := if le (.fin 0) x then x else neg x

/-- `abs_diff<float>`: math.hh:175-178. -/
def absDiff (rnd : ℚ → ℚ) (x y : XF) : XF := if le y x then sub rnd x y else sub rnd y x

/-- `diff<float>`: math.hh:180-183. -/
def diff (rnd : ℚ → ℚ) (a b : XF) : XF := if lt b a then sub rnd a b else sub rnd b a

/-- `faster_sine`: math.hh:236-239. -/
def fasterSine (rnd : ℚ → ℚ) (x : XF) : XF :=
  let x := sub rnd (mul rnd x (.fin 2)) (.fin 1)
  mul rnd (.fin 4) (sub rnd x (mul rnd x (fAbs x)))

/-- `hysteresis_gate`: math.hh:337-344. -/
def hysteresisGate (rnd : ℚ → ℚ) (turnOff turnOn last new : XF) : XF :=
  let feedbackAmt := mul rnd (sub rnd turnOn turnOff) (.fin (1 / 2))
  let feedback := mul rnd feedbackAmt last
  let testSignal := add rnd new feedback
  let threshold := mul rnd (add rnd turnOn turnOff) (.fin (1 / 2))
  if lt threshold testSignal then .fin 1 else .fin 0

/-- `hysteresis_feedback`: math.hh:358-361. -/
def hysteresisFeedback (rnd : ℚ → ℚ) (coef thresh last new : XF) : XF := if lt thresh (add rnd new (mul rnd last coef)) then .fin 1 else .fin 0

end XMath
