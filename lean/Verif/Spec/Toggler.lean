import Verif.Model.Toggler
/-! # Specification of togglers, debouncers and triggers -/

namespace Debouncer.Spec

/-- The samples among the calls, oldest first. -/
def samples : List Op → List Bool
  | [] => []
  | .sample b :: l => b :: samples l
  | _ :: l => samples l

/-- The sample `i` samples ago (0: the last one); samples before the first read as low. -/
def sampleAgo (hist : List Bool) (i : Nat) : Bool := hist.reverse.getD i false

/-- The last `n` samples are the bits of `pat`, the last sample being bit 0. -/
def Matches (n : Nat) (pat : BitVec 32) (hist : List Bool) : Prop := ∀ i, i < n → sampleAgo hist i = pat.getLsbD i

end Debouncer.Spec

namespace Toggler.Spec

/-- The call registers a rising edge on toggler `i`: it was told so, or it was given a high state while it was low. -/
def isRise (i : Bool) (s : Toggler × Toggler) (o : Op) : Bool :=
  o == .rising i || (o == .registerState i true && !isHigh (get s i))

/-- The call registers a falling edge on toggler `i`. -/
def isFall (i : Bool) (s : Toggler × Toggler) (o : Op) : Bool :=
  o == .falling i || (o == .registerState i false && isHigh (get s i))

/-- The call does not move events between togglers. -/
def own : Op → Bool
  | .copyState _ | .updateState _ | .transferEvents _ => false
  | _ => true

/-- How many rising (falling) edges the calls register on toggler `i`. -/
def rises (i : Bool) : List Op → Toggler × Toggler → Nat
  | [], _ => 0
  | o :: l, s => (if isRise i s o then 1 else 0) + rises i l (step s o).2
def falls (i : Bool) : List Op → Toggler × Toggler → Nat
  | [], _ => 0
  | o :: l, s => (if isFall i s o then 1 else 0) + falls i l (step s o).2

/-- How often is_just_pressed (is_just_released) of toggler `i` answers true. -/
def pressed (i : Bool) : List Op → Toggler × Toggler → Nat
  | [], _ => 0
  | o :: l, s => (if o = .isJustPressed i ∧ (step s o).1 = some true then 1 else 0) + pressed i l (step s o).2
def released (i : Bool) : List Op → Toggler × Toggler → Nat
  | [], _ => 0
  | o :: l, s => (if o = .isJustReleased i ∧ (step s o).1 = some true then 1 else 0) + released i l (step s o).2

end Toggler.Spec

namespace TogglerCounter.Spec

/-- How many samples there are among the calls. -/
def count : List Op → Nat
  | [] => 0
  | .sample _ :: l => count l + 1
  | _ :: l => count l

/-- The state the samples give: that of the last one, low if there is none. -/
def level : List Op → Bool → Bool
  | [], b => b
  | .sample b :: l, _ => level l b
  | _ :: l, b => level l b

/-- Calls that leave the state as `b` and do not reset the count. -/
def Steady (b : Bool) (l : List Op) : Prop := ∀ o ∈ l, o ≠ .resetCount ∧ o ≠ .sample !b

end TogglerCounter.Spec

namespace Schmitt.Spec

/-- Rising (true) and falling (false) events in the order in which they are reported. -/
def events : List (Bool × Bool × Bool) → List Bool
  | [] => []
  | (r, f, _) :: l => (if r then [true] else []) ++ (if f then [false] else []) ++ events l

/-- `true, false, true, false, ...` -/
def Alternates (l : List Bool) : Prop := ∀ (i : Nat) (b : Bool), l[i]? = some b → b = decide (i % 2 = 0)

end Schmitt.Spec
