import Verif.Model.PoolSignal
/-!
# A dispatcher and its workers

One thread `d` creates the entries and gives them to the workers; an owner accesses its entries, may give them on, and destroys them when it is done; the dispatcher looks with `is_used()` whether an entry is done, and then may access it.
-/
namespace PoolSignal.Spec

/-- Who owns entry `i` according to the events, oldest first. -/
def holder (i : Nat) : List Event → Option Nat → Option Nat
  | [], o => o
  | .pool (.created t j) :: l, o => holder i l (if j = i then some t else o)
  | .pool (.destroyed _ j true) :: l, o => holder i l (if j = i then none else o)
  | .gave _ j u :: l, o => holder i l (if j = i then some u else o)
  | _ :: l, o => holder i l o

/-- What thread `d` last learnt about entry `i` (whether it is in use) from its own calls, oldest first. -/
def view (d i : Nat) : List Event → Bool → Bool
  | [], v => v
  | .pool (.created t j) :: l, v => view d i l (if t = d ∧ j = i then true else v)
  | .pool (.destroyed t j true) :: l, v => view d i l (if t = d ∧ j = i then false else v)
  | .used t j b :: l, v => view d i l (if t = d ∧ j = i then b else v)
  | _ :: l, v => view d i l v

/-- What thread `t` may do after the events `es` if `d` is the dispatcher: only the dispatcher creates; a thread destroys and accesses what it owns; the dispatcher also accesses entries of which it last learnt that they are not in use;
nobody clears the pool (`is_used` is `isUsed` here, which may read old values, not `look`). -/
def Allowed (d : Nat) (es : List Event) (t : Nat) : Act → Prop
  | .pool (.read i) => holder i es none = some t ∨ (t = d ∧ view d i es false = false)
  | .pool (.write i) => holder i es none = some t ∨ (t = d ∧ view d i es false = false)
  | .pool (.destroy i) => holder i es none = some t
  | .pool .startCreate => t = d
  | .pool .cas => True
  | .pool .endCreate => True
  | .pool .startClear => False
  | .pool .clearStep => False
  | .pool (.sync _) => False
  | .pool (.look _) => False
  | .isUsed _ _ => True
  | .give i _ => holder i es none = some t

/-- Everything in the schedule is allowed; `es` is what has happened before. -/
def Rules (d N : Nat) : Sys → List Event → List (Nat × Act) → Prop
  | _, _, [] => True
  | s, es, (t, a) :: l => t < N ∧ Allowed d es t a ∧ ∀ s' e, step N s t a = some (s', e) → Rules d N s' (es ++ e) l

end PoolSignal.Spec
