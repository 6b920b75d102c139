import Verif.Props.Small
/-! # How often a resource is shared and how often a share of it is dropped, counted from the calls (C114, C131) -/

namespace Owners

/-- Does this call copy the resource `r` (a copy construction from, or an assignment of, a variable that holds it)? -/
def copies (r : Nat) (s : Owners) : Op → Nat
  | .copy _ y => if s.vars y = some (some r) then 1 else 0
  | .assign _ y => if s.vars y = some (some r) then 1 else 0
  | _ => 0

/-- Does this call overwrite a variable that holds the resource `r`? -/
def drops (r : Nat) (s : Owners) : Op → Nat
  | .assign x _ => if s.vars x = some (some r) then 1 else 0
  | _ => 0

/-- How often the resource `r` is copied in a history. -/
def copied (r : Nat) : Owners → List Op → Nat
  | _, [] => 0
  | s, o :: os => copies r s o + (match step s o with | .ok s' => copied r s' os | .ub => 0)

/-- How often a variable that holds the resource `r` is overwritten in a history. -/
def dropped (r : Nat) : Owners → List Op → Nat
  | _, [] => 0
  | s, o :: os => drops r s o + (match step s o with | .ok s' => dropped r s' os | .ub => 0)

end Owners
