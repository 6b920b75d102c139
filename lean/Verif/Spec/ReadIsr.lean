import Verif.Model.ReadIsr
/-!
# What an interrupt should find in a container

`BeforeOrAfter view s tr`: in every state that an interrupt can find during the call that leads through the states `tr`
from `s`, it sees what was there before the call or what the call leaves.
-/
namespace ReadIsrSpec

variable {T : Type}

/-- Nothing in between can be seen. -/
def BeforeOrAfter {S A : Type} (view : S → A) (s : S) (tr : List S) : Prop :=
  ∀ t ∈ tr, view t = view s ∨ view t = view (ReadIsr.final s tr)

/-- `l` with its element number `p` twice, and cut to its length: the last element has fallen out. -/
def doubled (l : List T) (p : Nat) : List T := (l.take (p + 1) ++ l.drop p).take l.length

/-- `l` with `x` inserted as element number `i`. -/
def inserted (l : List T) (i : Nat) (x : T) : List T := l.take i ++ x :: l.drop i

/-- What is seen, one after the other, while `x` is inserted into `l` before element number `i`: the last, the one
before it, … down to number `i` doubled; the new one with the last missing; the new list. -/
def seenInserting (l : List T) (i : Nat) (x : T) : List (List T) :=
  (List.range (l.length - i)).map (fun k => doubled l (l.length - 1 - k)) ++
    [(inserted l i x).take l.length, inserted l i x]

/-- `l` of which elements `f … e - 1` have been overwritten by the `k` elements from number `e` on, the rest not yet
moved. -/
def partlyErased (l : List T) (f e k : Nat) : List T := l.take f ++ (l.drop e).take k ++ l.drop (f + k)

/-- What is seen, one after the other, while elements `f … e - 1` are erased from `l`. -/
def seenErasing (l : List T) (f e : Nat) : List (List T) :=
  (List.range (l.length - e)).map (fun k => partlyErased l f e (k + 1)) ++ [l.take f ++ l.drop e]

end ReadIsrSpec
