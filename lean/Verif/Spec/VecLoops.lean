/-! # What loops over a vector should leave -/
namespace VecLoops.Spec
variable {T : Type}

/-- every element that does not satisfy `p`, and also the one right after each element removed -/
def skipping (p : T → Bool) : List T → List T
  | [] => []
  | [a] => if p a then [] else [a]
  | a :: b :: l => if p a then b :: skipping p l else a :: skipping p (b :: l)

/-- the values in front of which `x` does not belong, then `x`, then the others -/
def insertAt (lt : T → T → Bool) (x : T) : List T → List T
  | [] => [x]
  | y :: l => if lt x y then x :: y :: l else y :: insertAt lt x l

/-- sorted: no later element is less than an earlier one -/
def Sorted (lt : T → T → Bool) (l : List T) : Prop := l.Pairwise fun a b => lt b a = false

end VecLoops.Spec
