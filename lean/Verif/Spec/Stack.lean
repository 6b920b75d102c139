import Verif.Model.CircStack
/-! # Specification: a stack (bottom first) of at most `M` elements that forgets its bottom element -/
namespace CircStack.Spec
variable {T : Type}

def step (M : Nat) (dflt : T) (q : List T) : Op T → List T × List (Out T)
  | .push x => (if q.length = M then q.drop 1 ++ [x] else q ++ [x], [])
  | .pop => (q.dropLast, [.opt q.getLast?])
  | .popOrZero => (q.dropLast, [.val (q.getLast?.getD dflt)])
  | .back => (q, [.opt q.getLast?])
  | .clear => ([], [])
  | .size => (q, [.num q.length])
  | .empty => (q, [.bool (decide (q.length = 0))])

def run (M : Nat) (dflt : T) (q : List T) : List (Op T) → List T × List (Out T)
  | [] => (q, [])
  | op :: ops =>
    let (q1, o) := step M dflt q op
    let (q2, os) := run M dflt q1 ops
    (q2, o ++ os)

end CircStack.Spec
