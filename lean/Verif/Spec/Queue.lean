/-! # Specification: a queue of bounded length that drops its oldest element -/
namespace Spec

/-- A call on a queue. -/
inductive QOp (T : Type) where
  | put (x : T)
  | get
  | removeFirst
  | reset

/-- Effect of one call on the list of stored elements, oldest first, and the element handed out. -/
def qstep (N : Nat) (q : List T) : QOp T → List T × List (Option T)
  | .put x => (if q.length = N then q.tail ++ [x] else q ++ [x], [])
  | .get => (q.tail, [q.head?])
  | .removeFirst => (q.tail, [])
  | .reset => ([], [])

def qrun (N : Nat) (q : List T) : List (QOp T) → List T × List (Option T)
  | [] => (q, [])
  | op :: ops =>
    let (q1, o) := qstep N q op
    let (q2, os) := qrun N q1 ops
    (q2, o ++ os)

end Spec
