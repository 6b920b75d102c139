import Verif.Model.FixedVector
/-! # Specification of FixedVector: a list of at most `M` elements -/
namespace FixedVector.Spec
variable {T : Type}

/-- One call on the list; `none` where the caller breaks the contract (subscript not below the size, range not inside the
vector). -/
def step (M : Nat) (dflt : T) (q : List T) : Op T → Option (List T × List (Out T))
  | .push x => some (if q.length < M then q ++ [x] else q, [.bool (decide (q.length < M))])
  | .pop => some (q.dropLast, [.val (q.getLast?.getD dflt)])
  | .back => some (q, [.val (q.getLast?.getD dflt)])
  | .get i => q[i]?.map fun x => (q, [.val x])
  | .insert i x => some (if q.length < M ∧ i ≤ q.length then q.take i ++ x :: q.drop i else q, [])
  | .erase i => some (q.take i ++ q.drop (i + 1), [])
  | .eraseRange f l => if f ≤ l ∧ l ≤ q.length then some (q.take f ++ q.drop l, []) else none
  | .resize n x => some (q.take n ++ List.replicate (min n M - q.length) x, [.bool (decide (n ≤ M))])
  | .clear => some ([], [])
  | .size => some (q, [.num q.length])
  | .available => some (q, [.num (M - q.length)])
  | .iterate => some (q, [.list q])

def run (M : Nat) (dflt : T) (q : List T) : List (Op T) → Option (List T × List (Out T))
  | [] => some (q, [])
  | op :: ops =>
    match step M dflt q op with
    | none => none
    | some (q1, o) =>
      match run M dflt q1 ops with
      | none => none
      | some (q2, os) => some (q2, o ++ os)

end FixedVector.Spec
