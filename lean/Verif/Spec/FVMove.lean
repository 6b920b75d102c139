import Verif.Model.FVMove
import Verif.Spec.FixedVector
/-!
# Specification: the objects a FixedVector holds

A pair of lists: the elements, and the objects that are still alive behind them (in storage order), together always `M`.  Uncovering calls
take objects from the second list into the first; removing calls put them back; assigning calls destroy the first object of the
second list (by overwriting it).
-/
namespace FixedVector.Spec
variable {T : Type}

/-- One call: elements `q`, objects behind them `t`; `mv x` is what moving leaves of `x`. -/
def objects (mv : T → T) (M : Nat) (q t : List T) : OpM T → List T × List T
  | .base (.push x) => if q.length < M then (q ++ [x], t.drop 1) else (q, t)
  | .base .pop => (q.dropLast, q.drop (q.length - 1) ++ t)
  | .base (.insert i x) => if q.length < M ∧ i ≤ q.length then (q.take i ++ x :: q.drop i, t.drop 1) else (q, t)
  | .base (.erase i) =>
    if i + 1 < q.length then (q.take i ++ q.drop (i + 1), (q.drop (q.length - 1)).map mv ++ t)
    else if i + 1 = q.length then (q.take i, q.drop i ++ t) else (q, t)
  | .base (.eraseRange f l) =>
    let n := q.length - (l - f)
    (q.take f ++ q.drop l, (q.take l).drop n ++ (q.drop (max l n)).map mv ++ t)
  | .base (.resize n x) =>
    (q.take n ++ List.replicate (min n M - q.length) x, q.drop n ++ t.drop (min n M - q.length))
  | .base .clear => ([], q ++ t)
  | .base .back | .base (.get _) | .base .size | .base .available | .base .iterate => (q, t)
  | .pushOver => (q ++ t.take 1, t.drop 1)
  | .resizeOver n => ((q ++ t).take n, (q ++ t).drop n)

/-- What the call returns; `none` where the caller breaks the contract. -/
def outM (M : Nat) (dflt : T) (q : List T) : OpM T → Option (List (Out T))
  | .base op => (step M dflt q op).map (·.2)
  | .pushOver => some [.num (if q.length < M then q.length else M)]
  | .resizeOver n => some [.bool (decide (n ≤ M))]

/-- A sequence of calls. -/
def runM (mv : T → T) (M : Nat) (dflt : T) (q t : List T) : List (OpM T) → Option ((List T × List T) × List (Out T))
  | [] => some ((q, t), [])
  | op :: ops =>
    match outM M dflt q op with
    | none => none
    | some o =>
      match runM mv M dflt (objects mv M q t op).1 (objects mv M q t op).2 ops with
      | none => none
      | some (r, os) => some (r, o ++ os)

end FixedVector.Spec
