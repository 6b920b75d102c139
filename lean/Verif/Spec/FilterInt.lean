import Verif.Spec.Filter
/-! # Specification of the integer filters on signed samples (C173) -/

namespace FilterInt.Spec

/-- The last `n` samples, samples before the first one counting as 0. -/
def window (n : Nat) (xs : List Int) : List Int := (List.replicate n 0 ++ xs).drop xs.length

/-- The average, rounded down. -/
def floorMean (l : List Int) : Int := l.sum / l.length

end FilterInt.Spec
