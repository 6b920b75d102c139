/-! # Specification of SeqMap under overwrite: key/value pairs in order of introduction, oldest first -/
namespace SeqMap.Spec
variable {K V : Type} [DecidableEq K]

/-- Is the key in the map? -/
def has (q : List (K × V)) (k : K) : Prop := ∃ v, (k, v) ∈ q
instance (q : List (K × V)) (k : K) : Decidable (has q k) :=
  decidable_of_iff (q.any (fun p => decide (p.1 = k)) = true) (by
    simp only [List.any_eq_true, decide_eq_true_eq, has]
    constructor
    · rintro ⟨⟨a, b⟩, h1, rfl⟩; exact ⟨b, h1⟩
    · rintro ⟨v, h⟩; exact ⟨(k, v), h, rfl⟩)

/-- Overwriting: an existing key gets the new value; a new key is appended, after dropping the oldest pair if there are
already `M`. -/
def overwrite (M : Nat) (q : List (K × V)) (k : K) (v : V) : List (K × V) :=
  if has q k then q.map (fun p => if p.1 = k then (k, v) else p)
  else (if q.length = M then q.tail else q) ++ [(k, v)]

def run (M : Nat) (q : List (K × V)) : List (K × V) → List (K × V)
  | [] => q
  | (k, v) :: h => run M (overwrite M q k v) h

/-- The value stored under `k`. -/
def lookup (q : List (K × V)) (k : K) : Option V := (q.find? (fun p => decide (p.1 = k))).map (·.2)

/-- How many overwrites of the history introduce a key that is not in the map at that moment. -/
def intros (M : Nat) (q : List (K × V)) : List (K × V) → Nat
  | [] => 0
  | (k, v) :: h => (if has q k then 0 else 1) + intros M (overwrite M q k v) h

/-- The value of the latest overwrite of `k` in the history, `v` if there is none. -/
def latest (k : K) (v : V) : List (K × V) → V
  | [] => v
  | (k', v') :: h => latest k (if k' = k then v' else v) h

end SeqMap.Spec
