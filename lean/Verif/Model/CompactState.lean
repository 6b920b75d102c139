import Verif.Model.CompactBinary
/-!
# Describing callables with a state (util/compact_binary_serializer.hh)

The callables given to `measure`, `serialize`, `stream` and `object` are arbitrary code: what they call can depend on variables that they change. `CompactBinary.Desc` is the case of callables that always make the same calls; here a callable is a tree of calls whose arguments, and branches, depend on a state `σ`.
-/
namespace CompactState
open CompactBinary

/-- A callable: a `field` or `raw` call with the bytes that the state gives, an `object` call with the sub-callable, or a choice (the calls of compact_binary_serializer.hh:81-103; `field` is the case of a value given by its bytes). -/
inductive Sub (σ : Type) where
  | done
  | raw (g : σ → σ × List Byte × List Byte) (rest : Sub σ)
  | object (g : σ → σ × List Byte) (sub rest : Sub σ)
  | branch (c : σ → Bool) (a b : Sub σ)

variable {σ : Type}

/-- The callable run on a `Measurer`: compact_binary_serializer.hh:33-52. -/
def measureLoop (f : Fmt) : Sub σ → σ → Nat → σ × Nat
  | .done, s, count => (s, count)
  | .raw g rest, s, count => measureLoop f rest (g s).1 (count + (f.K + f.S + (g s).2.2.length))
  | .object g sub rest, s, count =>
    let (s1, m) := measureLoop f sub (g s).1 0
    measureLoop f rest s1 (count + (f.K + f.S + m))
  | .branch c a b, s, count => if c s then measureLoop f a s count else measureLoop f b s count

/-- `measure`: compact_binary_serializer.hh:138-143: the state afterwards and the size. -/
def measure (f : Fmt) (d : Sub σ) (s : σ) : σ × Nat := measureLoop f d s 0

/-- The callable run on a writer: compact_binary_serializer.hh:81-103: a sub-callable is run on a `Measurer` first and then on the writer. -/
def describe {ω : Type} (f : Fmt) (emit : ω → List Byte → R ω) : Sub σ → σ → ω → R (σ × ω)
  | .done, s, w => .ok (s, w)
  | .raw g rest, s, w => do
    let k ← keyBytes f (g s).2.1
    let w ← emit w k
    let w ← emit w (leBytes f.S (g s).2.2.length)
    let w ← emit w (g s).2.2
    describe f emit rest (g s).1 w
  | .object g sub rest, s, w => do
    let (s1, m) := measure f sub (g s).1
    let k ← keyBytes f (g s).2
    let w ← emit w k
    let w ← emit w (leBytes f.S m)
    let (s2, w) ← describe f emit sub s1 w
    describe f emit rest s2 w
  | .branch c a b, s, w => if c s then describe f emit a s w else describe f emit b s w

/-- `serialize`: compact_binary_serializer.hh:146-151: the state and the buffer afterwards, and the returned size. -/
def serialize (f : Fmt) (output : List Byte) (d : Sub σ) (s : σ) : R (σ × Span) := describe f Span.emit d s ⟨output, 0⟩

/-- A callable that always makes the same calls, those of a `Desc` (compact_binary_serializer.hh:81-103). -/
def ofDesc : Desc → Sub σ
  | .done => .done
  | .field k v rest => .raw (fun s => (s, k, v)) (ofDesc rest)
  | .raw k d rest => .raw (fun s => (s, k, d)) (ofDesc rest)
  | .object k sub rest => .object (fun s => (s, k)) (ofDesc sub) (ofDesc rest)

end CompactState
