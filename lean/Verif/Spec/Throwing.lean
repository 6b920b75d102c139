import Verif.Model.Throwing
/-! # Specification: what an exception may leave behind -/
namespace Throwing.Spec

/-- The strong guarantee: wherever an exception occurs, what can be seen of the object (`view`) is what it was before the call. -/
def Strong {σ α β : Type} (view : σ → β) (f : E σ α) : Prop := ∀ s n s', f s n = .threw s' → view s' = view s

/-- Without an exception the call does what `g` does, for some number `k` of element operations. -/
def Agrees {σ α : Type} (f : E σ α) (s : σ) (g : R (σ × α)) : Prop :=
  ∃ k, ∀ n, f s (k + n) = match g with
    | .ok (s', a) => .done a s' n
    | .ub => .ub

/-- what can be seen of a SeqMap: its keys and values in use, and their number -/
def seqView {K V : Type} (s : SeqMap.St K V) : List K × List V × Nat := (s.keys.take s.sz, s.vals.take s.sz, s.sz)

end Throwing.Spec
