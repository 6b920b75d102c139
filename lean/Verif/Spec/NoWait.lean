/-! # A call that does not wait for the interrupt -/
namespace NoWait
variable {σ α : Type}

/-- Some steps, one after another. -/
def steps (step : σ → α → Option σ) (s : σ) : List α → Option σ
  | [] => some s
  | a :: l => (step s a).bind fun s => steps step s l

/-- The call the main program is in goes on, one step at a time, with interrupts before each step, until it has returned or `bs` is used up. -/
def goOn (step : σ → α → Option σ) (cont : α) (busy : σ → Bool) (s : σ) : List (List α) → Option σ
  | [] => some s
  | b :: bs => if busy s then (steps step s b).bind fun s => (step s cont).bind fun s => goOn step cont busy s bs else some s

/-- An interrupt can come in every state, a call can begin in every state in which the main program is not in one, and a call has returned after at
most `k` steps of its own, whatever interrupts come between them. -/
structure Holds (step : σ → α → Option σ) (isr call : α → Prop) (cont : α) (busy : σ → Bool) (k : Nat) : Prop where
  isrs : ∀ s a, isr a → ∃ s', step s a = some s' ∧ busy s' = busy s
  begins : ∀ s a, call a → busy s = false → ∃ s', step s a = some s'
  ends : ∀ s (bs : List (List α)), (∀ b ∈ bs, ∀ a ∈ b, isr a) → k ≤ bs.length → ∃ s', goOn step cont busy s bs = some s' ∧ busy s' = false

end NoWait
