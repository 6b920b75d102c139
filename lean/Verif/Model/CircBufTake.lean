import Verif.Model.CircBuf
/-!
# A circular buffer emptied by an interrupt

util/circular_buffer_opt.hh (the same code in util/circular_buffer.hh). The main program calls put(); the interrupt calls get() or remove_first(), and may come between any two accesses to the members in that put(); the interrupt itself is not
interrupted. `head_` is only written by the main program, so reading it is not a step of its own. The members are neither atomic nor volatile: that the compiler makes these accesses in this order is an assumption.
-/
namespace CircBufTake
open CircBuf
variable {T : Type}

/-- A step: the main program calls `put(x)` (and stores `x` in its slot, line 17); it goes on in that call; the interrupt calls `get()` or `remove_first()` (circular_buffer_opt.hh:16-37, 47-52). -/
inductive Act (T : Type) where
  | put (x : T)
  | cont
  | get
  | remove
  deriving DecidableEq, Repr

/-- What happens: `put(x)` is called; `head_` moves on, so that `x` is in the buffer; before that, if the buffer was full, `tail_` moves on, which drops the oldest item; `head_` and `tail_` have been compared; `put` returns; `get()` answers; `remove_first()` is called (circular_buffer_opt.hh:16-37, 47-52). -/
inductive Event (T : Type) where
  | call (x : T)
  | dropped
  | added (x : T)
  | compared
  | done
  | answer (r : Option T)
  | removed
  deriving DecidableEq, Repr

/-- Where the main program is in `put(x)`: outside; after storing `x` (line 17); after reading `full_` as true (19); in `inc_tail` after reading `tail_` (125); before `inc_head` (22); after it; after comparing `head_` with `tail_` (23), with the
result (circular_buffer_opt.hh:16-24, 119-127). -/
inductive Pc (T : Type) where
  | idle
  | written (x : T)
  | dropping (x : T)
  | drop (x : T) (t : Nat)
  | advance (x : T)
  | compare
  | flag (b : Bool)
  deriving DecidableEq, Repr

/-- The buffer and the main program (circular_buffer_opt.hh:130-133). -/
structure St (T : Type) where
  b : CircBuf.St T
  pc : Pc T
  deriving DecidableEq, Repr

/-- One step; a call of `put` inside a call of `put`, and going on in no call, change nothing: circular_buffer_opt.hh:16-37, 47-52, 119-127. -/
def step (N : Nat) (s : St T) : Act T → R (St T × List (Event T))
  | .put x =>
    match s.pc with
    | .idle => do
      let l ← arrSet s.b.buf s.b.head x
      pure (⟨{ s.b with buf := l }, .written x⟩, [.call x])
    | _ => pure (s, [])
  | .cont =>
    match s.pc with
    | .idle => pure (s, [])
    | .written x => pure ({ s with pc := if s.b.full then .dropping x else .advance x }, [])
    | .dropping x => pure ({ s with pc := .drop x s.b.tail }, [])
    | .drop x t => pure (⟨{ s.b with tail := (t + 1) &&& (N - 1) }, .advance x⟩, [.dropped])
    | .advance x => pure (⟨incHead N s.b, .compare⟩, [.added x])
    | .compare => pure ({ s with pc := .flag (decide (s.b.head = s.b.tail)) }, [.compared])
    | .flag b => pure (⟨{ s.b with full := b }, .idle⟩, [.done])
  | .get => do
    let (b, r) ← getOpt N s.b
    pure ({ s with b := b }, [.answer r])
  | .remove => pure ({ s with b := removeFirst N s.b }, [.removed])

/-- A schedule (circular_buffer_opt.hh:16-52). -/
def run (N : Nat) (s : St T) : List (Act T) → R (St T × List (Event T))
  | [] => pure (s, [])
  | a :: l => do
    let (s, e) ← step N s a
    let (s, es) ← run N s l
    pure (s, e ++ es)

/-- Initial state: circular_buffer_opt.hh:14, 130-133. -/
def init (N : Nat) (dflt : T) : St T := ⟨CircBuf.init N dflt, .idle⟩

end CircBufTake
