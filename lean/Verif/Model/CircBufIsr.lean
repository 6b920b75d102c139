import Verif.Model.CircBuf
/-!
# A circular buffer filled by an interrupt

util/circular_buffer_opt.hh (the same code in util/circular_buffer.hh). The interrupt calls put(); the main program calls get(), and the interrupt may come between any two accesses to the members in that call; the interrupt itself is not
interrupted. The members are neither atomic nor volatile: that the compiler makes these accesses in this order is an assumption.
-/
namespace CircBufIsr
open CircBuf
variable {T : Type}

/-- A step: the interrupt calls `put(x)`; the main program calls `get()`; it goes on in that call (circular_buffer_opt.hh:16-37). -/
inductive Act (T : Type) where
  | put (x : T)
  | get
  | cont
  deriving DecidableEq, Repr

/-- What happens: an item is put; `get()` is called; it has read `head_`; it answers (circular_buffer_opt.hh:16-37). -/
inductive Event (T : Type) where
  | put (x : T)
  | call
  | look
  | answer (r : Option T)
  deriving DecidableEq, Repr

/-- Where the main program is in `get()`: outside; in `empty()` after reading `full_` as false; after reading `head_` too; after finding that the buffer is not empty (line 32); after reading `tail_` there; after reading the value;
after clearing `full_` (line 33); in `inc_tail` after reading `tail_` (line 125) (circular_buffer_opt.hh:26-37, 66-69, 124-127). -/
inductive Pc (T : Type) where
  | idle
  | half
  | cmp (h : Nat)
  | read
  | index (t : Nat)
  | got (v : T)
  | cleared (v : T)
  | inc (v : T) (t : Nat)
  deriving DecidableEq, Repr

/-- The buffer and the main program (circular_buffer_opt.hh:130-133). -/
structure St (T : Type) where
  b : CircBuf.St T
  pc : Pc T
  deriving DecidableEq, Repr

/-- One step; a call of `get()` inside a call of `get()`, and going on in no call, change nothing: circular_buffer_opt.hh:16-37, 66-69, 119-127. -/
def step (N : Nat) (s : St T) : Act T → R (St T × List (Event T))
  | .put x => do
    let b ← put N s.b x
    pure ({ s with b := b }, [.put x])
  | .get =>
    match s.pc with
    | .idle => pure ({ s with pc := if s.b.full then .read else .half }, [.call])
    | _ => pure (s, [])
  | .cont =>
    match s.pc with
    | .idle => pure (s, [])
    | .half => pure ({ s with pc := .cmp s.b.head }, [.look])
    | .cmp h => if h = s.b.tail then pure ({ s with pc := .idle }, [.answer none]) else pure ({ s with pc := .read }, [])
    | .read => pure ({ s with pc := .index s.b.tail }, [])
    | .index t => do
      let v ← arrGet s.b.buf t
      pure ({ s with pc := .got v }, [])
    | .got v => pure (⟨{ s.b with full := false }, .cleared v⟩, [])
    | .cleared v => pure ({ s with pc := .inc v s.b.tail }, [])
    | .inc v t => pure (⟨{ s.b with tail := (t + 1) &&& (N - 1) }, .idle⟩, [.answer (some v)])

/-- A schedule (circular_buffer_opt.hh:16-37). -/
def run (N : Nat) (s : St T) : List (Act T) → R (St T × List (Event T))
  | [] => pure (s, [])
  | a :: l => do
    let (s, e) ← step N s a
    let (s, es) ← run N s l
    pure (s, e ++ es)

/-- Initial state: circular_buffer_opt.hh:14, 130-133. -/
def init (N : Nat) (dflt : T) : St T := ⟨CircBuf.init N dflt, .idle⟩

end CircBufIsr
