import Verif.Basic
/-!
# `ThreadSafePool` and the data of its entries under the C++ memory model (util/thread_safe_pool.hh)

`N` threads. Every thread has a vector clock; a release publishes it with the flag, an acquire that reads the flag learns it. The compare-exchanges are sequentially consistent read-modify-writes, so they read the latest value of the
flag, acquire and release, and continue the release sequence. A failed compare-exchange and `is_used` acquire what the flag was published with; this is an action of its own (`look`), which may follow a failed compare-exchange or not, so
that the theorems do not depend on it. Reading an older value of the flag is left out (see PoolSignal for that). An access to
`data[i]` races with an access of another thread that does not happen before it, unless both only read.

`own` is what the clients know: who got index `i` from `create()` and has not destroyed it (nor has anybody cleared the pool). It does not influence the other components.
-/

namespace PoolWeak

/-- Where a thread stands: in `create` before the compare-exchange of flag `i` (thread_safe_pool.hh:26-32), or in `clear` before the write of `data[i]` or the store to flag `i` (thread_safe_pool.hh:55-58). -/
inductive Loc where
  | idle
  | creating (i : Nat)
  | clearing (i : Nat) (written : Bool)
  deriving DecidableEq, Repr

/-- The pool (thread_safe_pool.hh:13-14), the clocks, and the threads. -/
structure St where
  /-- thread_safe_pool.hh:14 -/
  flags : List Bool
  /-- the clock published with the last store to each flag -/
  fclk : Nat → Nat → Nat
  /-- the clock of each thread -/
  vc : Nat → Nat → Nat
  /-- for each entry and thread the epoch of the thread's last access (0: none) -/
  acc : Nat → Nat → Nat
  /-- the same for the last write -/
  wr : Nat → Nat → Nat
  loc : Nat → Loc
  own : Nat → Option Nat
  race : Bool

/-- One step of a thread (thread_safe_pool.hh:25-67). -/
inductive Act where
  /-- enters `create()`: thread_safe_pool.hh:25-26 -/
  | startCreate
  /-- one `compare_exchange_strong(false, true)`, and the `return i` if it succeeds: thread_safe_pool.hh:27-31 -/
  | cas
  /-- leaves the loop with `nullopt`: thread_safe_pool.hh:33 -/
  | endCreate
  /-- `destroy(idx)`: thread_safe_pool.hh:37-45 -/
  | destroy (idx : Nat)
  /-- the client reads `pool[idx]`: thread_safe_pool.hh:61-67 -/
  | read (idx : Nat)
  /-- the client writes `pool[idx]`: thread_safe_pool.hh:61-63 -/
  | write (idx : Nat)
  /-- enters `clear()`: thread_safe_pool.hh:54-55 -/
  | startClear
  /-- the next assignment of `clear()`, `data[i] = T{}` or the release store of `false` to flag `i`, or its end: thread_safe_pool.hh:55-59 -/
  | clearStep
  /-- `is_used(idx)`, or what a failed compare-exchange of flag `idx` learns: thread_safe_pool.hh:28, 40, 48-52 -/
  | look (idx : Nat)
  /-- the client makes everything thread `u` has done so far happen before what this thread does next (a mutex, a join, ...) -/
  | sync (u : Nat)
  deriving DecidableEq, Repr

/-- What a thread observes (the results of thread_safe_pool.hh:25-45). -/
inductive Event where
  | created (t i : Nat)
  | failed (t : Nat)
  | destroyed (t i : Nat) (ok : Bool)
  deriving DecidableEq, Repr

/-- Replaces one value of a function (bookkeeping for thread_safe_pool.hh:13-14). -/
def upd (f : Nat → α) (k : Nat) (v : α) : Nat → α := fun x => if x = k then v else f x

/-- A thread starts a new epoch after a release (thread_safe_pool.hh:28, 40, 57). -/
def tick (c : Nat → Nat) (t : Nat) : Nat → Nat := upd c t (c t + 1)

/-- Thread `t` accesses `data[i]`: thread_safe_pool.hh:56, 61-67. -/
def access (N : Nat) (s : St) (t i : Nat) (isWrite : Bool) : St :=
  { s with
    race := s.race || (List.range N).any (fun u => u ≠ t && decide (s.vc t u < (if isWrite then s.acc i u else s.wr i u))),
    acc := upd s.acc i (upd (s.acc i) t (s.vc t t)),
    wr := if isWrite then upd s.wr i (upd (s.wr i) t (s.vc t t)) else s.wr }

/-- A successful compare-exchange of flag `i` by thread `t`: acquire and release (thread_safe_pool.hh:28, 40). -/
def rmw (s : St) (t i : Nat) (v : Bool) : St :=
  let c := fun u => max (s.vc t u) (s.fclk i u)
  { s with flags := s.flags.set i v, fclk := upd s.fclk i c, vc := upd s.vc t (tick c t) }

/-- `none` if the thread cannot take this step now (thread_safe_pool.hh:25-67). -/
def step (N : Nat) (s : St) (t : Nat) : Act → Option (St × List Event)
  | .startCreate => if s.loc t = .idle then some ({ s with loc := upd s.loc t (.creating 0) }, []) else none
  | .cas =>
    match s.loc t with
    | .creating i =>
      match s.flags[i]? with
      | some false => some ({ rmw s t i true with loc := upd s.loc t .idle, own := upd s.own i (some t) }, [.created t i])
      | some true => some ({ s with loc := upd s.loc t (.creating (i + 1)) }, [])
      | none => none
    | _ => none
  | .endCreate =>
    match s.loc t with
    | .creating i => if i < s.flags.length then none else some ({ s with loc := upd s.loc t .idle }, [.failed t])
    | _ => none
  | .destroy idx =>
    if s.loc t = .idle then
      if idx < s.flags.length then
        if s.flags[idx]? = some true then some ({ rmw s t idx false with own := upd s.own idx none }, [.destroyed t idx true])
        else some (s, [.destroyed t idx false])
      else some (s, [.destroyed t idx false])
    else none
  | .read idx => if s.loc t = .idle ∧ idx < s.flags.length then some (access N s t idx false, []) else none
  | .write idx => if s.loc t = .idle ∧ idx < s.flags.length then some (access N s t idx true, []) else none
  | .startClear => if s.loc t = .idle then some ({ s with loc := upd s.loc t (.clearing 0 false) }, []) else none
  | .clearStep =>
    match s.loc t with
    | .clearing i w =>
      if i < s.flags.length then
        if w then
          some ({ s with flags := s.flags.set i false, fclk := upd s.fclk i (s.vc t), vc := upd s.vc t (tick (s.vc t) t), loc := upd s.loc t (.clearing (i + 1) false), own := upd s.own i none }, [])
        else some ({ access N s t i true with loc := upd s.loc t (.clearing i true) }, [])
      else some ({ s with loc := upd s.loc t .idle }, [])
    | _ => none
  | .look idx =>
    match s.loc t with
    | .clearing _ _ => none
    | _ => if idx < s.flags.length then some ({ s with vc := upd s.vc t (fun u => max (s.vc t u) (s.fclk idx u)) }, []) else some (s, [])
  | .sync u =>
    if s.loc t = .idle ∧ u ≠ t then
      some ({ s with vc := upd (upd s.vc t (fun x => max (s.vc t x) (s.vc u x))) u (tick (s.vc u) u) }, [])
    else none

/-- A schedule: which thread does what, in which order (thread_safe_pool.hh:25-67). -/
def run (N : Nat) (s : St) : List (Nat × Act) → Option (St × List Event)
  | [] => some (s, [])
  | (t, a) :: l =>
    match step N s t a with
    | none => none
    | some (s1, e1) =>
      match run N s1 l with
      | none => none
      | some (s2, e2) => some (s2, e1 ++ e2)

/-- A new pool of `n` entries: thread_safe_pool.hh:21 (C++20 value-initialises the atomics); its construction happens before everything. -/
def init (n : Nat) : St where
  flags := List.replicate n false
  fclk := fun _ _ => 0
  vc := fun t u => if u = t then 1 else 0
  acc := fun _ _ => 0
  wr := fun _ _ => 0
  loc := fun _ => .idle
  own := fun _ => none
  race := false

end PoolWeak
