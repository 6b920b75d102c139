import Verif.Model.PoolWeak
/-!
# `is_used()` of a `ThreadSafePool` as a signal, under the C++ memory model (util/thread_safe_pool.hh)

`PoolWeak` (create, destroy and the accesses to the entries, `N` threads with vector clocks) extended by `is_used()`, an acquire load that may return an old value of the flag: each flag has a modification order, and a thread may read any
message not older than the last one it knows of (coherence). A client thread may give an entry it owns to another thread, by any means that synchronises the two (a FIFO, a mutex, starting the thread).

What a failed compare-exchange learns is left out (it can only restrict what `is_used()` may return later). `clear()` is not called.
-/
namespace PoolSignal
open PoolWeak (upd)

/-- The pool with the modification order of each flag, oldest first (thread_safe_pool.hh:14): value and published clock; and the oldest message of each flag each thread may still read. -/
structure Sys where
  pool : PoolWeak.St
  msgs : Nat → List (Bool × (Nat → Nat))
  seen : Nat → Nat → Nat

/-- One step of a thread (thread_safe_pool.hh:25-67). -/
inductive Act where
  /-- a step of `create`, `destroy` or an access to an entry: thread_safe_pool.hh:25-45, 61-67 -/
  | pool (a : PoolWeak.Act)
  /-- `is_used(idx)`, reading message `j` of the flag: thread_safe_pool.hh:48-52 -/
  | isUsed (idx j : Nat)
  /-- the client passes entry `idx` on to thread `u` (not part of thread_safe_pool.hh:10-68) -/
  | give (idx u : Nat)
  deriving DecidableEq, Repr

/-- What is observed (results of thread_safe_pool.hh:25-52). -/
inductive Event where
  | pool (e : PoolWeak.Event)
  | used (t idx : Nat) (b : Bool)
  | gave (t idx u : Nat)
  deriving DecidableEq, Repr

/-- Appends the message of a successful compare-exchange of flag `i` by thread `t` (thread_safe_pool.hh:28, 40). -/
def push (s : Sys) (t i : Nat) (b : Bool) : Sys :=
  { s with msgs := upd s.msgs i (s.msgs i ++ [(b, s.pool.fclk i)]), seen := upd s.seen t (upd (s.seen t) i (s.msgs i).length) }

/-- The message of a returned call (thread_safe_pool.hh:28, 40). -/
def record (s : Sys) : PoolWeak.Event → Sys
  | .created t i => push s t i true
  | .destroyed t i true => push s t i false
  | _ => s

/-- `none` if the thread cannot take this step now (thread_safe_pool.hh:25-67). -/
def step (N : Nat) (s : Sys) (t : Nat) : Act → Option (Sys × List Event)
  | .pool a =>
    match PoolWeak.step N s.pool t a with
    | none => none
    | some (p, es) => some (es.foldl record { s with pool := p }, es.map .pool)
  | .isUsed idx j =>
    if s.pool.loc t = .idle then
      if idx < s.pool.flags.length then
        if s.seen t idx ≤ j then
          match (s.msgs idx)[j]? with
          | none => none
          | some (b, c) =>
            some ({ s with pool := { s.pool with vc := upd s.pool.vc t (fun u => max (s.pool.vc t u) (c u)) }, seen := upd s.seen t (upd (s.seen t) idx j) }, [.used t idx b])
        else none
      else some (s, [.used t idx false])
    else none
  | .give idx u =>
    if s.pool.loc t = .idle ∧ s.pool.own idx = some t then
      match PoolWeak.step N s.pool u (.sync t) with
      | none => none
      | some (p, _) => some ({ s with pool := { p with own := upd p.own idx (some u) }, seen := upd s.seen u (fun i => max (s.seen u i) (s.seen t i)) }, [.gave t idx u])
    else none

/-- A schedule: which thread does what, in which order (thread_safe_pool.hh:25-67). -/
def run (N : Nat) (s : Sys) : List (Nat × Act) → Option (Sys × List Event)
  | [] => some (s, [])
  | (t, a) :: l =>
    match step N s t a with
    | none => none
    | some (s1, e1) =>
      match run N s1 l with
      | none => none
      | some (s2, e2) => some (s2, e1 ++ e2)

/-- A new pool: thread_safe_pool.hh:21. -/
def init (n : Nat) : Sys := ⟨PoolWeak.init n, fun _ => [(false, fun _ => 0)], fun _ _ => 0⟩

end PoolSignal
