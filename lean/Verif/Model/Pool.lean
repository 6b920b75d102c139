import Verif.Basic
/-!
# `Pool` (util/pool.hh) and `ThreadSafePool` (util/thread_safe_pool.hh)

A `T *` into the pool is modelled by the index of its entry (any other pointer by an index beyond the array).
-/
namespace Pool

/-- `Entry`: pool.hh:13-16. -/
structure Entry (T : Type) where
  data : T
  used : Bool
  deriving DecidableEq, Repr

variable {T : Type}

/-- The loop of `create`: pool.hh:24-30, from entry number `i` on; `fresh d` is what the entry's data becomes. -/
def createLoop (fresh : T → T) : List (Entry T) → Nat → List (Entry T) × Option Nat
  | [], _ => ([], none)
  | en :: l, i =>
    if !en.used then (⟨fresh en.data, true⟩ :: l, some i)
    else
      let r := createLoop fresh l (i + 1)
      (en :: r.1, r.2)

/-- `create`: pool.hh:23-33. -/
def create (dflt : T) (entries : List (Entry T)) : List (Entry T) × Option Nat := createLoop (fun _ => dflt) entries 0

/-- `create_for_overwrite`: pool.hh:37-46. -/
def createForOverwrite (entries : List (Entry T)) : List (Entry T) × Option Nat := createLoop id entries 0

/-- `destroy`: pool.hh:49-57; the loop from entry number `i` on. -/
def destroyLoop (item : Nat) : List (Entry T) → Nat → List (Entry T) × Bool
  | [], _ => ([], false)
  | en :: l, i =>
    if en.used && item == i then (⟨en.data, false⟩ :: l, true)
    else
      let r := destroyLoop item l (i + 1)
      (en :: r.1, r.2)

/-- `destroy`: pool.hh:49-57. -/
def destroy (entries : List (Entry T)) (item : Nat) : List (Entry T) × Bool := destroyLoop item entries 0

/-- A new pool: pool.hh:17. -/
def init (n : Nat) (dflt : T) : List (Entry T) := List.replicate n ⟨dflt, false⟩

end Pool

namespace TsPool

/-- Where a thread is: between calls, or inside `create()` about to try entry `i` (thread_safe_pool.hh:26-33). -/
inductive Local where
  | idle
  | creating (i : Nat)
  deriving DecidableEq, Repr

/-- `used_flags` (thread_safe_pool.hh:14) and the position of every thread. The data array takes no part in these calls.
The atomics are sequentially consistent read-modify-writes, so one step is one atomic operation. -/
structure Cfg where
  flags : List Bool
  loc : Nat → Local

/-- One step of a thread (the member functions of thread_safe_pool.hh:25-59). -/
inductive Act where
  /-- enters `create()`: thread_safe_pool.hh:25-26 -/
  | startCreate
  /-- one `compare_exchange_strong(false, true)`, and the `return i` if it succeeds: thread_safe_pool.hh:27-31 -/
  | cas
  /-- leaves the loop with `nullopt`: thread_safe_pool.hh:33 -/
  | endCreate
  /-- `destroy(idx)`: thread_safe_pool.hh:37-45 -/
  | destroy (idx : Nat)
  /-- `is_used(idx)`: thread_safe_pool.hh:48-52 -/
  | isUsed (idx : Nat)
  deriving DecidableEq, Repr

/-- What a thread observes (the results of thread_safe_pool.hh:25-59). -/
inductive Event where
  | created (t i : Nat)
  | failed (t : Nat)
  | destroyed (t i : Nat) (ok : Bool)
  | used (t i : Nat) (b : Bool)
  deriving DecidableEq, Repr

/-- Bookkeeping of the interleaving of calls to thread_safe_pool.hh:25-59: thread `t` is now at `l`. -/
def setLoc (loc : Nat → Local) (t : Nat) (l : Local) : Nat → Local := fun x => if x = t then l else loc x

/-- `none` if the thread cannot take this step now (thread_safe_pool.hh:25-59). -/
def step (c : Cfg) (t : Nat) : Act → Option (Cfg × List Event)
  | .startCreate => if c.loc t = .idle then some ({ c with loc := setLoc c.loc t (.creating 0) }, []) else none
  | .cas =>
    match c.loc t with
    | .creating i =>
      match c.flags[i]? with
      | some false => some (⟨c.flags.set i true, setLoc c.loc t .idle⟩, [.created t i])
      | some true => some ({ c with loc := setLoc c.loc t (.creating (i + 1)) }, [])
      | none => none
    | .idle => none
  | .endCreate =>
    match c.loc t with
    | .creating i => if i < c.flags.length then none else some ({ c with loc := setLoc c.loc t .idle }, [.failed t])
    | .idle => none
  | .destroy idx =>
    if c.loc t = .idle then
      if idx < c.flags.length then
        if c.flags[idx]? = some true then some ({ c with flags := c.flags.set idx false }, [.destroyed t idx true])
        else some (c, [.destroyed t idx false])
      else some (c, [.destroyed t idx false])
    else none
  | .isUsed idx =>
    if c.loc t = .idle then
      if idx ≥ c.flags.length then some (c, [.used t idx false])
      else some (c, [.used t idx (c.flags[idx]?.getD false)])
    else none

/-- A schedule: which thread does what, in which order (thread_safe_pool.hh:25-59). -/
def run (c : Cfg) : List (Nat × Act) → Option (Cfg × List Event)
  | [] => some (c, [])
  | (t, a) :: l =>
    match step c t a with
    | none => none
    | some (c1, e1) =>
      match run c1 l with
      | none => none
      | some (c2, e2) => some (c2, e1 ++ e2)

/-- A new pool: thread_safe_pool.hh:21 (C++20 value-initialises the atomics). -/
def init (n : Nat) : Cfg := ⟨List.replicate n false, fun _ => .idle⟩

/-- `clear`: thread_safe_pool.hh:54-59, the flags part, called while no other call is running. -/
def clear (c : Cfg) : Cfg := { c with flags := c.flags.map (fun _ => false) }

/-- `create()` run without interference from other threads: thread_safe_pool.hh:25-34. -/
def createAlone : List Bool → Nat → List Bool × Option Nat
  | [], _ => ([], none)
  | false :: l, i => (true :: l, some i)
  | true :: l, i => let r := createAlone l (i + 1); (true :: r.1, r.2)

end TsPool
