import Verif.Model.Spsc
/-!
# `LockFreeFifoSpsc` under the C++ release/acquire memory model

Models /repo/util/lockfree_fifo_spsc.hh:33-44 (`put`), 47-49 (`num_free`), 66-92 (`get`, `get_move`), 98-103 (`remove_first`),
106-108 (`num_filled`), 130-132 (`reset`) with their `std::memory_order` arguments; lockfree_fifo_spsc_dyn.hh:53-69, 86-130,
150-152 has the same accesses in the same orders, with another index (`Spsc.dynCfg`).

The usual operational form of C++ release/acquire semantics for two threads:

* every store to an atomic appends a message to that atomic's modification order;
* a load by the other thread may return any message not older than the last one that thread has seen (coherence);
* each thread has an epoch counter; a release store publishes the thread's epoch in the message and starts a new
  epoch; an acquire load that reads the message learns the epoch; a relaxed store publishes nothing (epoch 0), a
  relaxed load learns nothing;
* each slot of `buf_` remembers the epoch of the producer's last write and of the consumer's last access; an access
  that conflicts with an access of the other thread from an epoch the accessing thread has not learnt about is a
  data race (undefined behaviour).

Each atomic has one writer, so the writer always sees its own last store.  Simplifications: no load buffering
(out-of-thin-air) behaviour; calls are `put`, `num_free`, `get`, `get_move`, `remove_first`, `num_filled`, `reset` (consumer side) and the
client code `if (fifo.num_filled() > 0) x = fifo.get();`.

`acq` says whether the consumer loads `head_` with acquire (`true`) or relaxed order in `get`/`get_move`
(lines 69 and 83).  **The code is `acq = false`.**
-/
namespace SpscWeak
open Spsc (Cfg Ev)

/-- A message in the modification order of an atomic: its value and the publishing thread's epoch
(0 for a relaxed store) (the atomics of lockfree_fifo_spsc.hh:140-141). -/
structure Msg (w : Nat) where
  val : BitVec w
  clk : Nat
  deriving DecidableEq, Repr

/-- What the consumer may call: lockfree_fifo_spsc.hh:66-92, 98-108, 130-132. -/
inductive COp where
  | get
  | getMove
  /-- client code `if (fifo.num_filled() > 0) fifo.get()` -/
  | getIfFilled
  /-- `num_filled()`; also `empty()`, which makes the same accesses -/
  | numFilled
  | removeFirst
  | reset
  deriving DecidableEq, Repr

/-- Where the producer stands in `put` or `num_free`, with its local variables: lockfree_fifo_spsc.hh:33-49. -/
inductive PPc (w : Nat) (T : Type) where
  | idle
  | put0 (item : T)
  | put1 (item : T) (h : BitVec w)
  | put2 (item : T) (h : BitVec w)
  | put3 (item : T) (h : BitVec w)
  | free0
  | free1 (h : BitVec w)
  deriving DecidableEq, Repr

/-- Where the consumer stands in its call, with its local variables: lockfree_fifo_spsc.hh:66-92, 98-108, 130-132. -/
inductive CPc (w : Nat) (T : Type) where
  | idle
  | chk0 (only : Bool)
  | chk1 (only : Bool) (h : BitVec w)
  | get0 (mv checked : Bool)
  | get1 (mv checked : Bool) (t : BitVec w)
  | get2 (mv : Bool) (t : BitVec w)
  | get3 (t : BitVec w) (item : T)
  | rem0
  | rem1 (t : BitVec w)
  | rem2 (t : BitVec w)
  | reset0
  | reset1 (h : BitVec w)
  deriving DecidableEq, Repr

/-- The members (lockfree_fifo_spsc.hh:140-142) and the state of the two threads. -/
structure St (w : Nat) (T : Type) where
  /-- modification order of `head_`, oldest first -/
  hmsgs : List (Msg w)
  /-- modification order of `tail_`, oldest first -/
  tmsgs : List (Msg w)
  buf : List T
  /-- per slot: epoch of the producer's last write (0: none) -/
  wEp : List Nat
  /-- per slot: epoch of the consumer's last access (0: none) -/
  rEp : List Nat
  /-- producer: own epoch, consumer epoch it has learnt, oldest `tail_` message it may still read -/
  pclk : Nat
  pknow : Nat
  tv : Nat
  /-- consumer: own epoch, producer epoch it has learnt, oldest `head_` message it may still read -/
  cclk : Nat
  cknow : Nat
  hv : Nat
  ppc : PPc w T
  cpc : CPc w T
  race : Bool
  ub : Bool
  deriving DecidableEq, Repr

/-- lockfree_fifo_spsc.hh:140-142, default construction -/
def init (w cap : Nat) (dflt : T) : St w T where
  hmsgs := [⟨0#w, 0⟩]
  tmsgs := [⟨0#w, 0⟩]
  buf := List.replicate cap dflt
  wEp := List.replicate cap 0
  rEp := List.replicate cap 0
  pclk := 1
  pknow := 0
  tv := 0
  cclk := 1
  cknow := 0
  hv := 0
  ppc := .idle
  cpc := .idle
  race := false
  ub := false

/-- A scheduler decision; a step carries the index of the message an atomic load of the other thread's counter
returns (ignored by other steps; the load does not happen if that message may not be read) (lockfree_fifo_spsc.hh:33-132). -/
inductive Act (T : Type) where
  | put (item : T)
  /-- `num_free()`; also `full()`, which makes the same accesses -/
  | numFree
  | pStep (j : Nat)
  | cCall (op : COp)
  | cStep (j : Nat)
  deriving DecidableEq, Repr

/-- the value a thread sees in the atomic only it writes (lockfree_fifo_spsc.hh:34, 67, 81, 99). -/
def own (ms : List (Msg w)) : BitVec w := (ms.getLast?.map Msg.val).getD 0#w

/-- One step of `put` or `num_free` (lockfree_fifo_spsc.hh:33-49). -/
def stepP (cfg : Cfg w) (j : Nat) (s : St w T) : St w T × List (Ev T) :=
  match s.ppc with
  | .idle => (s, [])
  | .put0 x => ({ s with ppc := .put1 x (own s.hmsgs) }, [])                       -- line 34, relaxed, own variable
  | .put1 x h =>                                                                   -- line 36, acquire
    if s.tv ≤ j then
      match s.tmsgs[j]? with
      | none => (s, [])
      | some m =>
        let s' := { s with tv := j, pknow := max s.pknow m.clk }
        if h - m.val = BitVec.ofNat w cfg.cap then ({ s' with ppc := .idle }, [.putRet x false])
        else ({ s' with ppc := .put2 x h }, [])
    else (s, [])
  | .put2 x h =>                                                                   -- line 39, plain write
    match s.rEp[cfg.idx h]? with
    | none => ({ s with ub := true }, [])
    | some e =>
      ({ s with
          race := s.race || decide (s.pknow < e),
          buf := s.buf.set (cfg.idx h) x,
          wEp := s.wEp.set (cfg.idx h) s.pclk,
          ppc := .put3 x h }, [])
  | .put3 x h =>                                                                   -- lines 40-42, release
    ({ s with hmsgs := s.hmsgs ++ [⟨h + 1#w, s.pclk⟩], pclk := s.pclk + 1, ppc := .idle }, [.putRet x true])
  | .free0 => ({ s with ppc := .free1 (own s.hmsgs) }, [])                         -- line 48: head_ relaxed, own variable
  | .free1 h =>                                                                    -- line 48: tail_ acquire
    if s.tv ≤ j then
      match s.tmsgs[j]? with
      | none => (s, [])
      | some m =>
        ({ s with tv := j, pknow := max s.pknow m.clk, ppc := .idle }, [.numFreeRet (BitVec.ofNat w cfg.cap - (h - m.val)).toNat])
    else (s, [])

/-- The consumer loads `head_` message `j`, with acquire or relaxed order (lockfree_fifo_spsc.hh:69, 83, 101, 107, 131). -/
def loadHead (acq : Bool) (j : Nat) (s : St w T) : Option (BitVec w × St w T) :=
  if s.hv ≤ j then
    match s.hmsgs[j]? with
    | none => none
    | some m => some (m.val, { s with hv := j, cknow := if acq then max s.cknow m.clk else s.cknow })
  else none

/-- One step of the consumer's call (lockfree_fifo_spsc.hh:66-92, 98-108, 130-132). -/
def stepC (cfg : Cfg w) (acq : Bool) (mvf : T → T) (j : Nat) (s : St w T) : St w T × List (Ev T) :=
  match s.cpc with
  | .idle => (s, [])
  | .chk0 only =>                                                                  -- line 107: head_ acquire
    match loadHead true j s with
    | none => (s, [])
    | some (h, s') => ({ s' with cpc := .chk1 only h }, [])
  | .chk1 only h =>                                                                -- line 107: tail_ relaxed, own
    let n := (h - own s.tmsgs).toNat
    if only ∨ n = 0 then ({ s with cpc := .idle }, [.numFilledRet n]) else ({ s with cpc := .get0 false true }, [.numFilledRet n])
  | .get0 mv ck => ({ s with cpc := .get1 mv ck (own s.tmsgs) }, [])               -- lines 67, 81
  | .get1 mv _ t =>                                                                -- lines 69, 83
    match loadHead acq j s with
    | none => (s, [])
    | some (h, s') =>
      if t = h then ({ s' with cpc := .idle }, [.getRet none]) else ({ s' with cpc := .get2 mv t }, [])
  | .get2 mv t =>                                                                  -- lines 73, 87: plain access
    match s.buf[cfg.idx t]?, s.wEp[cfg.idx t]? with
    | some x, some e =>
      ({ s with
          race := s.race || decide (s.cknow < e),
          buf := if mv then s.buf.set (cfg.idx t) (mvf x) else s.buf,
          rEp := s.rEp.set (cfg.idx t) s.cclk,
          cpc := .get3 t x }, [])
    | _, _ => ({ s with ub := true }, [])
  | .get3 t x =>                                                                   -- lines 74-76, 88-90: release
    ({ s with tmsgs := s.tmsgs ++ [⟨t + 1#w, s.cclk⟩], cclk := s.cclk + 1, cpc := .idle }, [.getRet (some x)])
  | .rem0 => ({ s with cpc := .rem1 (own s.tmsgs) }, [])                           -- line 99
  | .rem1 t =>                                                                     -- line 101: head_ relaxed
    match loadHead false j s with
    | none => (s, [])
    | some (h, s') =>
      if t ≠ h then ({ s' with cpc := .rem2 t }, []) else ({ s' with cpc := .idle }, [.removeRet false])
  | .rem2 t =>                                                                     -- line 102: release
    ({ s with tmsgs := s.tmsgs ++ [⟨t + 1#w, s.cclk⟩], cclk := s.cclk + 1, cpc := .idle }, [.removeRet true])
  | .reset0 =>                                                                     -- line 131: head_ relaxed
    match loadHead false j s with
    | none => (s, [])
    | some (h, s') => ({ s' with cpc := .reset1 h }, [])
  | .reset1 h =>                                                                   -- line 131: tail_ relaxed store
    ({ s with tmsgs := s.tmsgs ++ [⟨h, 0⟩], cpc := .idle }, [.resetRet (h - own s.tmsgs).toNat])

/-- The producer starts `put`: lockfree_fifo_spsc.hh:33. -/
def callP (s : St w T) (x : T) : St w T × List (Ev T) :=
  match s.ppc with
  | .idle => ({ s with ppc := .put0 x }, [])
  | _ => (s, [])

/-- The producer starts `num_free`: lockfree_fifo_spsc.hh:47. -/
def callFree (s : St w T) : St w T × List (Ev T) :=
  match s.ppc with
  | .idle => ({ s with ppc := .free0 }, [])
  | _ => (s, [])

/-- The consumer starts a call: lockfree_fifo_spsc.hh:66-132. -/
def callC (s : St w T) (op : COp) : St w T × List (Ev T) :=
  match s.cpc with
  | .idle =>
    match op with
    | .get => ({ s with cpc := .get0 false false }, [])
    | .getMove => ({ s with cpc := .get0 true false }, [])
    | .getIfFilled => ({ s with cpc := .chk0 false }, [])
    | .numFilled => ({ s with cpc := .chk0 true }, [])
    | .removeFirst => ({ s with cpc := .rem0 }, [])
    | .reset => ({ s with cpc := .reset0 }, [])
  | _ => (s, [])

/-- One scheduler decision: lockfree_fifo_spsc.hh:33-132. -/
def step (cfg : Cfg w) (acq : Bool) (mvf : T → T) (s : St w T) : Act T → St w T × List (Ev T)
  | .put x => callP s x
  | .numFree => callFree s
  | .pStep j => stepP cfg j s
  | .cCall op => callC s op
  | .cStep j => stepC cfg acq mvf j s

/-- A whole schedule, with everything observed, oldest first: lockfree_fifo_spsc.hh:33-132. -/
def run (cfg : Cfg w) (acq : Bool) (mvf : T → T) : St w T → List (Act T) → St w T × List (Ev T)
  | s, [] => (s, [])
  | s, a :: as =>
    let r := step cfg acq mvf s a
    let r' := run cfg acq mvf r.1 as
    (r'.1, r.2 ++ r'.2)

end SpscWeak
