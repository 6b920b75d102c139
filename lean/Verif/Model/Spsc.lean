import Verif.Basic
/-!
# Model of `LockFreeFifoSpsc` and `LockFreeFifoSpscDyn` under sequentially consistent interleaving

Models /repo/util/lockfree_fifo_spsc.hh and /repo/util/lockfree_fifo_spsc_dyn.hh.

Two threads, the producer and the consumer, each run one member function at a time.  Every step of a thread
performs exactly one access to shared memory (an atomic load, an atomic store, a read or a write of a slot of
`buf_`); the other thread may run any number of steps in between.  The step that performs the last access of a
call also returns from it (nothing shared happens between that access and the return).

Simplifications: memory is sequentially consistent here (the weak-memory side is `Verif/Model/SpscWeak.lean`);
`std::atomic_signal_fence` has no effect in this model; copying a `T` in or out of a slot is one step.
-/

namespace Spsc

/-- What distinguishes the two headers: the capacity and how a counter is turned into a slot index.
`w` is the width of `size_t` (lockfree_fifo_spsc.hh:12-15, lockfree_fifo_spsc_dyn.hh). -/
structure Cfg (w : Nat) where
  /-- `max_size_` -/
  cap : Nat
  /-- index of the slot for a counter value -/
  idx : BitVec w → Nat

/-- `LockFreeFifoSpsc<T, 2^k>`: lockfree_fifo_spsc.hh:11-15 (`SIZE_MASK = max_size_ - 1`, index
`counter & SIZE_MASK` in lines 39, 73, 87). -/
def fixedCfg (w k : Nat) : Cfg w where
  cap := 2 ^ k
  idx := fun c => (c &&& (BitVec.ofNat w (2 ^ k) - 1#w)).toNat

/-- `LockFreeFifoSpscDyn<T>` of capacity `n`: lockfree_fifo_spsc_dyn.hh:16-20 (index `counter % max_size_` in
lines 59, 93, 107 of that file). -/
def dynCfg (w n : Nat) : Cfg w where
  cap := n
  idx := fun c => c.toNat % n

/-- Member functions the producer may call.  `reset` "can be done by consumer or producer"
(lockfree_fifo_spsc.hh:129-132). -/
inductive POp (T : Type) where
  | put (item : T)
  | numFree
  | full
  | reset
  deriving DecidableEq, Repr

/-- Member functions the consumer may call (lockfree_fifo_spsc.hh:66-132). -/
inductive COp where
  | get
  | getMove
  | getOrDefault
  | removeFirst
  | numFilled
  | empty
  | reset
  deriving DecidableEq, Repr

/-- Where the producer stands inside a call, with the values it holds in local variables (lockfree_fifo_spsc.hh:33-61, 130-132). -/
inductive PPc (w : Nat) (T : Type) where
  | idle
  /-- about to load `head_` in `put` (line 34) -/
  | put0 (item : T)
  /-- about to load `tail_` and compare (line 36) -/
  | put1 (item : T) (h : BitVec w)
  /-- about to write the slot (line 39) -/
  | put2 (item : T) (h : BitVec w)
  /-- about to store `head_` (lines 40-42) -/
  | put3 (item : T) (h : BitVec w)
  /-- `num_free` / `full` (lines 47-49, 59-61): nothing loaded yet -/
  | free0 (isFull : Bool)
  /-- `head_` loaded, `tail_` still to be loaded (the order of the two loads is unspecified in C++) -/
  | freeH (isFull : Bool) (h : BitVec w)
  /-- `tail_` loaded, `head_` still to be loaded -/
  | freeT (isFull : Bool) (t : BitVec w)
  /-- `reset` (line 131): about to load `head_` -/
  | reset0
  /-- `reset` (line 131): about to store `tail_` -/
  | reset1 (h : BitVec w)
  deriving DecidableEq, Repr

/-- Which flavour of "take an item" is running (lockfree_fifo_spsc.hh:66-96). -/
inductive GetKind where
  | get | move | orDefault
  deriving DecidableEq, Repr

/-- Where the consumer stands inside a call (lockfree_fifo_spsc.hh:66-132). -/
inductive CPc (w : Nat) (T : Type) where
  | idle
  /-- about to load `tail_` (lines 67, 81) -/
  | get0 (kind : GetKind)
  /-- about to load `head_` and compare (lines 69, 83) -/
  | get1 (kind : GetKind) (t : BitVec w)
  /-- about to read the slot (lines 73, 87) -/
  | get2 (kind : GetKind) (t : BitVec w)
  /-- about to store `tail_` (lines 74-76, 88-90) -/
  | get3 (kind : GetKind) (t : BitVec w) (item : T)
  /-- `remove_first` (lines 98-103) -/
  | rem0
  | rem1 (t : BitVec w)
  | rem2 (t : BitVec w)
  /-- `num_filled` / `empty` (lines 106-112) -/
  | fill0 (isEmpty : Bool)
  | fillH (isEmpty : Bool) (h : BitVec w)
  | fillT (isEmpty : Bool) (t : BitVec w)
  | reset0
  | reset1 (h : BitVec w)
  deriving DecidableEq, Repr

/-- What an outside observer sees: calls starting and returning (the results of lockfree_fifo_spsc.hh:33-132). -/
inductive Ev (T : Type) where
  /-- `put(item)` returned `ok` -/
  | putRet (item : T) (ok : Bool)
  | numFreeCall
  /-- `num_free()` returned `n` -/
  | numFreeRet (n : Nat)
  /-- `full()` returned `b` -/
  | fullRet (b : Bool)
  /-- `get()` returned the item or `nullopt`; `get_move(t)` returned `true` with `t` set, or `false` -/
  | getRet (r : Option T)
  /-- `get_or_default()` returned; `took` says whether an item was removed -/
  | getOrDefaultRet (took : Bool) (v : T)
  /-- `remove_first()` returned; `took` says whether it removed something -/
  | removeRet (took : Bool)
  | numFilledCall
  /-- `num_filled()` returned `n` -/
  | numFilledRet (n : Nat)
  /-- `empty()` returned `b` -/
  | emptyRet (b : Bool)
  | resetCall
  /-- `reset()` returned, having dropped `n` items -/
  | resetRet (n : Nat)
  deriving DecidableEq, Repr

/-- Shared memory (lockfree_fifo_spsc.hh:140-142), the two program counters and an undefined-behaviour flag. -/
structure St (w : Nat) (T : Type) where
  head : BitVec w
  tail : BitVec w
  buf : List T
  ppc : PPc w T
  cpc : CPc w T
  ub : Bool
  deriving DecidableEq, Repr

/-- Constructor with an initial offset (lockfree_fifo_spsc.hh:26-28; lockfree_fifo_spsc_dyn.hh:26-31); offset 0
is the default constructor (line 17; dyn 16-21).  Slots are value-initialised. -/
def init (w : Nat) (cap : Nat) (dflt : T) (offset : Nat) : St w T where
  head := BitVec.ofNat w offset
  tail := 0#w
  buf := List.replicate cap dflt
  ppc := .idle
  cpc := .idle
  ub := false

/-- A scheduler decision: a thread starts a call, or runs one step of the call it is in.  The Boolean chooses
the order of the two loads where C++ leaves it unspecified (lockfree_fifo_spsc.hh:33-132). -/
inductive Act (T : Type) where
  | pCall (op : POp T)
  | pStep (headFirst : Bool)
  | cCall (op : COp)
  | cStep (headFirst : Bool)
  deriving DecidableEq, Repr

/-- `num_free` returns `max_size_ - (head - tail)` in `size_t` arithmetic (line 48) (lockfree_fifo_spsc.hh:47-49). -/
def numFreeVal (cfg : Cfg w) (h t : BitVec w) : Nat := (BitVec.ofNat w cfg.cap - (h - t)).toNat

/-- Result event of `num_free()` resp. `full()` (`num_free() == 0`, line 60) (lockfree_fifo_spsc.hh:47-61). -/
def freeEv (isFull : Bool) (n : Nat) : Ev T := if isFull then .fullRet (n == 0) else .numFreeRet n

/-- `num_filled` returns `head - tail` in `size_t` arithmetic (line 107) (lockfree_fifo_spsc.hh:106-108). -/
def numFilledVal (h t : BitVec w) : Nat := (h - t).toNat

/-- Result event of `num_filled()` resp. `empty()` (`num_filled() == 0`, line 111) (lockfree_fifo_spsc.hh:106-112). -/
def fillEv (isEmpty : Bool) (n : Nat) : Ev T := if isEmpty then .emptyRet (n == 0) else .numFilledRet n

/-- One step of the producer's current call (lockfree_fifo_spsc.hh:33-61, 130-132). -/
def stepP (cfg : Cfg w) (hf : Bool) (s : St w T) : St w T × List (Ev T) :=
  match s.ppc with
  | .idle => (s, [])
  | .put0 x => ({ s with ppc := .put1 x s.head }, [])
  | .put1 x h =>
    if h - s.tail = BitVec.ofNat w cfg.cap then ({ s with ppc := .idle }, [.putRet x false])
    else ({ s with ppc := .put2 x h }, [])
  | .put2 x h =>
    if cfg.idx h < s.buf.length then ({ s with buf := s.buf.set (cfg.idx h) x, ppc := .put3 x h }, [])
    else ({ s with ub := true }, [])
  | .put3 x h => ({ s with head := h + 1#w, ppc := .idle }, [.putRet x true])
  | .free0 f => if hf then ({ s with ppc := .freeH f s.head }, []) else ({ s with ppc := .freeT f s.tail }, [])
  | .freeH f h => ({ s with ppc := .idle }, [freeEv f (numFreeVal cfg h s.tail)])
  | .freeT f t => ({ s with ppc := .idle }, [freeEv f (numFreeVal cfg s.head t)])
  | .reset0 => ({ s with ppc := .reset1 s.head }, [])
  | .reset1 h => ({ s with tail := h, ppc := .idle }, [.resetRet (h - s.tail).toNat])

/-- One step of the consumer's current call.  `dflt` is `T{}`; `mv x` is what `std::move` leaves in a slot that
held `x` (line 87) (lockfree_fifo_spsc.hh:66-112, 130-132). -/
def stepC (cfg : Cfg w) (dflt : T) (mv : T → T) (hf : Bool) (s : St w T) : St w T × List (Ev T) :=
  match s.cpc with
  | .idle => (s, [])
  | .get0 k => ({ s with cpc := .get1 k s.tail }, [])
  | .get1 k t =>
    if t = s.head then
      ({ s with cpc := .idle }, [if k = .orDefault then .getOrDefaultRet false dflt else .getRet none])
    else ({ s with cpc := .get2 k t }, [])
  | .get2 k t =>
    match s.buf[cfg.idx t]? with
    | some x =>
      ({ s with buf := if k = .move then s.buf.set (cfg.idx t) (mv x) else s.buf, cpc := .get3 k t x }, [])
    | none => ({ s with ub := true }, [])
  | .get3 k t x =>
    ({ s with tail := t + 1#w, cpc := .idle },
      [if k = .orDefault then .getOrDefaultRet true x else .getRet (some x)])
  | .rem0 => ({ s with cpc := .rem1 s.tail }, [])
  | .rem1 t =>
    if t ≠ s.head then ({ s with cpc := .rem2 t }, []) else ({ s with cpc := .idle }, [.removeRet false])
  | .rem2 t => ({ s with tail := t + 1#w, cpc := .idle }, [.removeRet true])
  | .fill0 f => if hf then ({ s with cpc := .fillH f s.head }, []) else ({ s with cpc := .fillT f s.tail }, [])
  | .fillH f h => ({ s with cpc := .idle }, [fillEv f (numFilledVal h s.tail)])
  | .fillT f t => ({ s with cpc := .idle }, [fillEv f (numFilledVal s.head t)])
  | .reset0 => ({ s with cpc := .reset1 s.head }, [])
  | .reset1 h => ({ s with tail := h, cpc := .idle }, [.resetRet (h - s.tail).toNat])

/-- The producer starts a call (only when it is not inside one) (lockfree_fifo_spsc.hh:33-61, 130-132). -/
def callP (s : St w T) (op : POp T) : St w T × List (Ev T) :=
  match s.ppc with
  | .idle =>
    match op with
    | .put x => ({ s with ppc := .put0 x }, [])
    | .numFree => ({ s with ppc := .free0 false }, [.numFreeCall])
    | .full => ({ s with ppc := .free0 true }, [.numFreeCall])
    | .reset => ({ s with ppc := .reset0 }, [.resetCall])
  | _ => (s, [])

/-- The consumer starts a call (only when it is not inside one) (lockfree_fifo_spsc.hh:66-112, 130-132). -/
def callC (s : St w T) (op : COp) : St w T × List (Ev T) :=
  match s.cpc with
  | .idle =>
    match op with
    | .get => ({ s with cpc := .get0 .get }, [])
    | .getMove => ({ s with cpc := .get0 .move }, [])
    | .getOrDefault => ({ s with cpc := .get0 .orDefault }, [])
    | .removeFirst => ({ s with cpc := .rem0 }, [])
    | .numFilled => ({ s with cpc := .fill0 false }, [.numFilledCall])
    | .empty => ({ s with cpc := .fill0 true }, [.numFilledCall])
    | .reset => ({ s with cpc := .reset0 }, [.resetCall])
  | _ => (s, [])

/-- One scheduler decision (lockfree_fifo_spsc.hh:33-132). -/
def step (cfg : Cfg w) (dflt : T) (mv : T → T) (s : St w T) : Act T → St w T × List (Ev T)
  | .pCall op => callP s op
  | .pStep hf => stepP cfg hf s
  | .cCall op => callC s op
  | .cStep hf => stepC cfg dflt mv hf s

/-- A whole schedule: the final state and everything observed, oldest first (lockfree_fifo_spsc.hh:33-132). -/
def run (cfg : Cfg w) (dflt : T) (mv : T → T) : St w T → List (Act T) → St w T × List (Ev T)
  | s, [] => (s, [])
  | s, a :: as =>
    let r := step cfg dflt mv s a
    let r' := run cfg dflt mv r.1 as
    (r'.1, r.2 ++ r'.2)

end Spsc

namespace Spsc

/-! ### Repositioning and resizing (for use while no other call is in progress) -/

/-- `set_read_offset(offset)`: lockfree_fifo_spsc.hh:119-123 (same text in the dyn header, lines 139-143). -/
def setReadOffset (s : St w T) (offset : BitVec w) : St w T :=
  if offset ≤ s.head then { s with tail := s.head - offset } else s

/-- `set_read_pos(pos)`: lockfree_fifo_spsc.hh:114-116. -/
def setReadPos (s : St w T) (pos : BitVec w) : St w T := { s with tail := pos }

/-- `set_write_pos(pos)`: lockfree_fifo_spsc.hh:125-127. -/
def setWritePos (s : St w T) (pos : BitVec w) : St w T := { s with head := pos }

/-- `LockFreeFifoSpscDyn::resize(new_max_size)`: lockfree_fifo_spsc_dyn.hh:35-48.  The state carries the vector;
the capacity is in the configuration, so the new configuration is returned as well. -/
def resize (dflt : T) (n : Nat) (s : St w T) (newN : Nat) : Nat × St w T :=
  if newN ≠ n then
    let s1 := { s with tail := s.head }                                      -- reset()
    let b := if newN < n then [] else s1.buf                                 -- vector().swap(buf_)
    (newN, { s1 with buf := b ++ List.replicate (newN - b.length) dflt })    -- buf_.resize(new_max_size)
  else (n, s)

/-- Constructor from a span: lockfree_fifo_spsc.hh:19-21.  `memcpy(buf_.data(), src.data(), max_size_)` copies
`max_size_` *bytes*; every element is `sz` bytes long.  The result is the byte image of `buf_` (initially the
zero bytes of the value-initialised array). -/
def spanCtorBytes (cap sz : Nat) (src : List (BitVec 8)) : List (BitVec 8) :=
  src.take cap ++ List.replicate (cap * sz - cap) 0#8

end Spsc
