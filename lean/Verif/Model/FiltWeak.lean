import Mathlib.Data.Rat.Defs
import Mathlib.Logic.Function.Basic
/-!
# FilteredInterpArray's new-data flag under the C++ memory model (util/filtered_interp_array.hh)

The producer and the consumer run on different cores. All accesses to `_new_data_ready` are sequentially consistent, so each load reads the latest store; a store publishes what its thread has done before it, and a load learns
what the store it reads has published. The readings are, at best, relaxed atomics (plain variables would be a data race): each channel has a modification order, `hist`, and the consumer may read any value in it that is not older
than what it has read or learnt of (`view`, an index into `hist`). Filters and interpolation targets belong to the consumer alone and are left out here: Verif/Model/FiltConc.lean has them. No load buffering.

`rmw` says whether lines 28-29 read and clear the flag as `if (load) exchange(false)`, where the exchange learns what the store it replaces has published. **The code is `rmw = false`**, a plain store.
-/
namespace FiltWeak
variable {N : Nat}

/-- Where the consumer is in `add_new_readings` (filtered_interp_array.hh:27-39): outside; after the load of the flag in line 28, which was set; before the `i`-th turn of the loop. -/
inductive Pc where
  | idle
  | loaded
  | reading (i : Nat)
  deriving DecidableEq

/-- filtered_interp_array.hh:69, the readings behind `read_fn`, and the consumer. -/
structure St (N : Nat) where
  /-- `_new_data_ready` -/
  flag : Bool
  /-- published with the flag's value: for each channel an index into `hist` -/
  fview : Fin N → Nat
  /-- all values of each channel, oldest first -/
  hist : Fin N → List ℚ
  /-- the consumer does not read values before this index any more -/
  view : Fin N → Nat
  pc : Pc

/-- Steps: the producer writes channel `i` or calls `mark_new_data_ready`; the consumer calls `add_new_readings`, or goes one step on in it, `k` being the memory system's choice (filtered_interp_array.hh:20-39). -/
inductive Act (N : Nat) where
  | write (i : Fin N) (v : ℚ)
  | mark
  | call
  | cont (k : Nat)

/-- What happens: channel `i` is written; readings are announced; a call finds the flag set; the call clears it; the filter of channel `i` is given the `k`-th value of the channel, which is `v`; the call returns
(filtered_interp_array.hh:20-39). -/
inductive Event (N : Nat) where
  | wrote (i : Fin N) (v : ℚ)
  | marked
  | started
  | cleared
  | got (i : Fin N) (k : Nat) (v : ℚ)
  | ended

/-- One step: filtered_interp_array.hh:20-39; `none` if it cannot be made. -/
def step (rmw : Bool) (c : St N) : Act N → Option (St N × List (Event N))
  | .write i v => some ({ c with hist := Function.update c.hist i (c.hist i ++ [v]) }, [.wrote i v])
  | .mark => some ({ c with flag := true, fview := fun i => (c.hist i).length - 1 }, [.marked])
  | .call =>
    if c.pc = .idle then
      if c.flag then some ({ c with view := fun i => max (c.view i) (c.fview i), pc := .loaded }, [.started])
      else some ({ c with view := fun i => max (c.view i) (c.fview i) }, [])
    else none
  | .cont k =>
    match c.pc with
    | .idle => none
    | .loaded =>
      let w := fun i => if rmw then max (c.view i) (c.fview i) else c.view i
      some ({ c with flag := false, fview := w, view := w, pc := .reading 0 }, [.cleared])
    | .reading i =>
      if h : i < N then
        if c.view ⟨i, h⟩ ≤ k then
          match (c.hist ⟨i, h⟩)[k]? with
          | some v => some ({ c with view := Function.update c.view ⟨i, h⟩ k, pc := .reading (i + 1) }, [.got ⟨i, h⟩ k v])
          | none => none
        else none
      else some ({ c with pc := .idle }, [.ended])

/-- A schedule with the memory system's choices (filtered_interp_array.hh:20-39). -/
def run (rmw : Bool) (c : St N) : List (Act N) → Option (St N × List (Event N))
  | [] => some (c, [])
  | a :: l =>
    match step rmw c a with
    | none => none
    | some (c, e) => match run rmw c l with
      | none => none
      | some (c, es) => some (c, e ++ es)

/-- Initial state: filtered_interp_array.hh:69; each channel has one value. -/
def init (raw : Fin N → ℚ) : St N := ⟨false, fun _ => 0, fun i => [raw i], fun _ => 0, .idle⟩

end FiltWeak
