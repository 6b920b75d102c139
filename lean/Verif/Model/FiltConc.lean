import Verif.Model.Params
import Mathlib.Logic.Function.Basic
/-!
# FilteredInterpArray with readings arriving during a call

util/filtered_interp_array.hh. The producer (an interrupt, a DMA controller or another thread) writes readings, one channel at a time, where `read_fn` finds them, and calls mark_new_data_ready(); the consumer
calls add_new_readings(), whose steps are interleaved with the producer's in any way. The flag is a `std::atomic<bool>` used with the default, sequentially consistent, order; each access to it
and each call of `read_fn` is one step. (That the readings themselves can be read while they are written is up to `read_fn`.)
-/
namespace FiltConc
variable {N : Nat} {φ : Type}

/-- Where the consumer is in `add_new_readings` (filtered_interp_array.hh:27-39): outside; after the load of the flag in line 28, which was set; before the `i`-th turn of the loop. -/
inductive Pc where
  | idle
  | loaded
  | reading (i : Nat)
  deriving DecidableEq

/-- The array (filtered_interp_array.hh:66-71), what `read_fn` reads, and the consumer's place. -/
structure Cfg (N : Nat) (φ : Type) where
  arr : FilteredInterp N φ
  raw : Fin N → ℚ
  pc : Pc

/-- Steps: the producer writes channel `i` or marks; the consumer calls `add_new_readings`, goes one step on in it, or, outside it, calls `get_interp_values`
(filtered_interp_array.hh:20-56). -/
inductive Act (N : Nat) where
  | write (i : Fin N) (v : ℚ)
  | mark
  | call
  | cont
  | get

/-- What happens: a reading is written, or marked; the filter of channel `i` is given a reading; a call of `add_new_readings` that found the flag set returns (filtered_interp_array.hh:20-39). -/
inductive Event (N : Nat) where
  | wrote (i : Fin N) (v : ℚ)
  | marked
  | got (i : Fin N) (v : ℚ)
  | ended

/-- One turn of the loop: filtered_interp_array.hh:34-36. -/
def turn (addVal : φ → ℚ → φ × ℚ) (a : FilteredInterp N φ) (i : Fin N) (v : ℚ) : FilteredInterp N φ :=
  { a with interps := Function.update a.interps i ((a.interps i).setNew (addVal (a.filters i) v).2 a.num), filters := Function.update a.filters i (addVal (a.filters i) v).1 }

/-- One step: filtered_interp_array.hh:20-56; `none` if it cannot be made. -/
def step (addVal : φ → ℚ → φ × ℚ) (c : Cfg N φ) : Act N → Option (Cfg N φ × List (Event N))
  | .write i v => some ({ c with raw := Function.update c.raw i v }, [.wrote i v])
  | .mark => some ({ c with arr := c.arr.mark }, [.marked])
  | .call => if c.pc = .idle then some (if c.arr.ready then { c with pc := .loaded } else c, []) else none
  | .cont =>
    match c.pc with
    | .idle => none
    | .loaded => some ({ c with arr := { c.arr with ready := false, num := if c.arr.count > 0 then c.arr.count else c.arr.num }, pc := .reading 0 }, [])
    | .reading i =>
      if h : i < N then some ({ c with arr := turn addVal c.arr ⟨i, h⟩ (c.raw ⟨i, h⟩), pc := .reading (i + 1) }, [.got ⟨i, h⟩ (c.raw ⟨i, h⟩)])
      else some ({ c with arr := { c.arr with count := 0 }, pc := .idle }, [.ended])
  | .get => if c.pc = .idle then some ({ c with arr := c.arr.get }, []) else none

/-- A schedule (filtered_interp_array.hh:20-56). -/
def run (addVal : φ → ℚ → φ × ℚ) (c : Cfg N φ) : List (Act N) → Option (Cfg N φ × List (Event N))
  | [] => some (c, [])
  | a :: l =>
    match step addVal c a with
    | none => none
    | some (c, e) => match run addVal c l with
      | none => none
      | some (c, es) => some (c, e ++ es)

/-- Initial state: filtered_interp_array.hh:67-71. -/
def init (f : φ) (raw : Fin N → ℚ) : Cfg N φ := ⟨.init f, raw, .idle⟩

end FiltConc
