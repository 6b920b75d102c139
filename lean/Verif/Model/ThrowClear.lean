import Verif.Model.Throwing
/-! # `ThreadSafePool::clear()` with elements whose construction or assignment may throw (util/thread_safe_pool.hh) -/
namespace Throwing.TsP

variable {T : Type}

/-- `data` and `used_flags`: thread_safe_pool.hh:13-14. -/
structure St (T : Type) where
  data : List T
  flags : List Bool
  deriving DecidableEq, Repr

/-- the body of the loop of `clear`: thread_safe_pool.hh:56-57. A `T{}` is made and assigned, then the flag is stored. -/
def clearOne (dflt : T) (i : Nat) : E (St T) Unit := do
  elem
  elem
  let s ← members
  let d ← access (arrSet s.data i dflt)
  update fun s => { s with data := d }
  let fl ← access (arrSet s.flags i false)
  update fun s => { s with flags := fl }

/-- the loop of `clear`: thread_safe_pool.hh:55-58, from `i` on, `n` entries. -/
def clearLoop (dflt : T) : Nat → Nat → E (St T) Unit
  | _, 0 => pure ()
  | i, n + 1 => do
    clearOne dflt i
    clearLoop dflt (i + 1) n

/-- `clear`: thread_safe_pool.hh:54-59. -/
def clear (dflt : T) : E (St T) Unit := do
  let s ← members
  clearLoop dflt 0 s.data.length

end Throwing.TsP
