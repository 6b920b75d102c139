import Verif.Lemmas.SpscWeak
/-!
# Property C05: the FIFO under the C++ release/acquire memory model

`run cfg acq mvf s as`: `acq = false` is the code as written (the consumer loads `head_` relaxed), `acq = true` the
variant with an acquire load.  `race = true` in the final state: a data race (undefined behaviour) happened.
-/
namespace SpscWeak
open Spsc (fixedCfg dynCfg fixed_cap_lt fixed_IdxOk dyn_IdxOk_lt dyn_IdxOk_dvd IdxOk)
open Spsc.Spec
variable {T : Type}

/-- The schedule makes no call of `reset`. -/
def NoReset (as : List (Act T)) : Prop := ∀ a ∈ as, a ≠ .cCall .reset

/-- Every `get` of the schedule is guarded by `num_filled() > 0` (and there is no `get_move` or `reset`). -/
def GuardedGets (as : List (Act T)) : Prop :=
  ∀ a ∈ as, a ≠ .cCall .get ∧ a ≠ .cCall .getMove ∧ a ≠ .cCall .reset

/-- **C05 is violated**: in the code as written, one `put` on the producer's thread followed by one `get` on the
consumer's thread, which sees the new `head_`, is a data race. -/
theorem C05_relaxed_load_races_violated :
    ∃ as : List (Act Nat), NoReset as ∧
      (run (fixedCfg 64 2) false id (init 64 4 0) as).2 = [.putRet 5 true, .getRet (some 5)] ∧
      (run (fixedCfg 64 2) false id (init 64 4 0) as).1.race = true :=
  ⟨[.put 5, .pStep 0, .pStep 0, .pStep 0, .pStep 0, .cCall .get, .cStep 0, .cStep 1, .cStep 0, .cStep 0],
    by unfold NoReset; decide, by decide, by decide⟩

/-- **C05 (partial)**: the code as written is free of data races, and delivers in order, in every weak-memory
execution in which each `get()` is guarded by `num_filled() > 0` (whose load of `head_` is an acquire load).
Missing: unguarded `get()`/`get_move()`, where it is false (previous theorem). -/
theorem C05_guarded_gets_race_free_partial {w k : Nat} (hk : k < w) (dflt : T) (mvf : T → T) (as : List (Act T))
    (ha : GuardedGets as) :
    (run (fixedCfg w k) false mvf (init w (2 ^ k) dflt) as).1.race = false ∧
    (run (fixedCfg w k) false mvf (init w (2 ^ k) dflt) as).1.ub = false ∧
    InOrder [] (run (fixedCfg w k) false mvf (init w (2 ^ k) dflt) as).2 := by
  have hall : ∀ a ∈ as, AllowedG false a := ?_
  · have h := run_Inv (fixedCfg w k) (fixed_cap_lt hk) (acq := false) mvf as (tr := [])
      (s := init w (2 ^ k) dflt) (fixed_IdxOk hk _) (fun a h => (hall a h).allowed) (init_Inv _ dflt)
    have g := run_GInv (fixedCfg w k) (fixed_cap_lt hk) mvf as (tr := [])
      (s := init w (2 ^ k) dflt) (fixed_IdxOk hk _) hall (init_Inv _ dflt) ⟨rfl, trivial⟩
    exact ⟨g.1, h.ub, by simpa using Nat.le_trans h.Khv h.hvA, by simpa using h.order⟩
  · intro a h
    obtain ⟨h1, h2, h3⟩ := ha a h
    cases a with
    | cCall op => cases op <;> simp_all [AllowedG]
    | _ => trivial

/-- **C05 (partial)**: with an acquire load of `head_` in `get`/`get_move` the FIFO is free of data races and delivers in
order in every weak-memory execution without `reset`. -/
theorem C05_acquire_variant_race_free_partial {w k : Nat} (hk : k < w) (dflt : T) (mvf : T → T) (as : List (Act T))
    (ha : NoReset as) :
    (run (fixedCfg w k) true mvf (init w (2 ^ k) dflt) as).1.race = false ∧
    (run (fixedCfg w k) true mvf (init w (2 ^ k) dflt) as).1.ub = false ∧
    InOrder [] (run (fixedCfg w k) true mvf (init w (2 ^ k) dflt) as).2 := by
  have hall : ∀ a ∈ as, AllowedG true a := ?_
  · have h := run_Inv (fixedCfg w k) (fixed_cap_lt hk) (acq := true) mvf as (tr := [])
      (s := init w (2 ^ k) dflt) (fixed_IdxOk hk _) (fun a h => (hall a h).allowed) (init_Inv _ dflt)
    have g := run_GInv (fixedCfg w k) (fixed_cap_lt hk) mvf as (tr := [])
      (s := init w (2 ^ k) dflt) (fixed_IdxOk hk _) hall (init_Inv _ dflt) ⟨rfl, trivial⟩
    exact ⟨g.1, h.ub, by simpa using Nat.le_trans h.Khv h.hvA, by simpa using h.order⟩
  · intro a h
    have := ha a h
    cases a with
    | cCall op => cases op <;> simp_all [AllowedG]
    | _ => trivial

/-- Even with the acquire load, `reset()` by the consumer (a relaxed store of `tail_`) opens a race: the producer may
see the freed slot without having synchronised with the consumer's earlier read of it. -/
theorem C05_reset_races_violated :
    ∃ as : List (Act Nat),
      (run (fixedCfg 64 0) true id (init 64 1 0) as).1.race = true ∧
      (run (fixedCfg 64 0) true id (init 64 1 0) as).2 =
        [.putRet 1 true, .getRet (some 1), .resetRet 0] :=
  ⟨[.put 1, .pStep 0, .pStep 0, .pStep 0, .pStep 0,
    .cCall .get, .cStep 0, .cStep 1, .cStep 0, .cStep 0,
    .cCall .reset, .cStep 1, .cStep 1,
    .put 2, .pStep 0, .pStep 2, .pStep 0], by decide, by decide⟩

/-- the guarded schedules include ones where items flow and stale values are read -/
example : let as : List (Act Nat) := [.put 5, .pStep 0, .pStep 0, .pStep 0, .pStep 0, .put 6, .pStep 0, .pStep 0, .pStep 0,
      .pStep 0, .cCall .getIfFilled, .cStep 1, .cStep 0, .cStep 0, .cStep 1, .cStep 0, .cStep 0,
      .put 7, .pStep 0, .pStep 0, .cCall .getIfFilled, .cStep 1, .cStep 0]
    GuardedGets as ∧ (run (fixedCfg 64 1) false id (init 64 2 0) as).2 =
      [.putRet 5 true, .putRet 6 true, .numFilledRet 1, .getRet (some 5), .putRet 7 false, .numFilledRet 0] := by
  unfold GuardedGets
  decide

/-- **C05, exactly when**: in every weak-memory execution of the code as written without `reset`, at any moment when the consumer is in no call, a data race has happened
exactly if some `get()`/`get_move()` returned an item that the last `num_filled()` (or `empty()`) before it had not announced. Whether or not it has, items come out in order and no index is out of range. -/
theorem C05_exact {w k : Nat} (hk : k < w) (dflt : T) (mvf : T → T) (as : List (Act T)) (ha : NoReset as)
    (hidle : (run (fixedCfg w k) false mvf (init w (2 ^ k) dflt) as).1.cpc = .idle) :
    ((run (fixedCfg w k) false mvf (init w (2 ^ k) dflt) as).1.race = true ↔ Blind 0 (run (fixedCfg w k) false mvf (init w (2 ^ k) dflt) as).2) ∧
    (run (fixedCfg w k) false mvf (init w (2 ^ k) dflt) as).1.ub = false ∧
    InOrder [] (run (fixedCfg w k) false mvf (init w (2 ^ k) dflt) as).2 := by
  have h := run_Inv (fixedCfg w k) (fixed_cap_lt hk) (acq := false) mvf as (tr := [])
    (s := init w (2 ^ k) dflt) (fixed_IdxOk hk _) ha (init_Inv _ dflt)
  have g := (run_XInv (fixedCfg w k) (fixed_cap_lt hk) mvf as (tr := [])
    (s := init w (2 ^ k) dflt) (fixed_IdxOk hk _) ha (init_Inv _ dflt) (init_XInv _ dflt)).race
  rw [hidle] at g
  exact ⟨by simpa [blindRead] using g, h.ub, by simpa using Nat.le_trans h.Khv h.hvA, by simpa using h.order⟩

/-- What `num_filled()` announces has been put and not yet taken: the items announced and not taken since never outnumber those in the FIFO. -/
theorem C05_announced {w k : Nat} (hk : k < w) (dflt : T) (mvf : T → T) (as : List (Act T)) (ha : NoReset as)
    (hidle : (run (fixedCfg w k) false mvf (init w (2 ^ k) dflt) as).1.cpc = .idle) :
    credit 0 (run (fixedCfg w k) false mvf (init w (2 ^ k) dflt) as).2 ≤ (content [] (run (fixedCfg w k) false mvf (init w (2 ^ k) dflt) as).2).length := by
  have h := run_Inv (fixedCfg w k) (fixed_cap_lt hk) (acq := false) mvf as (tr := [])
    (s := init w (2 ^ k) dflt) (fixed_IdxOk hk _) ha (init_Inv _ dflt)
  have g := (run_XInv (fixedCfg w k) (fixed_cap_lt hk) mvf as (tr := [])
    (s := init w (2 ^ k) dflt) (fixed_IdxOk hk _) ha (init_Inv _ dflt) (init_XInv _ dflt)).credit
  rw [hidle, List.nil_append] at g
  rw [g id]
  have h1 := h.ck; have h2 := h.hvA
  simp only [List.nil_append] at h1 h2
  simp only [content, List.nil_append, List.length_drop]
  omega

/-- `num_filled()` once and then two `get()`s is free of races; a third `get()` is a race, although its item was put before the `num_filled()`, which saw an older `head_` -/
example : let as : List (Act Nat) := [.put 5, .pStep 0, .pStep 0, .pStep 0, .pStep 0, .put 6, .pStep 0, .pStep 0, .pStep 0, .pStep 0, .put 7, .pStep 0, .pStep 0, .pStep 0, .pStep 0,
      .cCall .numFilled, .cStep 2, .cStep 0, .cCall .get, .cStep 0, .cStep 2, .cStep 0, .cStep 0, .cCall .getMove, .cStep 0, .cStep 3, .cStep 0, .cStep 0]
    let bs := as ++ [.cCall .get, .cStep 0, .cStep 3, .cStep 0, .cStep 0]
    (NoReset bs ∧ (run (fixedCfg 64 2) false id (init 64 4 0) as).1.cpc = .idle ∧ (run (fixedCfg 64 2) false id (init 64 4 0) bs).1.cpc = .idle) ∧
    (run (fixedCfg 64 2) false id (init 64 4 0) bs).2 = [.putRet 5 true, .putRet 6 true, .putRet 7 true, .numFilledRet 2, .getRet (some 5), .getRet (some 6), .getRet (some 7)] ∧
    (run (fixedCfg 64 2) false id (init 64 4 0) as).1.race = false ∧ (run (fixedCfg 64 2) false id (init 64 4 0) bs).1.race = true := by
  unfold NoReset
  decide

section dyn
variable {w n : Nat} (hn : n < 2 ^ w) (dflt : T) (mvf : T → T) (as : List (Act T))
include hn

theorem dyn_run {acq : Bool} (hlen : (accepted (run (dynCfg w n) acq mvf (init w n dflt) as).2).length < 2 ^ w ∨ n ∣ 2 ^ w) (ha : ∀ a ∈ as, AllowedG acq a) :
    (run (dynCfg w n) acq mvf (init w n dflt) as).1.race = false ∧ (run (dynCfg w n) acq mvf (init w n dflt) as).1.ub = false ∧ InOrder [] (run (dynCfg w n) acq mvf (init w n dflt) as).2 := by
  have hidx : IdxOk (dynCfg w n) (accepted ([] ++ (run (dynCfg w n) acq mvf (init w n dflt) as).2)).length := by
    rcases hlen with h | h
    · exact dyn_IdxOk_lt (by simpa using h)
    · exact dyn_IdxOk_dvd h
  have h := run_Inv (dynCfg w n) hn (acq := acq) mvf as (tr := []) (s := init w n dflt) hidx (fun a h => (ha a h).allowed) (init_Inv _ dflt)
  have g := run_GInv (dynCfg w n) hn (acq := acq) mvf as (tr := []) (s := init w n dflt) hidx ha (init_Inv _ dflt) ⟨rfl, trivial⟩
  exact ⟨g.1, h.ub, by simpa using Nat.le_trans h.Khv h.hvA, by simpa using h.order⟩

/-- **C167 (partial)**: `LockFreeFifoSpscDyn` of any capacity `n`, as written, under the C++ memory model: if each `get()` is guarded by `num_filled() > 0`, there is no data race and the items come out in order, as long as fewer than
`2 ^ w` items have been put (or without limit if `n` divides `2 ^ w`). Missing: unguarded `get()` (false, see below) and longer histories with other capacities (false also sequentially, C08). -/
theorem C167_dyn_guarded_partial (hlen : (accepted (run (dynCfg w n) false mvf (init w n dflt) as).2).length < 2 ^ w ∨ n ∣ 2 ^ w) (ha : GuardedGets as) :
    (run (dynCfg w n) false mvf (init w n dflt) as).1.race = false ∧ (run (dynCfg w n) false mvf (init w n dflt) as).1.ub = false ∧
    InOrder [] (run (dynCfg w n) false mvf (init w n dflt) as).2 := by
  refine dyn_run hn dflt mvf as hlen fun a h => ?_
  obtain ⟨h1, h2, h3⟩ := ha a h
  cases a with
  | cCall op => cases op <;> simp_all [AllowedG]
  | _ => trivial

/-- **C167 (partial)**: with an acquire load of `head_` in `get`/`get_move` the guard is not needed. -/
theorem C167_dyn_acquire_partial (hlen : (accepted (run (dynCfg w n) true mvf (init w n dflt) as).2).length < 2 ^ w ∨ n ∣ 2 ^ w) (ha : NoReset as) :
    (run (dynCfg w n) true mvf (init w n dflt) as).1.race = false ∧ (run (dynCfg w n) true mvf (init w n dflt) as).1.ub = false ∧
    InOrder [] (run (dynCfg w n) true mvf (init w n dflt) as).2 := by
  refine dyn_run hn dflt mvf as hlen fun a h => ?_
  have := ha a h
  cases a with
  | cCall op => cases op <;> simp_all [AllowedG]
  | _ => trivial

/-- **C167, exactly when**: as `C05_exact`, for `LockFreeFifoSpscDyn` of any capacity. -/
theorem C167_exact (hlen : (accepted (run (dynCfg w n) false mvf (init w n dflt) as).2).length < 2 ^ w ∨ n ∣ 2 ^ w) (ha : NoReset as)
    (hidle : (run (dynCfg w n) false mvf (init w n dflt) as).1.cpc = .idle) :
    ((run (dynCfg w n) false mvf (init w n dflt) as).1.race = true ↔ Blind 0 (run (dynCfg w n) false mvf (init w n dflt) as).2) ∧
    (run (dynCfg w n) false mvf (init w n dflt) as).1.ub = false ∧
    InOrder [] (run (dynCfg w n) false mvf (init w n dflt) as).2 := by
  have hidx : IdxOk (dynCfg w n) (accepted ([] ++ (run (dynCfg w n) false mvf (init w n dflt) as).2)).length := by
    rcases hlen with h | h
    · exact dyn_IdxOk_lt (by simpa using h)
    · exact dyn_IdxOk_dvd h
  have h := run_Inv (dynCfg w n) hn (acq := false) mvf as (tr := []) (s := init w n dflt) hidx ha (init_Inv _ dflt)
  have g := (run_XInv (dynCfg w n) hn mvf as (tr := []) (s := init w n dflt) hidx ha (init_Inv _ dflt) (init_XInv _ dflt)).race
  rw [hidle] at g
  exact ⟨by simpa [blindRead] using g, h.ub, by simpa using Nat.le_trans h.Khv h.hvA, by simpa using h.order⟩

end dyn

/-- **C167 is violated** by the code as written: one `put` and one unguarded `get` that sees it race. -/
theorem C167_dyn_relaxed_load_races_violated :
    ∃ as : List (Act Nat), NoReset as ∧
      (run (dynCfg 64 3) false id (init 64 3 0) as).2 = [.putRet 5 true, .getRet (some 5)] ∧
      (run (dynCfg 64 3) false id (init 64 3 0) as).1.race = true :=
  ⟨[.put 5, .pStep 0, .pStep 0, .pStep 0, .pStep 0, .cCall .get, .cStep 0, .cStep 1, .cStep 0, .cStep 0],
    by unfold NoReset; decide, by decide, by decide⟩

/-- a guarded schedule of a FIFO of capacity 3 that goes round -/
example : let as : List (Act Nat) := [.put 5, .pStep 0, .pStep 0, .pStep 0, .pStep 0, .put 6, .pStep 0, .pStep 0, .pStep 0, .pStep 0, .put 7, .pStep 0, .pStep 0, .pStep 0, .pStep 0,
      .put 8, .pStep 0, .pStep 0, .cCall .getIfFilled, .cStep 1, .cStep 0, .cStep 0, .cStep 3, .cStep 0, .cStep 0, .put 9, .pStep 0, .pStep 1, .pStep 0, .pStep 0,
      .cCall .getIfFilled, .cStep 4, .cStep 0, .cStep 0, .cStep 4, .cStep 0, .cStep 0]
    GuardedGets as ∧ (run (dynCfg 64 3) false id (init 64 3 0) as).2 =
      [.putRet 5 true, .putRet 6 true, .putRet 7 true, .putRet 8 false, .numFilledRet 1, .getRet (some 5), .putRet 9 true, .numFilledRet 3, .getRet (some 6)] := by
  unfold GuardedGets
  decide

end SpscWeak
