import Verif.Lemmas.SpscPromise
import Verif.Props.SpscWeak
/-!
# Property C232: what `num_free()` and `num_filled()` promise, under the C++ memory model

`acq = false` is the code as written.
-/
namespace SpscWeak
open Spsc (Ev fixedCfg dynCfg fixed_cap_lt fixed_IdxOk dyn_IdxOk_lt dyn_IdxOk_dvd IdxOk)
open Spsc.Spec
variable {T : Type}

theorem promise_core {w : Nat} (cfg : Spsc.Cfg w) (hcap : cfg.cap < 2 ^ w) {acq : Bool} (dflt : T) (mvf : T → T) (as : List (Act T)) (ha : NoReset as)
    (hidx : IdxOk cfg (accepted (run cfg acq mvf (init w cfg.cap dflt) as).2).length) :
    let es := (run cfg acq mvf (init w cfg.cap dflt) as).2
    ¬ RoomBroken 0 es ∧ ¬ FilledBroken 0 es ∧ (content [] es).length + room 0 es ≤ cfg.cap ∧ credit 0 es ≤ (content [] es).length := by
  intro es
  have h := run_Inv cfg hcap (acq := acq) mvf as (tr := []) (s := init w cfg.cap dflt) hidx ha (init_Inv _ dflt)
  have q := run_QInv cfg hcap (acq := acq) mvf as (tr := []) (s := init w cfg.cap dflt) hidx ha (init_Inv _ dflt) (init_QInv _ dflt)
  rw [List.nil_append] at h q
  have h1 := h.tvK; have h2 := h.tvA; have h3 := h.Khv; have h4 := h.hvA
  have q1 := q.room; have q2 := q.filled
  refine ⟨q.roomOk, q.filledOk, ?_, ?_⟩
  · simp only [content, List.nil_append, List.length_drop, es] at q1 h1 h2 h3 h4 ⊢
    omega
  · simp only [content, List.nil_append, List.length_drop, es] at q2 h3 h4 ⊢
    omega

/-- **C232** In every weak-memory execution without `reset`, however stale the values the threads see: after a `num_free()` that returned `n` the producer's next `n` `put`s are accepted, and until then no `num_free()` returns less than what is left of `n`;
after a `num_filled()` that returned `n` the consumer's next `n` calls of `get()`, `get_move()` or `remove_first()` find an item, and until then no `num_filled()` returns less than what is left of `n`. At every moment the promised room is free and the promised items are there. -/
theorem C232_promises {w k : Nat} (hk : k < w) (dflt : T) (mvf : T → T) (acq : Bool) (as : List (Act T)) (ha : NoReset as) :
    let es := (run (fixedCfg w k) acq mvf (init w (2 ^ k) dflt) as).2
    ¬ RoomBroken 0 es ∧ ¬ FilledBroken 0 es ∧ (content [] es).length + room 0 es ≤ 2 ^ k ∧ credit 0 es ≤ (content [] es).length :=
  promise_core (fixedCfg w k) (fixed_cap_lt hk) dflt mvf as ha (fixed_IdxOk hk _)

/-- **C232** the same for `LockFreeFifoSpscDyn` of any capacity, as long as fewer than `2 ^ w` items have been put (or without limit if the capacity divides `2 ^ w`). -/
theorem C232_dyn_promises {w n : Nat} (hn : n < 2 ^ w) (dflt : T) (mvf : T → T) (acq : Bool) (as : List (Act T)) (ha : NoReset as)
    (hlen : (accepted (run (dynCfg w n) acq mvf (init w n dflt) as).2).length < 2 ^ w ∨ n ∣ 2 ^ w) :
    let es := (run (dynCfg w n) acq mvf (init w n dflt) as).2
    ¬ RoomBroken 0 es ∧ ¬ FilledBroken 0 es ∧ (content [] es).length + room 0 es ≤ n ∧ credit 0 es ≤ (content [] es).length :=
  promise_core (dynCfg w n) hn dflt mvf as ha (by
    rcases hlen with h | h
    · exact dyn_IdxOk_lt h
    · exact dyn_IdxOk_dvd h)

/-- **C232** read off one history: `n` from `num_free()`, then fewer than `n` accepted `put`s and no other `num_free()`, then a `put`: it is accepted. -/
theorem C232_put_accepted {w k : Nat} (hk : k < w) (dflt : T) (mvf : T → T) (acq : Bool) (as : List (Act T)) (ha : NoReset as) {n : Nat} {es1 mid es2 : List (Ev T)} {x : T} {ok : Bool}
    (he : (run (fixedCfg w k) acq mvf (init w (2 ^ k) dflt) as).2 = es1 ++ .numFreeRet n :: (mid ++ .putRet x ok :: es2))
    (hmid : ∀ m, Ev.numFreeRet m ∉ mid) (hn : (accepted mid).length < n) : ok = true := by
  have h := (C232_promises hk dflt mvf acq as ha).1
  have hr : ∀ (l : List (Ev T)) (b : Nat), (∀ m, Ev.numFreeRet m ∉ l) → room b l = b - (accepted l).length := by
    intro l
    induction l with
    | nil => intro b _; simp [room, accepted]
    | cons e l ih =>
      intro b hm
      have hm' : ∀ m, Ev.numFreeRet m ∉ l := fun m hml => hm m (by simp [hml])
      cases e with
      | numFreeRet m => exact absurd (by simp) (hm m)
      | putRet y r =>
        cases r
        · simp [room, ih _ hm', accepted]
        · simp [room, ih _ hm', accepted]; omega
      | _ => simp [room, ih _ hm', accepted]
  rw [he, roomBroken_append] at h
  have h' : ¬ RoomBroken n (mid ++ .putRet x ok :: es2) := fun g => h (.inr (.inr g))
  rw [roomBroken_append, hr mid n hmid] at h'
  cases ok with
  | true => rfl
  | false => exact absurd (.inr (.inl (by omega))) h'

/-- `num_free()` may be stale: here it says 0 although the FIFO is empty; what it has announced before (2) holds nevertheless -/
example : let as : List (Act Nat) := [.numFree, .pStep 0, .pStep 0, .put 5, .pStep 0, .pStep 0, .pStep 0, .pStep 0, .put 6, .pStep 0, .pStep 0, .pStep 0, .pStep 0,
      .cCall .getIfFilled, .cStep 2, .cStep 0, .cStep 0, .cStep 2, .cStep 0, .cStep 0, .cCall .getIfFilled, .cStep 2, .cStep 0, .cStep 0, .cStep 2, .cStep 0, .cStep 0,
      .numFree, .pStep 0, .pStep 0, .numFree, .pStep 0, .pStep 1, .put 7, .pStep 0, .pStep 2, .pStep 0, .pStep 0]
    NoReset as ∧ (run (fixedCfg 64 1) false id (init 64 2 0) as).2 =
      [.numFreeRet 2, .putRet 5 true, .putRet 6 true, .numFilledRet 2, .getRet (some 5), .numFilledRet 1, .getRet (some 6), .numFreeRet 0, .numFreeRet 1, .putRet 7 true] := by
  unfold NoReset
  decide

/-- a `put` announced by `num_free()` -/
example := C232_put_accepted (w := 64) (k := 1) (by decide) 0 id false
  [.numFree, .pStep 0, .pStep 0, .put 5, .pStep 0, .pStep 0, .pStep 0, .pStep 0, .put 6, .pStep 0, .pStep 0, .pStep 0, .pStep 0] (by unfold NoReset; decide)
  (n := 2) (es1 := []) (mid := [.putRet 5 true]) (x := 6) (ok := true) (es2 := []) (by decide) (by simp) (by decide)

/-- a FIFO of capacity 3 -/
example := C232_dyn_promises (w := 64) (n := 3) (by decide) 0 id false
  [.numFree, .pStep 0, .pStep 0, .put 5, .pStep 0, .pStep 0, .pStep 0, .pStep 0, .put 6, .pStep 0, .pStep 0, .pStep 0, .pStep 0] (by unfold NoReset; decide) (.inl (by decide))

/-- Why `reset` is excluded: it drops the items that `num_filled()` has announced. -/
theorem C232_reset_drops_items :
    ∃ as : List (Act Nat), (run (fixedCfg 64 1) false id (init 64 2 0) as).2 = [.putRet 1 true, .numFilledRet 1, .resetRet 1, .getRet none] ∧
      FilledBroken 0 (run (fixedCfg 64 1) false id (init 64 2 0) as).2 :=
  ⟨[.put 1, .pStep 0, .pStep 0, .pStep 0, .pStep 0, .cCall .numFilled, .cStep 1, .cStep 0, .cCall .reset, .cStep 1, .cStep 1, .cCall .get, .cStep 0, .cStep 1], by decide,
    by simp [run, step, callP, callC, stepP, stepC, loadHead, own, init, FilledBroken, fixedCfg]⟩

end SpscWeak
