import Verif.Lemmas.SpscDelay
/-!
# Properties C01–C04, C06–C09: the lock-free FIFOs under every sequentially consistent interleaving

`run cfg dflt mv s as` runs the schedule `as` (an arbitrary list of "this thread starts a call / makes one memory
access" decisions); its second component is the list of observed calls and returns.  `accepted`, `taken`,
`content`, `InOrder` (Verif/Spec/Spsc.lean) only look at that list.

`fixedCfg w k` is `LockFreeFifoSpsc<T, 2^k>` on a machine whose `size_t` has `w` bits; `dynCfg w n` is
`LockFreeFifoSpscDyn<T>` of capacity `n`.  `init w cap dflt d` is the freshly constructed object with head offset
`d` (`d = 0`: default constructor).  `mv x` is whatever `std::move` leaves behind in a slot.
-/
namespace Spsc
open Spec
variable {T : Type}

/-- an interleaved schedule with a concurrent put/get, a query, a `get_move` and a consumer reset -/
def sample : List (Act Nat) :=
  putActs 1 ++ [.pCall (.put 2), .cCall .getMove, .pStep true, .cStep true, .pStep true, .cStep true, .cStep true,
    .pStep true, .cStep true, .pStep true, .pCall .numFree, .pStep false, .cCall .reset, .cStep true, .pStep true,
    .cStep true, .pCall .full, .pStep true, .pStep true, .cCall .numFilled, .cStep true, .cStep true,
    .cCall .removeFirst, .cStep true, .cStep true, .cCall .getOrDefault, .cStep true, .cStep true] ++ putActs 3

/-- a full FIFO, with `full()`, `empty()`, `num_filled()` asked -/
def sample2 : List (Act Nat) :=
  putActs 5 ++ putActs 6 ++ putActs 7 ++ [.pCall .full, .pStep true, .pStep true, .cCall .empty, .cStep true, .cStep true, .cCall .numFilled, .cStep true] ++
    [.cStep true] ++ getActs ++ [.cCall .removeFirst, .cStep true, .cStep true, .cStep true, .pCall .numFree, .pStep true, .pStep true] ++ putActs 8 ++
    [.cCall .getOrDefault, .cStep true, .cStep true, .cStep true, .cStep true]

section fixed
variable {w k : Nat} (hk : k < w) (dflt : T) (mv : T → T) {d : Nat} (hd : d ≤ 2 ^ k) (as : List (Act T))
  (ha : NoProducerReset as)
include hk hd ha

/-- **C01**: whatever the schedule, what left the FIFO is, item by item and in order, what went in; no
out-of-bounds access ever happens; counters may wrap any number of times. -/
theorem C01_fifo_order :
    InOrder (List.replicate d dflt) (run (fixedCfg w k) dflt mv (init w (2 ^ k) dflt d) as).2 ∧
    (run (fixedCfg w k) dflt mv (init w (2 ^ k) dflt d) as).1.ub = false := by
  have h := run_Inv (fixedCfg w k) (fixed_cap_lt hk) dflt mv (tr := []) as ha (fixed_IdxOk hk _)
    (init_Inv dflt d hd)
  exact ⟨Inv_inOrder h, h.ub⟩

/-- **C02** `put` reports failure only when the FIFO holds exactly `max_size()` items at that instant, success
only when it held fewer; it never holds more than `max_size()`. -/
theorem C02_put_result {es1 es2 : List (Ev T)} {x : T} {ok : Bool}
    (he : (run (fixedCfg w k) dflt mv (init w (2 ^ k) dflt d) as).2 = es1 ++ .putRet x ok :: es2) :
    (ok = false → (content (List.replicate d dflt) es1).length = 2 ^ k) ∧
    (ok = true → (content (List.replicate d dflt) es1).length < 2 ^ k) := by
  obtain ⟨s1, a, hI, hs⟩ := before_event (fixedCfg w k) (fixed_cap_lt hk) dflt mv as ha (fixed_IdxOk hk _)
    (init_Inv dflt d hd) he
  constructor
  · rintro rfl; exact core_put_false (fixed_cap_lt hk) hI hs
  · rintro rfl; exact core_put_true hI hs

example := C02_put_result (w := 8) (k := 1) (by decide) 0 id (d := 0) (by decide) sample2 (by unfold NoProducerReset; decide) (es1 := [.putRet 5 true, .putRet 6 true]) (x := 7) (ok := false) rfl
example := C02_put_result (w := 8) (k := 1) (by decide) 0 id (d := 0) (by decide) sample (by unfold NoProducerReset; decide) (es1 := [.putRet 1 true, .getRet (some 1)]) (x := 2) (ok := true) rfl

theorem C02_never_overfull :
    (content (List.replicate d dflt) (run (fixedCfg w k) dflt mv (init w (2 ^ k) dflt d) as).2).length ≤ 2 ^ k :=
  Inv_content_len (run_Inv (fixedCfg w k) (fixed_cap_lt hk) dflt mv (tr := []) as ha (fixed_IdxOk hk _)
    (init_Inv dflt d hd))

/-- **C03** `get`/`get_move`: "nothing" only when the FIFO is empty at that instant, otherwise the oldest item. -/
theorem C03_get_result {es1 es2 : List (Ev T)} {r : Option T}
    (he : (run (fixedCfg w k) dflt mv (init w (2 ^ k) dflt d) as).2 = es1 ++ .getRet r :: es2) :
    r = (content (List.replicate d dflt) es1).head? := by
  obtain ⟨s1, a, hI, hs⟩ := before_event (fixedCfg w k) (fixed_cap_lt hk) dflt mv as ha (fixed_IdxOk hk _)
    (init_Inv dflt d hd) he
  cases r with
  | none => rw [core_get_none (fixed_cap_lt hk) hI hs]; rfl
  | some x => exact (core_get_some hI hs).symm

example := C03_get_result (w := 8) (k := 1) (by decide) 0 id (d := 0) (by decide) sample (by unfold NoProducerReset; decide) (es1 := [.putRet 1 true]) (r := some 1) rfl

/-- **C03** `get_or_default` and `remove_first`. -/
theorem C03_get_or_default {es1 es2 : List (Ev T)} {took : Bool} {v : T}
    (he : (run (fixedCfg w k) dflt mv (init w (2 ^ k) dflt d) as).2 = es1 ++ .getOrDefaultRet took v :: es2) :
    took = !(content (List.replicate d dflt) es1).isEmpty ∧
    v = (content (List.replicate d dflt) es1).head?.getD dflt := by
  obtain ⟨s1, a, hI, hs⟩ := before_event (fixedCfg w k) (fixed_cap_lt hk) dflt mv as ha (fixed_IdxOk hk _)
    (init_Inv dflt d hd) he
  rcases core_getOr (fixed_cap_lt hk) hI hs with ⟨rfl, h1, rfl⟩ | ⟨rfl, h1⟩
  · simp [h1]
  · rw [h1]
    cases hc : content (List.replicate d dflt) es1 with
    | nil => rw [hc] at h1; simp at h1
    | cons y ys => simp

example := C03_get_or_default (w := 8) (k := 1) (by decide) 0 id (d := 0) (by decide) sample2 (by unfold NoProducerReset; decide) (es1 := [.putRet 5 true, .putRet 6 true, .putRet 7 false, .numFreeCall, .fullRet true, .numFilledCall, .emptyRet false, .numFilledCall, .numFilledRet 2, .getRet (some 5), .removeRet true, .numFreeCall, .numFreeRet 2, .putRet 8 true]) (took := true) (v := 8) rfl

theorem C03_remove_first {es1 es2 : List (Ev T)} {took : Bool}
    (he : (run (fixedCfg w k) dflt mv (init w (2 ^ k) dflt d) as).2 = es1 ++ .removeRet took :: es2) :
    took = !(content (List.replicate d dflt) es1).isEmpty := by
  obtain ⟨s1, a, hI, hs⟩ := before_event (fixedCfg w k) (fixed_cap_lt hk) dflt mv as ha (fixed_IdxOk hk _)
    (init_Inv dflt d hd) he
  rcases core_remove (fixed_cap_lt hk) hI hs with ⟨rfl, h1⟩ | ⟨rfl, h1⟩
  · simp [h1]
  · simp [h1]

example := C03_remove_first (w := 8) (k := 1) (by decide) 0 id (d := 0) (by decide) sample2 (by unfold NoProducerReset; decide) (es1 := [.putRet 5 true, .putRet 6 true, .putRet 7 false, .numFreeCall, .fullRet true, .numFilledCall, .emptyRet false, .numFilledCall, .numFilledRet 2, .getRet (some 5)]) (took := true) rfl

/-- **C04** `num_free()` called by the producer: between the true value when the call began and the true value when
it returned, hence exact when nothing else happened in between (`mid = []`). -/
theorem C04_num_free {pre mid es2 : List (Ev T)} {n : Nat}
    (he : (run (fixedCfg w k) dflt mv (init w (2 ^ k) dflt d) as).2 =
      (pre ++ .numFreeCall :: mid) ++ .numFreeRet n :: es2) (hmid : Ev.numFreeCall ∉ mid) :
    2 ^ k - (content (List.replicate d dflt) pre).length ≤ n ∧
    n ≤ 2 ^ k - (content (List.replicate d dflt) (pre ++ .numFreeCall :: mid)).length := by
  obtain ⟨s1, a, hI, hs⟩ := before_event (fixedCfg w k) (fixed_cap_lt hk) dflt mv as ha (fixed_IdxOk hk _)
    (init_Inv dflt d hd) he
  obtain ⟨f, m, h1, h2, h3⟩ := core_free (fixed_cap_lt hk) hI (.inl ⟨n, rfl⟩) hs rfl hmid
  cases f
  · simp [freeEv] at h1; subst h1; exact ⟨h2, h3⟩
  · simp [freeEv] at h1

example := C04_num_free (w := 8) (k := 1) (by decide) 0 id (d := 0) (by decide) sample (by unfold NoProducerReset; decide) (pre := [.putRet 1 true, .getRet (some 1), .putRet 2 true]) (mid := [.resetCall]) (n := 1) rfl (by decide)

/-- **C04** the room promised by `num_free()` is still there at any later moment before the producer's next
successful `put`. -/
theorem C04_num_free_later {pre mid p1 p2 : List (Ev T)} {n : Nat}
    (he : (run (fixedCfg w k) dflt mv (init w (2 ^ k) dflt d) as).2 =
      (pre ++ .numFreeCall :: mid) ++ .numFreeRet n :: (p1 ++ p2)) (hmid : Ev.numFreeCall ∉ mid)
    (hp1 : accepted p1 = []) :
    n ≤ 2 ^ k - (content (List.replicate d dflt) ((pre ++ .numFreeCall :: mid) ++ .numFreeRet n :: p1)).length := by
  have := (C04_num_free hk dflt mv hd as ha he hmid).2
  refine Nat.le_trans this ?_
  rw [content_length, content_length]
  have e1 : accepted ((pre ++ .numFreeCall :: mid) ++ Ev.numFreeRet n :: p1) = accepted (pre ++ .numFreeCall :: mid) := by
    simp [accepted, hp1]
  have e2 : (taken (pre ++ .numFreeCall :: mid)).length ≤
      (taken ((pre ++ .numFreeCall :: mid) ++ Ev.numFreeRet n :: p1)).length := by rw [taken_append _ (_ :: p1)]; simp
  rw [e1]; omega

example := C04_num_free_later (w := 8) (k := 1) (by decide) 0 id (d := 0) (by decide) sample (by unfold NoProducerReset; decide) (pre := [.putRet 1 true, .getRet (some 1), .putRet 2 true]) (mid := [.resetCall]) (n := 1) (p1 := [.resetRet 1]) rfl (by decide) rfl

/-- **C04** `full()` called by the producer: `true` only if the FIFO was full when the call began; `false` only
if it has room when the call returns. -/
theorem C04_full {pre mid es2 : List (Ev T)} {b : Bool}
    (he : (run (fixedCfg w k) dflt mv (init w (2 ^ k) dflt d) as).2 =
      (pre ++ .numFreeCall :: mid) ++ .fullRet b :: es2) (hmid : Ev.numFreeCall ∉ mid) :
    (b = true → 2 ^ k ≤ (content (List.replicate d dflt) pre).length) ∧
    (b = false → (content (List.replicate d dflt) (pre ++ .numFreeCall :: mid)).length < 2 ^ k) := by
  obtain ⟨s1, a, hI, hs⟩ := before_event (fixedCfg w k) (fixed_cap_lt hk) dflt mv as ha (fixed_IdxOk hk _)
    (init_Inv dflt d hd) he
  obtain ⟨f, m, h1, h2, h3⟩ := core_free (fixed_cap_lt hk) hI (.inr ⟨b, rfl⟩) hs rfl hmid
  have hc : (fixedCfg w k).cap = 2 ^ k := rfl
  rw [hc] at h2 h3
  cases f
  · simp [freeEv] at h1
  · simp [freeEv] at h1
    subst h1
    constructor
    · intro h; simp at h; omega
    · intro h; simp at h; omega

example := C04_full (w := 8) (k := 1) (by decide) 0 id (d := 0) (by decide) sample2 (by unfold NoProducerReset; decide) (pre := [.putRet 5 true, .putRet 6 true, .putRet 7 false]) (mid := []) (b := true) rfl (by decide)

/-- **C04** `num_filled()` called by the consumer: between the true values at call and return. -/
theorem C04_num_filled {pre mid es2 : List (Ev T)} {n : Nat}
    (he : (run (fixedCfg w k) dflt mv (init w (2 ^ k) dflt d) as).2 =
      (pre ++ .numFilledCall :: mid) ++ .numFilledRet n :: es2) (hmid : Ev.numFilledCall ∉ mid) :
    (content (List.replicate d dflt) pre).length ≤ n ∧
    n ≤ (content (List.replicate d dflt) (pre ++ .numFilledCall :: mid)).length := by
  obtain ⟨s1, a, hI, hs⟩ := before_event (fixedCfg w k) (fixed_cap_lt hk) dflt mv as ha (fixed_IdxOk hk _)
    (init_Inv dflt d hd) he
  obtain ⟨f, m, h1, h2, h3⟩ := core_fill (fixed_cap_lt hk) hI (.inl ⟨n, rfl⟩) hs rfl hmid
  cases f
  · simp [fillEv] at h1; subst h1; exact ⟨h2, h3⟩
  · simp [fillEv] at h1

example := C04_num_filled (w := 8) (k := 1) (by decide) 0 id (d := 0) (by decide) sample2 (by unfold NoProducerReset; decide) (pre := [.putRet 5 true, .putRet 6 true, .putRet 7 false, .numFreeCall, .fullRet true, .numFilledCall, .emptyRet false]) (mid := []) (n := 2) rfl (by decide)

/-- **C04** the items promised by `num_filled()` are still there at any later moment before the consumer takes
something. -/
theorem C04_num_filled_later {pre mid p1 p2 : List (Ev T)} {n : Nat}
    (he : (run (fixedCfg w k) dflt mv (init w (2 ^ k) dflt d) as).2 =
      (pre ++ .numFilledCall :: mid) ++ .numFilledRet n :: (p1 ++ p2)) (hmid : Ev.numFilledCall ∉ mid)
    (hp1 : taken p1 = []) :
    n ≤ (content (List.replicate d dflt) ((pre ++ .numFilledCall :: mid) ++ .numFilledRet n :: p1)).length := by
  have := (C04_num_filled hk dflt mv hd as ha he hmid).2
  refine Nat.le_trans this ?_
  rw [content_length, content_length]
  have e1 : taken ((pre ++ .numFilledCall :: mid) ++ Ev.numFilledRet n :: p1) = taken (pre ++ .numFilledCall :: mid) := by
    simp [taken, hp1]
  have e2 : (List.replicate d dflt ++ accepted (pre ++ .numFilledCall :: mid)).length ≤
      (List.replicate d dflt ++ accepted ((pre ++ .numFilledCall :: mid) ++ Ev.numFilledRet n :: p1)).length :=
    accepted_mono_len ..
  rw [e1]; omega

example := C04_num_filled_later (w := 8) (k := 1) (by decide) 0 id (d := 0) (by decide) sample2 (by unfold NoProducerReset; decide) (pre := [.putRet 5 true, .putRet 6 true, .putRet 7 false, .numFreeCall, .fullRet true, .numFilledCall, .emptyRet false]) (mid := []) (n := 2) (p1 := []) rfl (by decide) rfl

/-- **C04** `empty()` called by the consumer. -/
theorem C04_empty {pre mid es2 : List (Ev T)} {b : Bool}
    (he : (run (fixedCfg w k) dflt mv (init w (2 ^ k) dflt d) as).2 =
      (pre ++ .numFilledCall :: mid) ++ .emptyRet b :: es2) (hmid : Ev.numFilledCall ∉ mid) :
    (b = true → content (List.replicate d dflt) pre = []) ∧
    (b = false → content (List.replicate d dflt) (pre ++ .numFilledCall :: mid) ≠ []) := by
  obtain ⟨s1, a, hI, hs⟩ := before_event (fixedCfg w k) (fixed_cap_lt hk) dflt mv as ha (fixed_IdxOk hk _)
    (init_Inv dflt d hd) he
  obtain ⟨f, m, h1, h2, h3⟩ := core_fill (fixed_cap_lt hk) hI (.inr ⟨b, rfl⟩) hs rfl hmid
  cases f
  · simp [fillEv] at h1
  · simp [fillEv] at h1
    subst h1
    constructor
    · intro h; simp at h; subst h; exact List.length_eq_zero_iff.mp (by omega)
    · intro h; simp at h; rw [← List.length_pos_iff]; omega

example := C04_empty (w := 8) (k := 1) (by decide) 0 id (d := 0) (by decide) sample2 (by unfold NoProducerReset; decide) (pre := [.putRet 5 true, .putRet 6 true, .putRet 7 false, .numFreeCall, .fullRet true]) (mid := []) (b := false) rfl (by decide)

/-- **C06 (consumer side)** a `reset()` by the consumer drops, in order, at least everything that was stored when it
was called and at most everything stored when it returns; nothing else leaves meanwhile.  (That the FIFO works
correctly afterwards is C01–C03, whose schedules may contain consumer resets.) -/
theorem C06_consumer_reset_partial {pre mid es2 : List (Ev T)} {n : Nat}
    (he : (run (fixedCfg w k) dflt mv (init w (2 ^ k) dflt d) as).2 =
      (pre ++ .resetCall :: mid) ++ .resetRet n :: es2) (hmid : Ev.resetCall ∉ mid) :
    (content (List.replicate d dflt) pre).length ≤ n ∧
    n ≤ (content (List.replicate d dflt) (pre ++ .resetCall :: mid)).length ∧ taken mid = [] := by
  obtain ⟨s1, a, hI, hs⟩ := before_event (fixedCfg w k) (fixed_cap_lt hk) dflt mv as ha (fixed_IdxOk hk _)
    (init_Inv dflt d hd) he
  exact core_reset (fixed_cap_lt hk) hI hs rfl hmid

example := C06_consumer_reset_partial (w := 8) (k := 1) (by decide) 0 id (d := 0) (by decide) sample (by unfold NoProducerReset; decide) (pre := [.putRet 1 true, .getRet (some 1), .putRet 2 true, .numFreeCall]) (mid := [.numFreeRet 1]) (n := 1) rfl (by decide)

end fixed

/-! ### C06, producer side -/

/-- A schedule in which the producer resets while the consumer is between reading an item and publishing that. -/
def resetRace : List (Act Nat) :=
  putActs 1 ++ putActs 2 ++
  [.cCall .get, .cStep true, .cStep true, .cStep true] ++     -- consumer: loaded, compared, read the item 1
  [.pCall .reset, .pStep true, .pStep true] ++                -- producer: reset()
  [.cStep true]                                               -- consumer publishes its stale tail

/-- A schedule after which `put` no longer notices that the FIFO is full. -/
def resetOverfull : List (Act Nat) :=
  putActs 1 ++ putActs 2 ++
  [.cCall .get, .cStep true] ++
  [.pCall .reset, .pStep true, .pStep true] ++ putActs 3 ++ putActs 4 ++
  [.cStep true, .cStep true, .cStep true] ++ putActs 5

/-- **C06 is violated**: a `reset()` by the producer during a `get()` breaks the FIFO: more items are delivered
than were ever accepted (a discarded item is back), and in the second schedule five puts succeed although the
capacity is two and only one item was taken after the reset. -/
theorem C06_producer_reset_violated :
    ¬ InOrder [] (run (fixedCfg 8 1) 0 id (init 8 2 0 0) resetRace).2 ∧
    (run (fixedCfg 8 1) 0 id (init 8 2 0 0) resetOverfull).2 =
      [.putRet 1 true, .putRet 2 true, .resetCall, .resetRet 2, .putRet 3 true, .putRet 4 true,
       .getRet (some 3), .putRet 5 true] ∧
    (run (fixedCfg 8 1) 0 id (init 8 2 0 0) resetOverfull).1.head -
      (run (fixedCfg 8 1) 0 id (init 8 2 0 0) resetOverfull).1.tail = 4#8 := by
  refine ⟨?_, by decide, by decide⟩
  have : (run (fixedCfg 8 1) 0 id (init 8 2 0 0) resetRace).2 =
      [.putRet 1 true, .putRet 2 true, .resetCall, .resetRet 2, .getRet (some 1)] := by decide
  rw [this]
  rintro ⟨h, _⟩
  exact absurd h (by decide)

/-- While neither thread is inside another call, `reset()` by the producer does exactly what `reset()` by the
consumer does. -/
theorem C06_quiescent_producer_reset_partial {w : Nat} (cfg : Cfg w) (dflt : T) (mv : T → T) (s : St w T)
    (hp : s.ppc = .idle) (hc : s.cpc = .idle) (b1 b2 : Bool) :
    run cfg dflt mv s [.pCall .reset, .pStep b1, .pStep b2] =
    run cfg dflt mv s [.cCall .reset, .cStep b1, .cStep b2] := by
  obtain ⟨hd, tl, buf, ppc, cpc, ub⟩ := s
  simp only at hp hc
  subst hp hc
  simp [run, step, callP, callC, stepP, stepC]

/-! ### C07 delay line -/

/-- **C07** constructed with head offset `d < max_size()`, one `put` then one `get` per item: every `put` succeeds and
the `get`s deliver `d` default values followed by the stream, i.e. every item comes out exactly `d` puts later. -/
theorem C07_delay_put_get {w k : Nat} (hk : k < w) (dflt : T) (mv : T → T) (d : Nat) (hd : d < 2 ^ k) (xs : List T) :
    accepted (run (fixedCfg w k) dflt mv (init w (2 ^ k) dflt d) (putGetStream xs)).2 = xs ∧
    taken (run (fixedCfg w k) dflt mv (init w (2 ^ k) dflt d) (putGetStream xs)).2 =
      ((List.replicate d dflt ++ xs).take xs.length).map some := by
  have := putGet_ok (fixed_cap_lt hk) (dflt := dflt) (mv := mv) xs (init_Inv (w := w) (cap := 2 ^ k) dflt d (by omega))
    rfl rfl (fixed_IdxOk hk _) (by simp [content, accepted, taken, fixedCfg, hd])
  simpa [content, accepted, taken] using this

example := C07_delay_put_get (w := 32) (k := 3) (by decide) 0 id 5 (by decide) [1, 2, 3]

/-- **C07** the same with one `get` before each `put`, for `1 ≤ d ≤ max_size()`. -/
theorem C07_delay_get_put {w k : Nat} (hk : k < w) (dflt : T) (mv : T → T) (d : Nat) (hd0 : 0 < d) (hd : d ≤ 2 ^ k)
    (xs : List T) :
    accepted (run (fixedCfg w k) dflt mv (init w (2 ^ k) dflt d) (getPutStream xs)).2 = xs ∧
    taken (run (fixedCfg w k) dflt mv (init w (2 ^ k) dflt d) (getPutStream xs)).2 =
      ((List.replicate d dflt ++ xs).take xs.length).map some := by
  have := getPut_ok (fixed_cap_lt hk) (dflt := dflt) (mv := mv) xs (init_Inv (w := w) (cap := 2 ^ k) dflt d hd)
    rfl rfl (fixed_IdxOk hk _) (by simp [content, accepted, taken]; omega)
  simpa [content, accepted, taken] using this

example := C07_delay_get_put (w := 32) (k := 3) (by decide) 0 id 8 (by decide) (by decide) [1, 2, 3]

/-- **C07** `set_read_offset(d)` after any history without `get_move`, while no call is in progress, makes the FIFO hold
exactly the last `d` items written (`d` at most the capacity and the number of items written, fewer than `2^w`
items written so far): every later schedule delivers those and then the later items, in order. -/
theorem C07_set_read_offset {w k : Nat} (hk : k < w) (dflt : T) (mv : T → T) (as bs : List (Act T))
    (ha : NoProducerReset as) (ham : ∀ a ∈ as, a ≠ .cCall .getMove) (hb : NoProducerReset bs)
    (d : Nat) (hd : d ≤ 2 ^ k)
    (hist : List T) (hhist : hist = accepted (run (fixedCfg w k) dflt mv (init w (2 ^ k) dflt 0) as).2)
    (hlen : hist.length < 2 ^ w) (hdl : d ≤ hist.length)
    (s : St w T) (hs : s = (run (fixedCfg w k) dflt mv (init w (2 ^ k) dflt 0) as).1)
    (hp : s.ppc = .idle) (hc : s.cpc = .idle) :
    InOrder (hist.drop (hist.length - d)) (run (fixedCfg w k) dflt mv (setReadOffset s (BitVec.ofNat w d)) bs).2 ∧
    (run (fixedCfg w k) dflt mv (setReadOffset s (BitVec.ofNat w d)) bs).1.ub = false ∧
    ∀ es1 es2 r, (run (fixedCfg w k) dflt mv (setReadOffset s (BitVec.ofNat w d)) bs).2 = es1 ++ .getRet r :: es2 →
      r = (content (hist.drop (hist.length - d)) es1).head? := by
  have hI := run_Inv (fixedCfg w k) (fixed_cap_lt hk) dflt mv (tr := []) as ha (fixed_IdxOk hk _)
    (init_Inv dflt 0 (by omega))
  have hK := run_Keep (fixedCfg w k) (fixed_cap_lt hk) dflt mv (tr := []) as ha ham (fixed_IdxOk hk _)
    (init_Inv dflt 0 (by omega)) (by simp [notMove, init]) (init_Keep (2 ^ k) dflt 0)
  have hcE : (fixedCfg w k).cap = 2 ^ k := rfl
  rw [hcE] at hI hK
  rw [← hs] at hI hK
  simp only [List.replicate_zero, List.nil_append] at hI hK
  rw [← hhist] at hK
  have hA : s.head = BitVec.ofNat w hist.length := by have := hI.head; simpa [← hhist] using this
  have hle : BitVec.ofNat w d ≤ s.head := by
    rw [hA, BitVec.le_def, BitVec.toNat_ofNat, BitVec.toNat_ofNat, Nat.mod_eq_of_lt hlen, Nat.mod_eq_of_lt (by omega)]
    exact hdl
  have hE : setReadOffset s (BitVec.ofNat w d) = { s with tail := BitVec.ofNat w (hist.length - d) } := by
    unfold setReadOffset
    rw [if_pos hle, hA, ofNat_sub hdl]
  rw [hE]
  have hM : Inv (2 ^ k) hist [.resetRet (hist.length - d)] { s with tail := BitVec.ofNat w (hist.length - d) } := by
    refine Inv_of_memory (s := { s with tail := BitVec.ofNat w (hist.length - d) }) hd hdl hI.ub hp hc hI.buflen hA rfl ?_
    intro i h1 h2
    exact hK i h2 (by rw [hp]; simp only [isPut3]; omega)
  have hR := run_Inv (fixedCfg w k) (fixed_cap_lt hk) dflt mv bs hb (fixed_IdxOk hk _) hM
  refine ⟨InOrder_skip (by omega) (Inv_inOrder hR), hR.ub, ?_⟩
  intro es1 es2 r he
  obtain ⟨as1, a, as2, h1, h2, h3⟩ := run_split _ _ _ _ _ _ _ _ he
  have hR1 := run_Inv (fixedCfg w k) (fixed_cap_lt hk) dflt mv as1 (fun b hb' => hb b (by rw [h1]; simp [hb']))
    (fixed_IdxOk hk _) hM
  rw [h2] at hR1
  rw [← content_skip (k := hist.length - d) (by omega)]
  cases r with
  | none => have := core_get_none (fixed_cap_lt hk) hR1 h3; simp at this; rw [this]; rfl
  | some x => exact (core_get_some hR1 h3).symm

example := C07_set_read_offset (w := 8) (k := 1) (by decide) 0 id (putGetStream [4, 5, 6]) (getActs ++ getActs) (by unfold NoProducerReset; decide) (by decide)
  (by unfold NoProducerReset; decide) 2 (by decide) [4, 5, 6] rfl (by decide) (by decide) _ rfl rfl rfl

/-! ### C08 run-time sized FIFO -/

section dyn
variable {w n : Nat} (hn : n < 2 ^ w) (dflt : T) (mv : T → T) {d : Nat} (hd : d ≤ n) (as : List (Act T))
  (ha : NoProducerReset as)
  (hlen : d + (accepted (run (dynCfg w n) dflt mv (init w n dflt d) as).2).length < 2 ^ w ∨ n ∣ 2 ^ w)

include hlen in
theorem dyn_idx : IdxOk (dynCfg w n)
    (List.replicate d dflt ++ accepted (run (dynCfg w n) dflt mv (init w n dflt d) as).2).length := by
  rcases hlen with h | h
  · apply dyn_IdxOk_lt; simpa using h
  · exact dyn_IdxOk_dvd h

include hn hd ha hlen
/-- **C08 (partial)** any capacity: in-order exactly-once delivery, and truthful results, for histories with fewer than
`2^w` accepted items, and for ever if the capacity divides `2^w`.  Missing: longer histories with other
capacities, where the claim is false (next theorem). -/
theorem C08_dyn_fifo_partial :
    InOrder (List.replicate d dflt) (run (dynCfg w n) dflt mv (init w n dflt d) as).2 ∧
    (run (dynCfg w n) dflt mv (init w n dflt d) as).1.ub = false ∧
    (content (List.replicate d dflt) (run (dynCfg w n) dflt mv (init w n dflt d) as).2).length ≤ n ∧
    (∀ es1 es2 x ok, (run (dynCfg w n) dflt mv (init w n dflt d) as).2 = es1 ++ .putRet x ok :: es2 →
      (ok = false → (content (List.replicate d dflt) es1).length = n) ∧
      (ok = true → (content (List.replicate d dflt) es1).length < n)) ∧
    (∀ es1 es2 r, (run (dynCfg w n) dflt mv (init w n dflt d) as).2 = es1 ++ .getRet r :: es2 →
      r = (content (List.replicate d dflt) es1).head?) := by
  have hidx := dyn_idx dflt mv as hlen
  have hI0 : Inv (dynCfg w n).cap (List.replicate d dflt) [] (init w n dflt d) := init_Inv dflt d hd
  have h := run_Inv (dynCfg w n) hn dflt mv (tr := []) as ha hidx hI0
  refine ⟨Inv_inOrder h, h.ub, Inv_content_len h, ?_, ?_⟩
  · intro es1 es2 x ok he
    obtain ⟨s1, a, hI, hs⟩ := before_event (dynCfg w n) hn dflt mv as ha hidx hI0 he
    constructor
    · rintro rfl; exact core_put_false hn hI hs
    · rintro rfl; exact core_put_true hI hs
  · intro es1 es2 r he
    obtain ⟨s1, a, hI, hs⟩ := before_event (dynCfg w n) hn dflt mv as ha hidx hI0 he
    cases r with
    | none => rw [core_get_none hn hI hs]; rfl
    | some x => exact (core_get_some hI hs).symm

end dyn

/-- A history long enough to bring the counters to the top of their range: `2^w - 1` items go through, then a 0 is put,
then `r` ones, and one item is taken. -/
def wrapSchedule (w r : Nat) : List (Act Nat) :=
  putGetStream (List.replicate (2 ^ w - 1) 7) ++ (putActs 0 ++ ((List.replicate r (putActs 1)).flatten ++ getActs))

/-- **C08 is violated** for every counter width (32 and 64 included) by a FIFO of *any* capacity that does not divide
`2^w`, such as 3: when the counters wrap around, two stored items share a slot and a `get` delivers the wrong item. -/
theorem C08_dyn_wrap_violated (w n : Nat) (h0 : 0 < n) (hn : n < 2 ^ w) (hd : ¬ n ∣ 2 ^ w) :
    ¬ InOrder [] (run (dynCfg w n) 0 id (init w n 0 0) (wrapSchedule w (2 ^ w % n))).2 := by
  obtain ⟨r, hr⟩ : ∃ r, 2 ^ w % n = r := ⟨_, rfl⟩
  have hr0 : 0 < r := by
    rw [← hr]; exact Nat.pos_of_ne_zero (fun h => hd (Nat.dvd_of_mod_eq_zero h))
  have hrn : r < n := by rw [← hr]; exact Nat.mod_lt _ h0
  rw [hr]
  obtain ⟨q1, q2⟩ := putGet_ok (cfg := dynCfg w n) hn (dflt := 0) (mv := id) (List.replicate (2 ^ w - 1) 7)
    (init_Inv (w := w) (cap := n) 0 0 (by omega)) rfl rfl
    (dyn_IdxOk_lt (by simp [accepted]; omega)) (by simp [content, accepted, taken, dynCfg]; exact h0)
  obtain ⟨b, hb, hS⟩ := stream_state (w := w) (dflt := 0) (mv := id) h0 hn (List.replicate (2 ^ w - 1) 7)
    (s := init w n 0 0) rfl rfl rfl (by simp [init]) rfl
  unfold wrapSchedule
  rw [run_append, hS]
  simp only [List.length_replicate, init, BitVec.zero_add]
  obtain ⟨m, hm⟩ : ∃ m, BitVec.ofNat w (2 ^ w - 1) = m := ⟨_, rfl⟩
  rw [hm]
  have hm1 : m + 1#w = 0#w := by
    rw [← hm, ofNat_add_one, show 2 ^ w - 1 + 1 = 2 ^ w by omega]
    apply BitVec.eq_of_toNat_eq; simp
  have hmn : m = 0#w - 1#w := by
    have := congrArg (fun z => z - 1#w) hm1
    simpa [BitVec.add_sub_cancel] using this
  have em : m.toNat = 2 ^ w - 1 := by
    rw [← hm, BitVec.toNat_ofNat, Nat.mod_eq_of_lt (by omega)]
  have hslot : m.toNat % n = r - 1 := by
    rw [em]
    have hdm := Nat.div_add_mod (2 ^ w) n
    rw [hr] at hdm
    rw [show 2 ^ w - 1 = r - 1 + n * (2 ^ w / n) by omega, Nat.add_mul_mod_self_left]
    exact Nat.mod_eq_of_lt (by omega)
  have hne : ¬ m - m = BitVec.ofNat w n := by
    rw [BitVec.sub_self, show (0#w = BitVec.ofNat w n) ↔ (0 = n) from ofNat_inj_lt (by omega) hn]; omega
  rw [run_append, run_putActs _ rfl]
  simp only [show (dynCfg w n).cap = n from rfl, show ∀ c : BitVec w, (dynCfg w n).idx c = c.toNat % n from fun _ => rfl,
    hne, hb, hslot, show r - 1 < n by omega, if_true, if_false, hm1]
  rw [run_append]
  obtain ⟨b', hb1, hb2, hb3⟩ := puts_state (w := w) (dflt := 0) (mv := id) hn 1 r
    (s := { head := 0#w, tail := m, buf := b.set (r - 1) 0, ppc := .idle, cpc := .idle, ub := false }) 0
    rfl rfl hmn (by simpa using hb) (by omega)
  rw [hb3]
  simp only
  have hmr : ¬ m = BitVec.ofNat w (0 + r) := by
    rw [← hm, show (BitVec.ofNat w (2 ^ w - 1) = BitVec.ofNat w (0 + r)) ↔ (2 ^ w - 1 = 0 + r) from ofNat_inj_lt (by omega) (by omega)]
    omega
  have hv : b'[r - 1]? = some 1 := by have := hb2 hr0; rwa [Nat.zero_add] at this
  rw [run_getActs rfl]
  simp only [show ∀ c : BitVec w, (dynCfg w n).idx c = c.toNat % n from fun _ => rfl, hmr, if_false, hslot, hv]
  rintro ⟨-, h⟩
  simp only [accepted_append, taken_append, List.nil_append] at h
  have key := h (2 ^ w - 1) 1
  have hinit : (init w n 0 0 : St w Nat) = { head := 0#w, tail := 0#w, buf := List.replicate n 0, ppc := .idle, cpc := .idle, ub := false } := rfl
  have hT : ∀ k, taken (List.replicate k (Ev.putRet 1 true : Ev Nat)) = [] := by
    intro k; induction k with
    | zero => rfl
    | succ k ih => simpa [List.replicate_succ, taken] using ih
  rw [← hinit, q1, q2, hT, show taken [(Ev.putRet 0 true : Ev Nat)] = [] from rfl,
    show taken [Ev.getRet (some 1)] = [some 1] from rfl, show accepted [(Ev.putRet 0 true : Ev Nat)] = [0] from rfl] at key
  rw [List.getElem?_append_right (by simp), List.getElem?_append_right (by simp)] at key
  simp [content, accepted, taken] at key

example := C08_dyn_wrap_violated 32 3 (by decide) (by decide) (by decide)
example := C08_dyn_wrap_violated 32 48000 (by decide) (by decide) (by decide)

/-- **C08, exact condition** a FIFO of capacity `n` delivers in order under every schedule of any length if and only if `n`
divides `2^w`, that is, is a power of two. -/
theorem C08_dyn_fifo_exact (w n : Nat) (h0 : 0 < n) (hn : n < 2 ^ w) :
    (∀ as : List (Act Nat), NoProducerReset as → InOrder [] (run (dynCfg w n) 0 id (init w n 0 0) as).2) ↔ n ∣ 2 ^ w := by
  constructor
  · intro h
    by_cases hd : n ∣ 2 ^ w
    · exact hd
    · refine absurd (h (wrapSchedule w (2 ^ w % n)) ?_) (C08_dyn_wrap_violated w n h0 hn hd)
      intro a ha
      simp only [wrapSchedule, putGetStream, putActs, getActs, List.mem_append, List.mem_flatten, List.mem_flatMap, List.mem_replicate] at ha
      rcases ha with ⟨x, _, h⟩ | h | ⟨l, ⟨_, rfl⟩, h⟩ | h <;> simp at h <;> rintro rfl <;> simp at h
  · intro hd as ha
    exact (C08_dyn_fifo_partial hn 0 id (Nat.zero_le n) as ha (Or.inr hd)).1

example := C08_dyn_fifo_exact 32 48000 (by decide) (by decide)

/-- **C09** `resize(m)` to a different size, while no call is in progress, leaves an empty FIFO of capacity `m`: every
later schedule behaves like a fresh FIFO of that capacity (while fewer than `2^w` items have been written in
total, or for ever if `m` divides `2^w`). -/
theorem C09_resize {w n m : Nat} (hm : m < 2 ^ w) (dflt : T) (mv : T → T) (s : St w T)
    (hb : s.buf.length = n) (hub : s.ub = false)
    (hp : s.ppc = .idle) (hc : s.cpc = .idle) (hne : m ≠ n) (as : List (Act T)) (ha : NoProducerReset as)
    (hlen : s.head.toNat + (accepted (run (dynCfg w m) dflt mv (resize dflt n s m).2 as).2).length < 2 ^ w ∨ m ∣ 2 ^ w) :
    (resize dflt n s m).1 = m ∧
    InOrder [] (run (dynCfg w m) dflt mv (resize dflt n s m).2 as).2 ∧
    (run (dynCfg w m) dflt mv (resize dflt n s m).2 as).1.ub = false ∧
    (∀ es1 es2 x ok, (run (dynCfg w m) dflt mv (resize dflt n s m).2 as).2 = es1 ++ .putRet x ok :: es2 →
      (ok = false → (content [] es1).length = m) ∧ (ok = true → (content [] es1).length < m)) ∧
    (∀ es1 es2 r, (run (dynCfg w m) dflt mv (resize dflt n s m).2 as).2 = es1 ++ .getRet r :: es2 →
      r = (content [] es1).head?) := by
  obtain ⟨s', hs'⟩ : ∃ s', (resize dflt n s m).2 = s' := ⟨_, rfl⟩
  have hn1 : (resize dflt n s m).1 = m := by simp [resize, hne]
  rw [hs'] at hlen ⊢
  have hE : resize dflt n s m = (m, { s with tail := s.head, buf := (if m < n then [] else s.buf) ++ List.replicate (m - (if m < n then [] else s.buf).length) dflt }) := by
    simp [resize, hne]
  rw [hE] at hs'
  simp only at hs'
  -- the earlier items are all skipped
  let hist : List T := List.replicate s.head.toNat dflt
  have hM : Inv m hist [Ev.resetRet (hist.length - 0)] s' := by
    rw [← hs']
    apply Inv_of_memory (s := { s with tail := s.head, buf := (if m < n then [] else s.buf) ++ List.replicate (m - (if m < n then [] else s.buf).length) dflt }) (d := 0) (hist := hist) (by omega) (by omega) hub hp hc
    · simp only
      split
      · simp
      · simp; omega
    · simp [hist]
    · simp [hist]
    · intro i h1 h2; omega
  have hidx : IdxOk (dynCfg w m) (hist ++ accepted ([Ev.resetRet (hist.length - 0)] ++ (run (dynCfg w m) dflt mv s' as).2)).length := by
    rcases hlen with h | h
    · apply dyn_IdxOk_lt; simpa [hist, accepted] using h
    · exact dyn_IdxOk_dvd h
  have hR := run_Inv (dynCfg w m) hm dflt mv as ha hidx hM
  have hdrop : hist.drop (hist.length - 0) = [] := by simp
  have ho := InOrder_skip (start := hist) (k := hist.length - 0) (by omega) (Inv_inOrder hR)
  rw [hdrop] at ho
  have hev : ∀ es1 es2 e, (run (dynCfg w m) dflt mv s' as).2 = es1 ++ e :: es2 →
      ∃ s1 a, Inv m hist (.resetRet (hist.length - 0) :: es1) s1 ∧ (step (dynCfg w m) dflt mv s1 a).2 = [e] := by
    intro es1 es2 e he
    obtain ⟨as1, a, as2, h1, h2, h3⟩ := run_split _ _ _ _ _ _ _ _ he
    refine ⟨_, a, ?_, h3⟩
    have := run_Inv (dynCfg w m) hm dflt mv as1 (fun b hb' => ha b (by rw [h1]; simp [hb'])) ((hidx).mono ?_) hM
    · rw [h2] at this; exact this
    · rw [h2, he, ← List.append_assoc]; exact accepted_mono_len ..
  have hcs : ∀ es, content hist (.resetRet (hist.length - 0) :: es) = content [] es := by
    intro es; rw [content_skip (by omega), hdrop]
  refine ⟨hn1, ho, hR.ub, ?_, ?_⟩
  · intro es1 es2 x ok he
    obtain ⟨s1, a, hI, hs⟩ := hev _ _ _ he
    rw [← hcs]
    constructor
    · rintro rfl; exact core_put_false hm hI hs
    · rintro rfl; exact core_put_true hI hs
  · intro es1 es2 r he
    obtain ⟨s1, a, hI, hs⟩ := hev _ _ _ he
    rw [← hcs]
    cases r with
    | none => rw [core_get_none hm hI hs]; rfl
    | some x => exact (core_get_some hI hs).symm

/-- **C09** `resize` to the current capacity does nothing. -/
theorem C09_resize_same {w n : Nat} (dflt : T) (s : St w T) : resize dflt n s n = (n, s) := by
  simp [resize]

/-! ### the hypotheses are met by non-trivial runs -/

example : NoProducerReset sample ∧ (1 : Nat) < 8 ∧ 0 ≤ 2 ^ 1 ∧
    (run (fixedCfg 8 1) 0 id (init 8 2 0 0) sample).2 =
      [.putRet 1 true, .getRet (some 1), .putRet 2 true, .numFreeCall, .resetCall, .numFreeRet 1, .resetRet 1,
       .numFreeCall, .fullRet false, .numFilledCall, .numFilledRet 0, .removeRet false, .getOrDefaultRet false 0,
       .putRet 3 true] := by
  unfold NoProducerReset
  decide

/-- a full FIFO refusing a put, and one offset FIFO -/
example : (run (fixedCfg 8 1) 0 id (init 8 2 0 1) (putActs 5 ++ putActs 6 ++ getActs)).2 =
    [.putRet 5 true, .putRet 6 false, .getRet (some 0)] := by decide

/-- `set_read_offset` on a state with both threads idle, after 3 items went through a FIFO of capacity 2 -/
example : let r := run (fixedCfg 8 1) 0 id (init 8 2 0 0) (putGetStream [4, 5, 6])
    accepted r.2 = [4, 5, 6] ∧ r.1.ppc = .idle ∧ r.1.cpc = .idle ∧
    (run (fixedCfg 8 1) 0 id (setReadOffset r.1 2#8) (getActs ++ getActs)).2 = [.getRet (some 5), .getRet (some 6)] := by
  decide

/-- run-time sized FIFO of capacity 3 with fewer than 2^8 items, then resized to 5 -/
example : let r := run (dynCfg 8 3) 0 id (init 8 3 0 0) (putActs 1 ++ putActs 2 ++ putActs 3 ++ putActs 4 ++ getActs)
    r.2 = [.putRet 1 true, .putRet 2 true, .putRet 3 true, .putRet 4 false, .getRet (some 1)] ∧
    (0 + (accepted r.2).length < 2 ^ 8) ∧ r.1.buf.length = 3 ∧ r.1.ppc = .idle ∧ r.1.cpc = .idle ∧
    (run (dynCfg 8 5) 0 id (resize 0 3 r.1 5).2 (getActs ++ putActs 9 ++ getActs)).2 =
      [.getRet none, .putRet 9 true, .getRet (some 9)] := by
  decide

end Spsc
