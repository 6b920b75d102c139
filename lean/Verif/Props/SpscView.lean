import Verif.Lemmas.SpscView
import Verif.Props.SpscWeak
import Verif.Props.Spsc
import Mathlib.Data.List.Induction
/-!
# Property C233: each thread sees a sequential queue; the two together need not

`acq = false` is the code as written, `acq = true` the variant with an acquire load of `head_` in `get`.
-/
namespace SpscWeak
open Spsc (Ev fixedCfg dynCfg fixed_cap_lt fixed_IdxOk dyn_IdxOk_lt dyn_IdxOk_dvd IdxOk)
open Spsc.Spec
variable {T : Type} [DecidableEq T]

/-- Some order of calls, made one after the other on a queue of capacity `cap`, explains all the producer's calls and all the items the consumer took, each in the order in which they happened. -/
def ProducerExplained (cap : Nat) (es : List (Ev T)) : Prop :=
  ∃ l : List (Ev T), Sequential cap l ∧ l.filter byProducer = es.filter byProducer ∧ l.filter tookOne = es.filter tookOne ∧ ∀ e ∈ l, byProducer e = true ∨ tookOne e = true

/-- The same for all the consumer's calls and all accepted `put`s. -/
def ConsumerExplained (cap : Nat) (es : List (Ev T)) : Prop :=
  ∃ l : List (Ev T), Sequential cap l ∧ l.filter byConsumer = es.filter byConsumer ∧ l.filter putOk = es.filter putOk ∧ ∀ e ∈ l, byConsumer e = true ∨ putOk e = true

/-- Some order of all calls, made one after the other, explains all answers; the calls of each thread keep their order. -/
def Explained (cap : Nat) (es : List (Ev T)) : Prop :=
  ∃ l : List (Ev T), Sequential cap l ∧ l.filter byProducer = es.filter byProducer ∧ l.filter byConsumer = es.filter byConsumer ∧ ∀ e ∈ l, byProducer e = true ∨ byConsumer e = true

theorem view_core {w : Nat} (cfg : Spsc.Cfg w) (hcap : cfg.cap < 2 ^ w) {acq : Bool} (dflt : T) (mvf : T → T) (as : List (Act T)) (ha : NoReset as)
    (hidx : IdxOk cfg (accepted (run cfg acq mvf (init w cfg.cap dflt) as).2).length) :
    ProducerExplained cfg.cap (run cfg acq mvf (init w cfg.cap dflt) as).2 ∧ ConsumerExplained cfg.cap (run cfg acq mvf (init w cfg.cap dflt) as).2 := by
  have h := run_Inv cfg hcap (acq := acq) mvf as (tr := []) (s := init w cfg.cap dflt) hidx ha (init_Inv _ dflt)
  have v := run_VInv cfg hcap (acq := acq) mvf as (tr := []) (s := init w cfg.cap dflt) hidx ha (init_Inv _ dflt) (init_QInv _ dflt) (init_VInv _ dflt)
  rw [List.nil_append] at h v
  have h1 := h.tvK; have h3 := h.Khv; have h4 := h.hvA
  generalize (run cfg acq mvf (init w cfg.cap dflt) as).1 = s at *
  generalize (run cfg acq mvf (init w cfg.cap dflt) as).2 = es at *
  constructor
  · obtain ⟨l, hl⟩ := PView_see (s' := { s with tv := (taken es).length }) h v.took v.pview h1 (Nat.le_refl _)
    refine ⟨l, by unfold Sequential; rw [hl.play]; rfl, hl.prod, ?_, hl.rest⟩
    rw [hl.took, List.take_of_length_le (Nat.le_of_eq (filter_took_length v.took))]
  · obtain ⟨l, hl⟩ := CView_see (s' := { s with hv := (accepted es).length }) h v.cview h4 (Nat.le_refl _)
    refine ⟨l, by unfold Sequential; rw [hl.play]; rfl, hl.cons, ?_, hl.rest⟩
    rw [hl.puts, List.take_of_length_le (Nat.le_refl _), filter_putOk]

/-- **C233 (partial)**: in every weak-memory execution without `reset`, each thread sees a sequential queue: all answers of `put()` and `num_free()` are right for some order of these calls and of the consumer's takes, and all answers of `get()`, `get_move()`,
`remove_first()` and `num_filled()` are right for some order of these calls and of the accepted `put`s; calls of one thread keep their order. Missing: one order for both (false, see `C233_both_violated`). -/
theorem C233_views_partial {w k : Nat} (hk : k < w) (dflt : T) (mvf : T → T) (acq : Bool) (as : List (Act T)) (ha : NoReset as) :
    ProducerExplained (2 ^ k) (run (fixedCfg w k) acq mvf (init w (2 ^ k) dflt) as).2 ∧ ConsumerExplained (2 ^ k) (run (fixedCfg w k) acq mvf (init w (2 ^ k) dflt) as).2 :=
  view_core (fixedCfg w k) (fixed_cap_lt hk) dflt mvf as ha (fixed_IdxOk hk _)

/-- **C233 (partial)** for `LockFreeFifoSpscDyn` of any capacity, with fewer than `2 ^ w` items put (or a capacity dividing `2 ^ w`). -/
theorem C233_dyn_views_partial {w n : Nat} (hn : n < 2 ^ w) (dflt : T) (mvf : T → T) (acq : Bool) (as : List (Act T)) (ha : NoReset as)
    (hlen : (accepted (run (dynCfg w n) acq mvf (init w n dflt) as).2).length < 2 ^ w ∨ n ∣ 2 ^ w) :
    ProducerExplained n (run (dynCfg w n) acq mvf (init w n dflt) as).2 ∧ ConsumerExplained n (run (dynCfg w n) acq mvf (init w n dflt) as).2 :=
  view_core (dynCfg w n) hn dflt mvf as ha (by
    rcases hlen with h | h
    · exact dyn_IdxOk_lt h
    · exact dyn_IdxOk_dvd h)

theorem filter_of_sub {p q : Ev T → Bool} {l es : List (Ev T)} (hq : ∀ e, q e = true → p e = true) (hl : ∀ e ∈ l, p e = true → q e = true) (he : ∀ e ∈ es, p e = true → q e = true)
    (h : l.filter q = es.filter q) : l.filter p = es.filter p := by
  have key : ∀ m : List (Ev T), (∀ e ∈ m, p e = true → q e = true) → m.filter p = m.filter q := by
    intro m hm
    apply List.filter_congr
    intro e hem
    cases hpe : p e with
    | true => exact (hm e hem hpe).symm
    | false =>
      cases hqe : q e with
      | true => rw [hq e hqe] at hpe; cases hpe
      | false => rfl
  rw [key l hl, key es he, h]

/-- **C233 (partial)**: so one order explains everything as long as the producer only learns of success (every `put()` is accepted and `num_free()` is not called), or the consumer does (every `get()`, `get_move()` and `remove_first()` takes an item and `num_filled()` is not called). -/
theorem C233_one_sided_partial {w k : Nat} (hk : k < w) (dflt : T) (mvf : T → T) (acq : Bool) (as : List (Act T)) (ha : NoReset as)
    (h : (∀ e ∈ (run (fixedCfg w k) acq mvf (init w (2 ^ k) dflt) as).2, byProducer e = true → putOk e = true) ∨
      (∀ e ∈ (run (fixedCfg w k) acq mvf (init w (2 ^ k) dflt) as).2, byConsumer e = true → tookOne e = true)) :
    Explained (2 ^ k) (run (fixedCfg w k) acq mvf (init w (2 ^ k) dflt) as).2 := by
  obtain ⟨⟨l, l1, l2, l3, l4⟩, ⟨m, m1, m2, m3, m4⟩⟩ := C233_views_partial hk dflt mvf acq as ha
  generalize (run (fixedCfg w k) acq mvf (init w (2 ^ k) dflt) as).2 = es at *
  have pb : ∀ e : Ev T, putOk e = true → byProducer e = true := by
    intro e he; cases e <;> simp_all [putOk, byProducer]
  have tb : ∀ e : Ev T, tookOne e = true → byConsumer e = true := by
    intro e he; cases e <;> simp_all [tookOne, byConsumer]
  have disj : ∀ e : Ev T, byProducer e = true → byConsumer e = true → False := by
    intro e h1 h2; cases e <;> simp_all [byProducer, byConsumer]
  rcases h with h | h
  · refine ⟨m, m1, ?_, m2, fun e he => ?_⟩
    · refine filter_of_sub pb (fun e he hp => ?_) h m3
      rcases m4 e he with g | g
      · exact (disj e hp g).elim
      · exact g
    · rcases m4 e he with g | g
      · exact .inr g
      · exact .inl (pb e g)
  · refine ⟨l, l1, l2, ?_, fun e he => ?_⟩
    · refine filter_of_sub tb (fun e he hc => ?_) h l3
      rcases l4 e he with g | g
      · exact (disj e g hc).elim
      · exact g
    · rcases l4 e he with g | g
      · exact .inl g
      · exact .inr (tb e g)

/-- all orders of the two lists that keep the order of each -/
def shuffles : List (Ev T) → List (Ev T) → List (List (Ev T))
  | [], ys => [ys]
  | x :: xs, [] => [x :: xs]
  | x :: xs, y :: ys => (shuffles xs (y :: ys)).map (x :: ·) ++ (shuffles (x :: xs) ys).map (y :: ·)
termination_by xs ys => xs.length + ys.length

theorem shuffles_left (x : Ev T) (xs ys l : List (Ev T)) (h : l ∈ shuffles xs ys) : x :: l ∈ shuffles (x :: xs) ys := by
  cases ys with
  | nil =>
    cases xs <;> · simp [shuffles] at h ⊢; exact h
  | cons y ys => rw [shuffles]; exact List.mem_append.mpr (.inl (List.mem_map.mpr ⟨l, h, rfl⟩))

theorem shuffles_right (y : Ev T) (xs ys l : List (Ev T)) (h : l ∈ shuffles xs ys) : y :: l ∈ shuffles xs (y :: ys) := by
  cases xs with
  | nil => simp [shuffles] at h ⊢; exact h
  | cons x xs => rw [shuffles]; exact List.mem_append.mpr (.inr (List.mem_map.mpr ⟨l, h, rfl⟩))

theorem mem_shuffles (l : List (Ev T)) (h : ∀ e ∈ l, byProducer e = true ∨ byConsumer e = true) : l ∈ shuffles (l.filter byProducer) (l.filter byConsumer) := by
  induction l with
  | nil => simp [shuffles]
  | cons e l ih =>
    have ih := ih fun e' h' => h e' (by simp [h'])
    rcases h e (by simp) with g | g
    · have g' : byConsumer e = false := by cases e <;> simp_all [byProducer, byConsumer]
      rw [List.filter_cons_of_pos g, List.filter_cons_of_neg (by simp [g'])]
      exact shuffles_left _ _ _ _ ih
    · have g' : byProducer e = false := by cases e <;> simp_all [byProducer, byConsumer]
      rw [List.filter_cons_of_pos g, List.filter_cons_of_neg (by simp [g'])]
      exact shuffles_right _ _ _ _ ih

/-- **C233 is violated**: with a capacity of 2 and every `get()` guarded by `num_filled() > 0` (so without any data race), the producer can be told that the FIFO is full after the consumer has taken the first item, while the consumer is told that it is empty after the
producer has put the second one. No order of the calls explains both answers. It happens with the code as written and with an acquire load in `get`. -/
theorem C233_both_violated (acq : Bool) : ∃ as : List (Act Nat), GuardedGets as ∧
    (run (fixedCfg 64 1) acq id (init 64 2 0) as).1.race = false ∧
    (run (fixedCfg 64 1) acq id (init 64 2 0) as).2 = [.putRet 5 true, .numFilledRet 1, .getRet (some 5), .putRet 6 true, .putRet 7 false, .numFilledRet 0] ∧
    ¬ Explained 2 (run (fixedCfg 64 1) acq id (init 64 2 0) as).2 := by
  have e : (run (fixedCfg 64 1) acq id (init 64 2 0) [.put 5, .pStep 0, .pStep 0, .pStep 0, .pStep 0, .cCall .getIfFilled, .cStep 1, .cStep 0, .cStep 0, .cStep 1, .cStep 0, .cStep 0,
      .put 6, .pStep 0, .pStep 0, .pStep 0, .pStep 0, .put 7, .pStep 0, .pStep 0, .cCall .getIfFilled, .cStep 1, .cStep 0]).2 =
      [.putRet 5 true, .numFilledRet 1, .getRet (some 5), .putRet 6 true, .putRet 7 false, .numFilledRet 0] := by cases acq <;> decide
  refine ⟨[.put 5, .pStep 0, .pStep 0, .pStep 0, .pStep 0, .cCall .getIfFilled, .cStep 1, .cStep 0, .cStep 0, .cStep 1, .cStep 0, .cStep 0,
      .put 6, .pStep 0, .pStep 0, .pStep 0, .pStep 0, .put 7, .pStep 0, .pStep 0, .cCall .getIfFilled, .cStep 1, .cStep 0], by unfold GuardedGets; decide, by cases acq <;> decide, e, ?_⟩
  rw [e]
  rintro ⟨l, l1, l2, l3, l4⟩
  have hm := mem_shuffles l l4
  rw [l2, l3] at hm
  have all : ∀ l ∈ shuffles (T := Nat) [.putRet 5 true, .putRet 6 true, .putRet 7 false] [.numFilledRet 1, .getRet (some 5), .numFilledRet 0], play 2 [] l = none := by
    simp only [shuffles]
    decide
  have := all l hm
  unfold Sequential at l1
  rw [this] at l1
  cases l1

/-- an execution in which answers are stale and each view is explained; the first order is put 5, put 6 refused, get 5 -/
example := C233_views_partial (w := 64) (k := 0) (by decide) 0 id false
  [.put 5, .pStep 0, .pStep 0, .pStep 0, .pStep 0, .cCall .getIfFilled, .cStep 1, .cStep 0, .cStep 0, .cStep 1, .cStep 0, .cStep 0, .put 6, .pStep 0, .pStep 0] (by unfold NoReset; decide)

example := C233_one_sided_partial (w := 64) (k := 1) (by decide) 0 id false
  [.put 5, .pStep 0, .pStep 0, .pStep 0, .pStep 0, .cCall .getIfFilled, .cStep 0, .cStep 0, .cCall .getIfFilled, .cStep 1, .cStep 0, .cStep 0, .cStep 1, .cStep 0, .cStep 0] (by unfold NoReset; decide)
  (.inl (by decide))

example := C233_dyn_views_partial (w := 64) (n := 3) (by decide) 0 id false
  [.put 5, .pStep 0, .pStep 0, .pStep 0, .pStep 0, .cCall .getIfFilled, .cStep 1, .cStep 0, .cStep 0, .cStep 1, .cStep 0, .cStep 0, .put 6, .pStep 0, .pStep 0] (by unfold NoReset; decide) (.inl (by decide))

end SpscWeak

namespace Spsc
open Spec
variable {T : Type} [DecidableEq T]

theorem content_snoc (start : List T) (p : List (Ev T)) (e : Ev T) (hin : (taken p).length ≤ (start ++ accepted p).length) :
    content start (p ++ [e]) = (content start p ++ accepted [e]).drop (taken [e]).length := by
  unfold content
  rw [accepted_append, taken_append, List.length_append, ← List.drop_drop, ← List.append_assoc, List.drop_append_of_le_length hin]

/-- **C233 (partial)**: under sequentially consistent interleavings (one core, the other side in an interrupt) the transfers take effect in the order in which they return: the answers of `put()`, `get()`, `get_move()`, `get_or_default()` and `remove_first()`, in this order,
are those of a queue that starts with the `d` items of the delay constructor, and what the queue holds at the end is what the FIFO holds. (Histories without `reset()`; for `num_free()` and `num_filled()`, which make two accesses, see C04.) -/
theorem C233_interleaved_partial {w k : Nat} (hk : k < w) (dflt : T) (mv : T → T) {d : Nat} (hd : d ≤ 2 ^ k) (as : List (Act T)) (ha : NoProducerReset as)
    (hr : ∀ n, Ev.resetRet n ∉ (run (fixedCfg w k) dflt mv (init w (2 ^ k) dflt d) as).2) :
    play (2 ^ k) (List.replicate d dflt) ((run (fixedCfg w k) dflt mv (init w (2 ^ k) dflt d) as).2.filter transfer) =
      some (content (List.replicate d dflt) (run (fixedCfg w k) dflt mv (init w (2 ^ k) dflt d) as).2) := by
  have key : ∀ p q : List (Ev T), (run (fixedCfg w k) dflt mv (init w (2 ^ k) dflt d) as).2 = p ++ q →
      (taken p).length ≤ (List.replicate d dflt ++ accepted p).length ∧
      play (2 ^ k) (List.replicate d dflt) (p.filter transfer) = some (content (List.replicate d dflt) p) := by
    intro p
    induction p using List.reverseRecOn with
    | nil => intro q _; exact ⟨by simp [taken], by simp [play, content, accepted, taken]⟩
    | append_singleton p e ih =>
      intro q hq
      rw [List.append_assoc] at hq
      obtain ⟨i1, i2⟩ := ih _ hq
      have hc := content_snoc (List.replicate d dflt) p e i1
      have hlen : (content (List.replicate d dflt) p).length = (List.replicate d dflt ++ accepted p).length - (taken p).length := by simp [content]
      have fin : ∀ (x : Nat), (taken (p ++ [e])).length = (taken p).length + x → x ≤ (content (List.replicate d dflt) p).length + (accepted [e]).length →
          (taken (p ++ [e])).length ≤ (List.replicate d dflt ++ accepted (p ++ [e])).length := by
        intro x h1 h2
        rw [h1, accepted_append, ← List.append_assoc, List.length_append (as := List.replicate d dflt ++ accepted p)]
        omega
      have tk : (taken (p ++ [e])).length = (taken p).length + (taken [e]).length := by rw [taken_append, List.length_append]
      cases e with
      | putRet x ok =>
        obtain ⟨a1, a2⟩ := C02_put_result hk dflt mv hd as ha hq
        refine ⟨fin 0 tk (by simp), ?_⟩
        rw [List.filter_append, SpscWeak.play_append, i2, Option.bind_some, hc]
        cases ok with
        | true => simp [List.filter_cons, transfer, play, a2, accepted, taken]
        | false => simp [List.filter_cons, transfer, play, a1, accepted, taken]
      | getRet r =>
        have a1 := C03_get_result hk dflt mv hd as ha hq
        cases hcc : content (List.replicate d dflt) p with
        | nil =>
          rw [hcc] at a1
          have a1 : r = none := a1
          subst a1
          refine ⟨fin 0 tk (by simp), ?_⟩
          rw [List.filter_append, SpscWeak.play_append, i2, Option.bind_some, hc, hcc]
          simp [List.filter_cons, transfer, play, accepted, taken]
        | cons y ys =>
          rw [hcc] at a1
          have a1 : r = some y := a1
          subst a1
          refine ⟨fin 1 tk (by rw [hcc, List.length_cons]; omega), ?_⟩
          rw [List.filter_append, SpscWeak.play_append, i2, Option.bind_some, hc, hcc]
          simp [List.filter_cons, transfer, play, accepted, taken]
      | getOrDefaultRet b v =>
        obtain ⟨a1, a2⟩ := C03_get_or_default hk dflt mv hd as ha hq
        cases hcc : content (List.replicate d dflt) p with
        | nil =>
          rw [hcc] at a1
          have a1 : b = false := a1
          subst a1
          refine ⟨fin 0 tk (by simp), ?_⟩
          rw [List.filter_append, SpscWeak.play_append, i2, Option.bind_some, hc, hcc]
          simp [List.filter_cons, transfer, play, accepted, taken]
        | cons y ys =>
          rw [hcc] at a1 a2
          have a1 : b = true := a1
          have a2 : v = y := a2
          subst a1 a2
          refine ⟨fin 1 tk (by rw [hcc, List.length_cons]; omega), ?_⟩
          rw [List.filter_append, SpscWeak.play_append, i2, Option.bind_some, hc, hcc]
          simp [List.filter_cons, transfer, play, accepted, taken]
      | removeRet b =>
        have a1 := C03_remove_first hk dflt mv hd as ha hq
        cases hcc : content (List.replicate d dflt) p with
        | nil =>
          rw [hcc] at a1
          have a1 : b = false := a1
          subst a1
          refine ⟨fin 0 tk (by simp), ?_⟩
          rw [List.filter_append, SpscWeak.play_append, i2, Option.bind_some, hc, hcc]
          simp [List.filter_cons, transfer, play, accepted, taken]
        | cons y ys =>
          rw [hcc] at a1
          have a1 : b = true := a1
          subst a1
          refine ⟨fin 1 tk (by rw [hcc, List.length_cons]; omega), ?_⟩
          rw [List.filter_append, SpscWeak.play_append, i2, Option.bind_some, hc, hcc]
          simp [List.filter_cons, transfer, play, accepted, taken]
      | resetRet n => exact absurd (by rw [hq]; simp) (hr n)
      | _ =>
        refine ⟨fin 0 tk (by simp), ?_⟩
        rw [List.filter_append, SpscWeak.play_append, i2, Option.bind_some, hc]
        simp [List.filter_cons, transfer, play, accepted, taken]
  exact (key _ [] (by simp)).2

example := C233_interleaved_partial (w := 8) (k := 1) (by decide) 0 id (d := 0) (by decide) sample2 (by unfold NoProducerReset; decide) (by
  intro n
  rw [show (run (fixedCfg 8 1) 0 id (init 8 (2 ^ 1) 0 0) sample2).2 = [.putRet 5 true, .putRet 6 true, .putRet 7 false, .numFreeCall, .fullRet true, .numFilledCall, .emptyRet false, .numFilledCall, .numFilledRet 2, .getRet (some 5),
    .removeRet true, .numFreeCall, .numFreeRet 2, .putRet 8 true, .getOrDefaultRet true 8] from rfl]
  simp)

end Spsc
