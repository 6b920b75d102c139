import Verif.Lemmas.HandOver
import Verif.Props.SpscWeak
/-!
# C230: data handed over through a FIFO of buffer numbers

`HandOver.run` is the library's FIFO under the C++ memory model together with client buffers that both threads access with plain reads and writes.
-/
namespace HandOver
open Spsc (Cfg Ev IdxOk accepted_append taken_append fixedCfg dynCfg fixed_cap_lt fixed_IdxOk dyn_IdxOk_lt dyn_IdxOk_dvd)
open Spsc.Spec (accepted taken Blind)
open HandOver.Spec
variable {w : Nat} {V : Type}

/-- The calls and steps of the FIFO in a schedule. -/
def fifoActs : List (Act V) → List (SpscWeak.Act Nat)
  | [] => []
  | .fifo a :: as => a :: fifoActs as
  | _ :: as => fifoActs as

theorem run_fifo (cfg : Cfg w) (acq : Bool) (mvf : Nat → Nat) (as : List (Act V)) : ∀ s : Sys w V,
    (run cfg acq mvf s as).1.fifo = (SpscWeak.run cfg acq mvf s.fifo (fifoActs as)).1 ∧
    calls (run cfg acq mvf s as).2 = (SpscWeak.run cfg acq mvf s.fifo (fifoActs as)).2 := by
  induction as with
  | nil => intro s; exact ⟨rfl, rfl⟩
  | cons a as ih =>
    intro s
    obtain ⟨h1, h2⟩ := ih (step cfg acq mvf s a).1
    cases a with
    | fifo a =>
      simp only [run, fifoActs, SpscWeak.run]
      rw [calls_append, h1, h2]
      simp only [step, calls_map, and_self]
    | pWrite c v =>
      simp only [run, fifoActs]
      rw [calls_append, h1, h2]
      simp only [step]
      split <;> simp [calls]
    | cRead c =>
      simp only [run, fifoActs]
      rw [calls_append, h1, h2]
      simp only [step]
      split <;> simp [calls]

theorem fine_of (as : List (Act V)) (h : SpscWeak.NoReset (fifoActs as)) : ∀ a ∈ as, Fine a := by
  induction as with
  | nil => simp
  | cons a as ih =>
    intro b hb
    cases a with
    | fifo a =>
      rcases List.mem_cons.mp hb with rfl | hb
      · rintro he
        cases he
        exact h _ (List.mem_cons_self ..) rfl
      · exact ih (fun x hx => h x (List.mem_cons_of_mem _ hx)) b hb
    | pWrite c v =>
      rcases List.mem_cons.mp hb with rfl | hb
      · exact fun he => by cases he
      · exact ih h b hb
    | cRead c =>
      rcases List.mem_cons.mp hb with rfl | hb
      · exact fun he => by cases he
      · exact ih h b hb

theorem guarded_noReset {as : List (SpscWeak.Act Nat)} (h : SpscWeak.GuardedGets as) : SpscWeak.NoReset as := fun a ha => (h a ha).2.2

/-- **C230 (partial)**: buffers used once each. In every weak-memory execution of `LockFreeFifoSpsc` in which each `get()` is guarded by `num_filled() > 0`, if the producer never writes a buffer
after putting its number and the consumer reads a buffer only after getting its number, then there is no data race, neither on the buffers nor in the FIFO, and every read finds the value
the producer had written when it put the number. Missing: unguarded `get()` (false, see below). -/
theorem C230_once_partial {k : Nat} (hk : k < w) (mvf : Nat → Nat) (v0 : V) (as : List (Act V)) (hg : SpscWeak.GuardedGets (fifoActs as))
    (ho : Once (run (fixedCfg w k) false mvf (init w (2 ^ k) v0) as).2) :
    (run (fixedCfg w k) false mvf (init w (2 ^ k) v0) as).1.race = false ∧
    (run (fixedCfg w k) false mvf (init w (2 ^ k) v0) as).1.fifo.race = false ∧
    AllArrive (fun _ => v0) (run (fixedCfg w k) false mvf (init w (2 ^ k) v0) as).2 := by
  have hr : (run (fixedCfg w k) false mvf (init w (2 ^ k) v0) as).1.fifo.race = false := by
    rw [(run_fifo _ _ _ as _).1]
    exact (SpscWeak.C05_guarded_gets_race_free_partial hk 0 mvf _ hg).1
  have h := run_O (fixedCfg w k) (fixed_cap_lt hk) false mvf v0 as (fine_of as (guarded_noReset hg)) (fixed_IdxOk hk _) ho hr
  exact ⟨h.1.norace hr, hr, h.2⟩

/-- **C230 (partial)**: buffers used in turn. With a FIFO of capacity `2 ^ k` and at least `2 ^ k + 2` buffers used in turn (one being filled, one being read, the rest in the FIFO), in every weak-memory
execution in which each `get()` is guarded by `num_filled() > 0` the producer may refill buffers for ever: there is no data race, and every read of the consumer finds what was sent with the item it took last.
Missing: unguarded `get()` (false, see below). -/
theorem C230_ring_partial {k : Nat} (hk : k < w) (mvf : Nat → Nat) (v0 : V) (M : Nat) (hM : 2 ^ k + 2 ≤ M) (as : List (Act V)) (hg : SpscWeak.GuardedGets (fifoActs as))
    (ho : Ring M (run (fixedCfg w k) false mvf (init w (2 ^ k) v0) as).2) :
    (run (fixedCfg w k) false mvf (init w (2 ^ k) v0) as).1.race = false ∧
    (run (fixedCfg w k) false mvf (init w (2 ^ k) v0) as).1.fifo.race = false ∧
    LastArrives (fun _ => v0) (run (fixedCfg w k) false mvf (init w (2 ^ k) v0) as).2 := by
  have hr : (run (fixedCfg w k) false mvf (init w (2 ^ k) v0) as).1.fifo.race = false := by
    rw [(run_fifo _ _ _ as _).1]
    exact (SpscWeak.C05_guarded_gets_race_free_partial hk 0 mvf _ hg).1
  have h := run_R (fixedCfg w k) (fixed_cap_lt hk) false mvf hM v0 as (fine_of as (guarded_noReset hg)) (fixed_IdxOk hk _) ho hr
  exact ⟨h.1.norace hr, hr, h.2⟩

/-- **C230**, without guards around every call: between the calls of the consumer, it is enough that no `get()`/`get_move()` returned an item that the last `num_filled()` had not announced (for instance, one `num_filled()` and as
many `get_move()` as it announced). -/
theorem C230_announced {k : Nat} (hk : k < w) (mvf : Nat → Nat) (v0 : V) (M : Nat) (hM : 2 ^ k + 2 ≤ M) (as : List (Act V)) (hn : SpscWeak.NoReset (fifoActs as))
    (hidle : (run (fixedCfg w k) false mvf (init w (2 ^ k) v0) as).1.fifo.cpc = .idle)
    (hb : ¬ Blind 0 (calls (run (fixedCfg w k) false mvf (init w (2 ^ k) v0) as).2))
    (ho : Ring M (run (fixedCfg w k) false mvf (init w (2 ^ k) v0) as).2) :
    (run (fixedCfg w k) false mvf (init w (2 ^ k) v0) as).1.race = false ∧
    (run (fixedCfg w k) false mvf (init w (2 ^ k) v0) as).1.fifo.race = false ∧
    LastArrives (fun _ => v0) (run (fixedCfg w k) false mvf (init w (2 ^ k) v0) as).2 := by
  have hr : (run (fixedCfg w k) false mvf (init w (2 ^ k) v0) as).1.fifo.race = false := by
    have e := run_fifo (fixedCfg w k) false mvf as (init w (2 ^ k) v0)
    rw [e.1] at hidle ⊢
    rw [e.2] at hb
    have := (SpscWeak.C05_exact hk 0 mvf _ hn hidle).1
    cases hrr : (SpscWeak.run (fixedCfg w k) false mvf (init w (2 ^ k) v0).fifo (fifoActs as)).1.race with
    | false => rfl
    | true => exact absurd (this.mp hrr) hb
  have h := run_R (fixedCfg w k) (fixed_cap_lt hk) false mvf hM v0 as (fine_of as hn) (fixed_IdxOk hk _) ho hr
  exact ⟨h.1.norace hr, hr, h.2⟩

/-- **C230 (partial)**, for `LockFreeFifoSpscDyn` of any capacity `n`: `n + 2` buffers used in turn, for fewer than `2 ^ w` items (or without limit if `n` divides `2 ^ w`). -/
theorem C230_dyn_ring_partial {n : Nat} (hn : n < 2 ^ w) (mvf : Nat → Nat) (v0 : V) (M : Nat) (hM : n + 2 ≤ M) (as : List (Act V))
    (hlen : (numbers (run (dynCfg w n) false mvf (init w n v0) as).2).length < 2 ^ w ∨ n ∣ 2 ^ w) (hg : SpscWeak.GuardedGets (fifoActs as))
    (ho : Ring M (run (dynCfg w n) false mvf (init w n v0) as).2) :
    (run (dynCfg w n) false mvf (init w n v0) as).1.race = false ∧
    (run (dynCfg w n) false mvf (init w n v0) as).1.fifo.race = false ∧
    LastArrives (fun _ => v0) (run (dynCfg w n) false mvf (init w n v0) as).2 := by
  have e := run_fifo (dynCfg w n) false mvf as (init w n v0)
  have hidx : IdxOk (dynCfg w n) (numbers (run (dynCfg w n) false mvf (init w n v0) as).2).length := by
    rcases hlen with h | h
    · exact dyn_IdxOk_lt h
    · exact dyn_IdxOk_dvd h
  have hr : (run (dynCfg w n) false mvf (init w n v0) as).1.fifo.race = false := by
    rw [e.1]
    refine (SpscWeak.C167_dyn_guarded_partial (n := n) (dflt := 0) (mvf := mvf) (as := fifoActs as) hn ?_ hg).1
    unfold numbers at hlen
    rw [e.2] at hlen
    exact hlen
  have h := run_R (dynCfg w n) hn false mvf hM v0 as (fine_of as (guarded_noReset hg)) hidx ho hr
  exact ⟨h.1.norace hr, hr, h.2⟩

/-- **C230 is violated** by the code as written for an unguarded `get()`: the consumer got the number the producer put, and reading the buffer is a data race. -/
theorem C230_unguarded_violated :
    ∃ as : List (Act Nat), SpscWeak.NoReset (fifoActs as) ∧
      (run (fixedCfg 64 2) false id (init 64 4 0) as).2 = [.wrote 3 7, .fifo (.putRet 3 true), .fifo (.getRet (some 3)), .read 3 7] ∧
      (run (fixedCfg 64 2) false id (init 64 4 0) as).1.race = true :=
  ⟨[.pWrite 3 7, .fifo (.put 3), .fifo (.pStep 0), .fifo (.pStep 0), .fifo (.pStep 0), .fifo (.pStep 0),
    .fifo (.cCall .get), .fifo (.cStep 0), .fifo (.cStep 1), .fifo (.cStep 0), .fifo (.cStep 0), .cRead 3],
    by unfold SpscWeak.NoReset; decide, by decide, by decide⟩

/-! ### Fewer buffers are not enough -/

theorem put_ok {cfg : Cfg w} (hcap : cfg.cap < 2 ^ w) {mvf : Nat → Nat} {tr : List (Ev Nat)} {s : SpscWeak.St w Nat} (h : SpscWeak.Inv cfg.cap tr s) (hidx : IdxOk cfg (accepted tr).length)
    (hp : s.ppc = .idle) (x j : Nat) (hj : s.tv ≤ j) (hjK : j ≤ (taken tr).length) (hA : (accepted tr).length < j + cfg.cap) :
    (SpscWeak.run cfg false mvf s [.put x, .pStep j, .pStep j, .pStep j, .pStep j]).2 = [.putRet x true] ∧
    (SpscWeak.run cfg false mvf s [.put x, .pStep j, .pStep j, .pStep j, .pStep j]).1.ppc = .idle ∧
    (SpscWeak.run cfg false mvf s [.put x, .pStep j, .pStep j, .pStep j, .pStep j]).1.cpc = s.cpc ∧
    (SpscWeak.run cfg false mvf s [.put x, .pStep j, .pStep j, .pStep j, .pStep j]).1.tv = j := by
  have t1 := h.tm.2 j hjK
  have t2 := h.hm.own
  have hKA : (taken tr).length ≤ (accepted tr).length := Nat.le_trans h.Khv h.hvA
  have hi : cfg.idx (BitVec.ofNat w (accepted tr).length) = (accepted tr).length % cfg.cap := hidx _ (Nat.le_refl _)
  have hlt : (accepted tr).length % cfg.cap < s.rEp.length := by rw [h.rlen]; exact Nat.mod_lt _ (by omega)
  have hc : ¬ (BitVec.ofNat w (accepted tr).length - BitVec.ofNat w j = BitVec.ofNat w cfg.cap) := by
    rw [Spsc.ofNat_sub (by omega), Spsc.ofNat_inj_lt _ hcap]
    · omega
    · omega
  simp [SpscWeak.run, SpscWeak.step, SpscWeak.callP, SpscWeak.stepP, hp, hj, t1, t2, hc, hi, hlt]

theorem get_ok {cfg : Cfg w} (hcap : cfg.cap < 2 ^ w) {mvf : Nat → Nat} {tr : List (Ev Nat)} {s : SpscWeak.St w Nat} (h : SpscWeak.Inv cfg.cap tr s) (hidx : IdxOk cfg (accepted tr).length)
    (hp : s.cpc = .idle) (x : Nat) (hx : (accepted tr)[(taken tr).length]? = some x) :
    (SpscWeak.run cfg false mvf s (.cCall .getIfFilled :: List.replicate 6 (.cStep (accepted tr).length))).2 = [.numFilledRet ((accepted tr).length - (taken tr).length), .getRet (some x)] ∧
    (SpscWeak.run cfg false mvf s (.cCall .getIfFilled :: List.replicate 6 (.cStep (accepted tr).length))).1.cpc = .idle ∧
    (SpscWeak.run cfg false mvf s (.cCall .getIfFilled :: List.replicate 6 (.cStep (accepted tr).length))).1.ppc = s.ppc ∧
    (SpscWeak.run cfg false mvf s (.cCall .getIfFilled :: List.replicate 6 (.cStep (accepted tr).length))).1.tv = s.tv := by
  have hlt : (taken tr).length < (accepted tr).length := (List.getElem?_eq_some_iff.mp hx).1
  have t1 := h.hm.2 _ (Nat.le_refl _)
  have t2 := h.tm.own
  have hv := h.hvA
  have hd : (accepted tr).length - (taken tr).length ≤ cfg.cap := by have := h.tvA; have := h.tvK; omega
  have hn : (BitVec.ofNat w (accepted tr).length - BitVec.ofNat w (taken tr).length).toNat = (accepted tr).length - (taken tr).length := by
    rw [Spsc.ofNat_sub (by omega), BitVec.toNat_ofNat]
    exact Nat.mod_eq_of_lt (by omega)
  have hne : ¬ BitVec.ofNat w (taken tr).length = BitVec.ofNat w (accepted tr).length := by
    intro he
    rw [he] at hn
    simp at hn
    omega
  have hi : cfg.idx (BitVec.ofNat w (taken tr).length) = (taken tr).length % cfg.cap := hidx _ (by omega)
  obtain ⟨s1, s2⟩ := h.slots _ (by rw [hp]; simp [SpscWeak.in3]) hlt
  have hsub : ¬ ((accepted tr).length - (taken tr).length = 0) := by omega
  simp [SpscWeak.run, SpscWeak.step, SpscWeak.callC, SpscWeak.stepC, SpscWeak.loadHead, List.replicate, hp, hv, t1, t2, hn, hne, hi, s1, s2, hx, hsub]

theorem run_append (cfg : Cfg w) (acq : Bool) (mvf : Nat → Nat) (as bs : List (Act V)) : ∀ s : Sys w V,
    run cfg acq mvf s (as ++ bs) = ((run cfg acq mvf (run cfg acq mvf s as).1 bs).1, (run cfg acq mvf s as).2 ++ (run cfg acq mvf (run cfg acq mvf s as).1 bs).2) := by
  induction as with
  | nil => intro s; simp [run]
  | cons a as ih => intro s; simp only [List.cons_append, run, ih, List.append_assoc]

theorem run_map (cfg : Cfg w) (acq : Bool) (mvf : Nat → Nat) (as : List (SpscWeak.Act Nat)) : ∀ s : Sys w V,
    run cfg acq mvf s (as.map .fifo) = ({ s with fifo := (SpscWeak.run cfg acq mvf s.fifo as).1 }, (SpscWeak.run cfg acq mvf s.fifo as).2.map .fifo) := by
  induction as with
  | nil => intro s; rfl
  | cons a as ih => intro s; simp [run, SpscWeak.run, ih, step]

/-- fill buffer `c` with `v` and put its number, seeing message `j` of `tail_` -/
def fill (c : Nat) (v : V) (j : Nat) : List (Act V) := .pWrite c v :: [SpscWeak.Act.put c, .pStep j, .pStep j, .pStep j, .pStep j].map .fifo

/-- take the item in the FIFO, seeing the only put so far, and read buffer 0 -/
def takeFirst : List (Act V) := (SpscWeak.Act.cCall .getIfFilled :: List.replicate 6 (.cStep 1)).map .fifo ++ [.cRead 0]

/-- the first item is put, taken and its buffer read; then `n` more items are put -/
def lag (v : V) : Nat → List (Act V)
  | 0 => fill 0 v 0 ++ takeFirst
  | n + 1 => lag v n ++ fill (n + 1) v 1

theorem Ring.snoc {M : Nat} {tr : List (CEv V)} {e : CEv V} (h : Ring M tr)
    (he : match e with
      | .wrote c _ => c = (numbers tr).length % M
      | .fifo (.putRet c true) => c = (numbers tr).length % M
      | .read c _ => (gone tr).getLast? = some (some c)
      | .fifo _ => True) : Ring M (tr ++ [e]) := by
  intro pre e' post hp
  rcases split_snoc hp with ⟨rfl, rfl, _⟩ | ⟨q, h1, _⟩
  · exact he
  · exact h pre e' q h1

theorem fine_fill (c : Nat) (v : V) (j : Nat) : ∀ a ∈ fill c v j, Fine a := by
  intro a ha
  simp only [fill, List.map_cons, List.map_nil, List.mem_cons, List.not_mem_nil, or_false] at ha
  rcases ha with rfl | rfl | rfl | rfl | rfl | rfl <;> exact fun h => by cases h

theorem fill_ok {cfg : Cfg w} (hcap : cfg.cap < 2 ^ w) {mvf : Nat → Nat} {tr : List (CEv V)} {s : Sys w V} (h : FInv cfg tr s) (hidx : IdxOk cfg (numbers tr).length)
    (hp : s.fifo.ppc = .idle) (c : Nat) (v : V) (j : Nat) (hj : s.fifo.tv ≤ j) (hjK : j ≤ (gone tr).length) (hA : (numbers tr).length < j + cfg.cap) :
    (run cfg false mvf s (fill c v j)).2 = [.wrote c v, .fifo (.putRet c true)] ∧
    (run cfg false mvf s (fill c v j)).1.fifo.ppc = .idle ∧ (run cfg false mvf s (fill c v j)).1.fifo.cpc = s.fifo.cpc ∧
    (run cfg false mvf s (fill c v j)).1.fifo.tv = j ∧ (run cfg false mvf s (fill c v j)).1.rEp = s.rEp := by
  obtain ⟨p1, p2, p3, p4⟩ := put_ok hcap (mvf := mvf) h.inv hidx hp c j hj hjK hA
  unfold fill
  rw [run]
  simp only [step, hp]
  rw [run_map]
  simp only
  rw [p1, p2, p3, p4]
  simp

theorem lag_ok {cfg : Cfg w} (hcap : cfg.cap < 2 ^ w) (hc0 : 0 < cfg.cap) {mvf : Nat → Nat} (v0 v : V) (M : Nat) (hM : 0 < M) (hidx : ∀ n, n ≤ cfg.cap + 1 → IdxOk cfg n) (n : Nat) (hn : n ≤ cfg.cap) (hnM : n < M) :
    FInv cfg (run cfg false mvf (init w cfg.cap v0) (lag v n)).2 (run cfg false mvf (init w cfg.cap v0) (lag v n)).1 ∧
    Ring M (run cfg false mvf (init w cfg.cap v0) (lag v n)).2 ∧ (numbers (run cfg false mvf (init w cfg.cap v0) (lag v n)).2).length = n + 1 ∧
    gone (run cfg false mvf (init w cfg.cap v0) (lag v n)).2 = [some 0] ∧ (sent (fun _ => v0) (run cfg false mvf (init w cfg.cap v0) (lag v n)).2)[0]? = some v ∧
    (run cfg false mvf (init w cfg.cap v0) (lag v n)).1.fifo.ppc = .idle ∧ (run cfg false mvf (init w cfg.cap v0) (lag v n)).1.fifo.cpc = .idle ∧
    (run cfg false mvf (init w cfg.cap v0) (lag v n)).1.fifo.tv ≤ 1 ∧ (0 < n → (run cfg false mvf (init w cfg.cap v0) (lag v n)).1.fifo.tv = 1) ∧
    (run cfg false mvf (init w cfg.cap v0) (lag v n)).1.rEp 0 = 2 := by
  induction n with
  | zero =>
    have h0 := init_FInv cfg v0
    obtain ⟨a1, a2, a3, a4, a5⟩ := fill_ok hcap (mvf := mvf) h0 (hidx 0 (by omega)) rfl 0 v 0 (Nat.le_refl _) (Nat.zero_le _) (by simpa [numbers, calls, accepted] using hc0)
    have hf : FInv cfg (run cfg false mvf (init w cfg.cap v0) (fill 0 v 0)).2 (run cfg false mvf (init w cfg.cap v0) (fill 0 v 0)).1 :=
      run_F cfg hcap false mvf v0 _ (fine_fill _ _ _) (by rw [a1]; exact hidx 1 (by omega))
    have hcalls : calls (run cfg false mvf (init w cfg.cap v0) (fill 0 v 0)).2 = [Ev.putRet 0 true] := by rw [a1]; rfl
    have hinv := hf.inv
    rw [hcalls] at hinv
    obtain ⟨g1, g2, g3, g4⟩ := get_ok hcap (mvf := mvf) hinv (hidx 1 (by omega)) a3 0 rfl
    change (SpscWeak.run cfg false mvf _ (.cCall .getIfFilled :: List.replicate 6 (.cStep 1))).2 = [.numFilledRet 1, .getRet (some 0)] at g1
    change (SpscWeak.run cfg false mvf _ (.cCall .getIfFilled :: List.replicate 6 (.cStep 1))).1.cpc = .idle at g2
    change (SpscWeak.run cfg false mvf _ (.cCall .getIfFilled :: List.replicate 6 (.cStep 1))).1.ppc = _ at g3
    change (SpscWeak.run cfg false mvf _ (.cCall .getIfFilled :: List.replicate 6 (.cStep 1))).1.tv = _ at g4
    have hfine : ∀ a ∈ lag v 0, Fine a := by
      intro a ha
      simp only [lag, takeFirst, List.mem_append] at ha
      rcases ha with ha | ha | ha
      · exact fine_fill _ _ _ a ha
      · simp only [List.map_cons, List.mem_cons, List.mem_map] at ha
        rcases ha with rfl | ⟨b, hb, rfl⟩
        · exact fun h => by cases h
        · rw [List.eq_of_mem_replicate hb]; exact fun h => by cases h
      · simp at ha; subst ha; exact fun h => by cases h
    obtain ⟨s1, hs1⟩ : ∃ s1, (run cfg false mvf (init w cfg.cap v0) (fill 0 v 0)).1 = s1 := ⟨_, rfl⟩
    have ht : run cfg false mvf (init w cfg.cap v0) (lag v 0) = ((step cfg false mvf { s1 with fifo := (SpscWeak.run cfg false mvf s1.fifo (.cCall .getIfFilled :: List.replicate 6 (.cStep 1))).1 } (.cRead 0)).1,
        [.wrote 0 v, .fifo (.putRet 0 true), .fifo (.numFilledRet 1), .fifo (.getRet (some 0))] ++ (step cfg false mvf { s1 with fifo := (SpscWeak.run cfg false mvf s1.fifo (.cCall .getIfFilled :: List.replicate 6 (.cStep 1))).1 } (.cRead 0)).2) := by
      rw [lag, takeFirst, run_append, run_append, run_map, a1, g1, hs1]
      simp [run]
    rw [hs1] at a2 a3 a4 a5 g1 g2 g3 g4
    have hst : step cfg false mvf { s1 with fifo := (SpscWeak.run cfg false mvf s1.fifo (.cCall .getIfFilled :: List.replicate 6 (.cStep 1))).1 } (.cRead 0) =
      ({ fifo := (SpscWeak.run cfg false mvf s1.fifo (.cCall .getIfFilled :: List.replicate 6 (.cStep 1))).1, val := s1.val, wEp := s1.wEp,
         race := s1.race || decide ((SpscWeak.run cfg false mvf s1.fifo (.cCall .getIfFilled :: List.replicate 6 (.cStep 1))).1.cknow < s1.wEp 0),
         rEp := fun d => if d = 0 then (SpscWeak.run cfg false mvf s1.fifo (.cCall .getIfFilled :: List.replicate 6 (.cStep 1))).1.cclk else s1.rEp d }, [.read 0 (s1.val 0)]) := by
      simp only [step]
      rw [g2]
    rw [hst] at ht
    have hnum : numbers (run cfg false mvf (init w cfg.cap v0) (lag v 0)).2 = [0] := by rw [ht]; rfl
    have hgone : gone (run cfg false mvf (init w cfg.cap v0) (lag v 0)).2 = [some 0] := by rw [ht]; rfl
    have hF := run_F cfg hcap false mvf v0 (lag v 0) hfine (by rw [hnum]; exact hidx 1 (by omega))
    have hclk := hF.inv.cclk
    change _ = (gone _).length + 1 at hclk
    rw [hgone] at hclk
    refine ⟨hF, ?_, by rw [hnum]; rfl, hgone, ?_, ?_, ?_, ?_, ?_, ?_⟩
    · rw [ht]
      have r0 : Ring M ([] : List (CEv V)) := by intro pre e post he; simp at he
      have r1 := Ring.snoc (e := .wrote 0 v) r0 (by simp [numbers, calls, accepted])
      have r2 := Ring.snoc (e := .fifo (.putRet 0 true)) r1 (by simp [numbers, calls, accepted])
      have r3 := Ring.snoc (e := .fifo (.numFilledRet 1)) r2 trivial
      have r4 := Ring.snoc (e := .fifo (.getRet (some 0))) r3 trivial
      exact Ring.snoc (e := .read 0 (s1.val 0)) r4 (by simp [gone, calls, taken])
    · rw [ht]; simp [sent]
    · rw [ht]; exact g3.trans a2
    · rw [ht]; exact g2
    · rw [ht]; show SpscWeak.St.tv _ ≤ 1; rw [g4, a4]; omega
    · intro h; omega
    · rw [ht] at hclk ⊢; simpa using hclk
  | succ n ih =>
    obtain ⟨i1, i2, i3, i4, i5, i6, i7, i8, i9, i10⟩ := ih (by omega) (by omega)
    obtain ⟨a1, a2, a3, a4, a5⟩ := fill_ok hcap (mvf := mvf) i1 (by rw [i3]; exact hidx _ (by omega)) i6 (n + 1) v 1 i8 (by rw [i4]; simp) (by rw [i3]; omega)
    have hrun : run cfg false mvf (init w cfg.cap v0) (lag v (n + 1)) = ((run cfg false mvf (run cfg false mvf (init w cfg.cap v0) (lag v n)).1 (fill (n + 1) v 1)).1,
        (run cfg false mvf (init w cfg.cap v0) (lag v n)).2 ++ [.wrote (n + 1) v, .fifo (.putRet (n + 1) true)]) := by
      rw [lag, run_append, a1]
    have hfa : ∀ m, ∀ a ∈ lag v m, Fine a := by
      intro m
      induction m with
      | zero =>
        intro a ha
        simp only [lag, takeFirst, List.mem_append] at ha
        rcases ha with ha | ha | ha
        · exact fine_fill _ _ _ a ha
        · simp only [List.map_cons, List.mem_cons, List.mem_map] at ha
          rcases ha with rfl | ⟨b, hb, rfl⟩
          · exact fun h => by cases h
          · rw [List.eq_of_mem_replicate hb]; exact fun h => by cases h
        · simp at ha; subst ha; exact fun h => by cases h
      | succ m ihm =>
        intro a ha
        rcases List.mem_append.mp ha with ha | ha
        · exact ihm a ha
        · exact fine_fill _ _ _ a ha
    have hsp : (run cfg false mvf (init w cfg.cap v0) (lag v n)).2 ++ [CEv.wrote (n + 1) v, .fifo (.putRet (n + 1) true)] =
        ((run cfg false mvf (init w cfg.cap v0) (lag v n)).2 ++ [CEv.wrote (n + 1) v]) ++ [.fifo (.putRet (n + 1) true)] := by simp
    have hnum : (numbers (run cfg false mvf (init w cfg.cap v0) (lag v (n + 1))).2).length = n + 2 := by
      rw [hrun, hsp, numbers_snoc_fifo, (numbers_wrote _ _ _).1]
      simp [i3, accepted]
    refine ⟨run_F cfg hcap false mvf v0 _ (hfa _) (by rw [hnum]; exact hidx _ (by omega)), ?_, hnum, ?_, ?_, ?_, ?_, ?_, ?_, ?_⟩
    · rw [hrun, hsp]
      refine Ring.snoc (Ring.snoc i2 ?_) ?_
      · show n + 1 = _
        rw [i3, Nat.mod_eq_of_lt hnM]
      · show n + 1 = _
        rw [(numbers_wrote _ _ _).1, i3, Nat.mod_eq_of_lt hnM]
    · rw [hrun, hsp, gone_snoc_fifo, (numbers_wrote _ _ _).2, i4]; rfl
    · rw [hrun, hsp, sent_snoc_put, sent_wrote, List.getElem?_append_left (by rw [sent_length, i3]; omega)]
      exact i5
    · rw [hrun]; exact a2
    · rw [hrun]; exact a3.trans i7
    · rw [hrun]; exact Nat.le_of_eq a4
    · intro _; rw [hrun]; exact a4
    · rw [hrun]; simp only; rw [a5]; exact i10

theorem fifoActs_append (as bs : List (Act V)) : fifoActs (as ++ bs) = fifoActs as ++ fifoActs bs := by
  induction as with
  | nil => rfl
  | cons a as ih => cases a <;> simp [fifoActs, ih]

theorem lag_guarded (v : V) (n : Nat) : SpscWeak.GuardedGets (fifoActs (lag v n)) := by
  induction n with
  | zero =>
    intro a ha
    simp [lag, fill, takeFirst, fifoActs, List.replicate] at ha
    rcases ha with rfl | rfl | rfl | rfl <;> simp
  | succ n ih =>
    intro a ha
    rw [lag, fifoActs_append] at ha
    rcases List.mem_append.mp ha with ha | ha
    · exact ih a ha
    · simp [fill, fifoActs] at ha
      rcases ha with rfl | rfl <;> simp

/-- **C230, exactly how many**: with `2 ^ k + 1` or fewer buffers used in turn there is an execution, also with every `get()` guarded, in which the producer overwrites the buffer the consumer is still reading:
a data race, and the consumer finds something else than what was sent. So `2 ^ k + 2` is the least number of buffers for which `C230_ring_partial` holds. -/
theorem C230_too_few {k : Nat} (hk : k < w) (mvf : Nat → Nat) (v0 v v' : V) (hv : v ≠ v') (M : Nat) (hM : 0 < M) (hM2 : M ≤ 2 ^ k + 1) :
    ∃ as : List (Act V), SpscWeak.GuardedGets (fifoActs as) ∧
      Ring M (run (fixedCfg w k) false mvf (init w (2 ^ k) v0) as).2 ∧
      (run (fixedCfg w k) false mvf (init w (2 ^ k) v0) as).1.race = true ∧
      ¬ LastArrives (fun _ => v0) (run (fixedCfg w k) false mvf (init w (2 ^ k) v0) as).2 := by
  obtain ⟨i1, i2, i3, i4, i5, i6, i7, i8, _, i10⟩ := lag_ok (cfg := fixedCfg w k) (fixed_cap_lt hk) (Nat.pow_pos (by omega)) (mvf := mvf) v0 v M hM (fun n _ => fixed_IdxOk hk n) (M - 1) (by show _ ≤ 2 ^ k; omega) (by omega)
  have hA : M - 1 + 1 = M := by omega
  rw [hA] at i3
  change FInv _ (run _ _ _ (init w (2 ^ k) v0) _).2 (run _ _ _ (init w (2 ^ k) v0) _).1 at i1
  change Ring M (run _ _ _ (init w (2 ^ k) v0) _).2 at i2
  change (numbers (run _ _ _ (init w (2 ^ k) v0) _).2).length = M at i3
  change gone (run _ _ _ (init w (2 ^ k) v0) _).2 = _ at i4
  change (sent _ (run _ _ _ (init w (2 ^ k) v0) _).2)[0]? = _ at i5
  change (run _ _ _ (init w (2 ^ k) v0) _).1.fifo.ppc = _ at i6
  change (run _ _ _ (init w (2 ^ k) v0) _).1.fifo.cpc = _ at i7
  change (run _ _ _ (init w (2 ^ k) v0) _).1.fifo.tv ≤ _ at i8
  change (run _ _ _ (init w (2 ^ k) v0) _).1.rEp 0 = _ at i10
  have hrun : run (fixedCfg w k) false mvf (init w (2 ^ k) v0) (lag v (M - 1) ++ [.pWrite 0 v', .cRead 0]) =
      ((run (fixedCfg w k) false mvf (init w (2 ^ k) v0) (lag v (M - 1) ++ [.pWrite 0 v', .cRead 0])).1, (run (fixedCfg w k) false mvf (init w (2 ^ k) v0) (lag v (M - 1))).2 ++ [.wrote 0 v'] ++ [.read 0 v']) ∧
      (run (fixedCfg w k) false mvf (init w (2 ^ k) v0) (lag v (M - 1) ++ [.pWrite 0 v', .cRead 0])).1.race = true := by
    have hpk := i1.inv.pk
    constructor
    · refine Prod.ext rfl ?_
      rw [run_append]
      simp [run, step, i6, i7]
    · rw [run_append]
      have : (run (fixedCfg w k) false mvf (init w (2 ^ k) v0) (lag v (M - 1))).1.fifo.pknow < 2 := by omega
      simp [run, step, i6, i7, i10, this]
  refine ⟨lag v (M - 1) ++ [.pWrite 0 v', .cRead 0], ?_, ?_, hrun.2, ?_⟩
  · rw [fifoActs_append]
    simpa [fifoActs] using lag_guarded v (M - 1)
  · rw [hrun.1]
    refine Ring.snoc (Ring.snoc i2 ?_) ?_
    · show 0 = _
      rw [i3, Nat.mod_self]
    · show (gone _).getLast? = _
      rw [(numbers_wrote _ _ _).2, i4]; rfl
  · rw [hrun.1]
    intro hl
    have := hl _ 0 v' [] rfl
    rw [(numbers_wrote _ _ _).2, i4, sent_wrote] at this
    simp only [List.length_singleton, Nat.sub_self] at this
    rw [i5] at this
    exact hv (by simpa using this)

/-- Buffers in turn: three buffers for a FIFO of capacity 1, filled twice round while the consumer reads along; stale values of the counters are seen on the way. -/
example : let as : List (Act Nat) :=
    (fill 0 10 0 ++ [.pWrite 1 11] ++ takeFirst ++ fill 1 12 1 ++ (SpscWeak.Act.cCall .getIfFilled :: List.replicate 6 (.cStep 2)).map .fifo ++ [.pWrite 2 13, .cRead 1] ++ fill 2 14 2 ++
    (SpscWeak.Act.cCall .getIfFilled :: List.replicate 6 (.cStep 3)).map .fifo ++ fill 0 15 3 ++ [.cRead 2])
    SpscWeak.GuardedGets (fifoActs as) ∧
    (run (fixedCfg 8 0) false id (init 8 1 0) as).2 = [.wrote 0 10, .fifo (.putRet 0 true), .wrote 1 11, .fifo (.numFilledRet 1), .fifo (.getRet (some 0)), .read 0 10, .wrote 1 12, .fifo (.putRet 1 true),
      .fifo (.numFilledRet 1), .fifo (.getRet (some 1)), .wrote 2 13, .read 1 12, .wrote 2 14, .fifo (.putRet 2 true), .fifo (.numFilledRet 1), .fifo (.getRet (some 2)), .wrote 0 15, .fifo (.putRet 0 true), .read 2 14] ∧
    (run (fixedCfg 8 0) false id (init 8 1 0) as).1.race = false := by
  unfold SpscWeak.GuardedGets
  decide

/-- and that trace keeps the rules for three buffers -/
example : Ring 3 ([.wrote 0 10, .fifo (.putRet 0 true), .wrote 1 11, .fifo (.numFilledRet 1), .fifo (.getRet (some 0)), .read 0 10, .wrote 1 12, .fifo (.putRet 1 true),
      .fifo (.numFilledRet 1), .fifo (.getRet (some 1)), .wrote 2 13, .read 1 12] : List (CEv Nat)) := by
  have r0 : Ring 3 ([] : List (CEv Nat)) := by intro pre e post he; simp at he
  have r1 := Ring.snoc (e := .wrote 0 10) r0 (by simp [numbers, calls, accepted])
  have r2 := Ring.snoc (e := .fifo (.putRet 0 true)) r1 (by simp [numbers, calls, accepted])
  have r3 := Ring.snoc (e := .wrote 1 11) r2 (by simp [numbers, calls, accepted])
  have r4 := Ring.snoc (e := .fifo (.numFilledRet 1)) r3 trivial
  have r5 := Ring.snoc (e := .fifo (.getRet (some 0))) r4 trivial
  have r6 := Ring.snoc (e := .read 0 10) r5 (by simp [gone, calls, taken])
  have r7 := Ring.snoc (e := .wrote 1 12) r6 (by simp [numbers, calls, accepted])
  have r8 := Ring.snoc (e := .fifo (.putRet 1 true)) r7 (by simp [numbers, calls, accepted])
  have r9 := Ring.snoc (e := .fifo (.numFilledRet 1)) r8 trivial
  have r10 := Ring.snoc (e := .fifo (.getRet (some 1))) r9 trivial
  have r11 := Ring.snoc (e := .wrote 2 13) r10 (by simp [numbers, calls, accepted])
  exact Ring.snoc (e := .read 1 12) r11 (by simp [gone, calls, taken])

/-- buffers used once: numbers in any order -/
example : Once ([.wrote 5 1, .wrote 2 1, .fifo (.putRet 5 true), .wrote 2 2, .fifo (.getRet (some 5)), .fifo (.putRet 2 true), .read 5 1] : List (CEv Nat)) ∧
    ¬ Once ([.fifo (.putRet 5 true), .wrote 5 1] : List (CEv Nat)) := by
  constructor
  · have snoc : ∀ {tr : List (CEv Nat)} {e : CEv Nat}, Once tr → (match e with | .wrote c _ => c ∉ numbers tr | .read c _ => some c ∈ gone tr | .fifo _ => True) → Once (tr ++ [e]) := by
      intro tr e h he pre e' post hp
      rcases split_snoc hp with ⟨rfl, rfl, _⟩ | ⟨q, h1, _⟩
      · cases e' <;> exact he
      · exact h pre e' q h1
    have r0 : Once ([] : List (CEv Nat)) := by intro pre e post he; simp at he
    have r1 := snoc (e := .wrote 5 1) r0 (by simp [numbers, calls, accepted])
    have r2 := snoc (e := .wrote 2 1) r1 (by simp [numbers, calls, accepted])
    have r3 := snoc (e := .fifo (.putRet 5 true)) r2 trivial
    have r4 := snoc (e := .wrote 2 2) r3 (by simp [numbers, calls, accepted])
    have r5 := snoc (e := .fifo (.getRet (some 5))) r4 trivial
    have r6 := snoc (e := .fifo (.putRet 2 true)) r5 trivial
    exact snoc (e := .read 5 1) r6 (by simp [gone, calls, taken])
  · intro h
    have := h [.fifo (.putRet 5 true)] (.wrote 5 1) [] rfl
    simp [numbers, calls, accepted] at this

end HandOver
