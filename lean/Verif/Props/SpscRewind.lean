import Verif.Spec.SpscRewind
import Verif.Props.Spsc
/-! # Property C254: setting the read offset while the producer is putting -/
namespace Spsc
open Spec
variable {T : Type} {w : Nat}

/-- Without the producer in between it is the plain call. -/
theorem rewind_nil (cfg : Cfg w) (dflt : T) (mv : T → T) (s : St w T) (d : BitVec w) :
    rewind cfg dflt mv s d [] = (setReadOffset s d, []) := by
  by_cases h : d ≤ s.head <;> simp [rewind, setReadOffset, h, run]

theorem onlyPuts_noReset {as : List (Act T)} (h : OnlyPuts as) : NoProducerReset as := by
  intro a ha
  rcases h a ha with ⟨b, rfl⟩ | ⟨x, rfl⟩ <;> simp

theorem finishPut_only (p : PPc w T) : OnlyPuts (finishPut p : List (Act T)) := by
  intro a ha
  cases p <;> simp [finishPut] at ha <;> exact .inl ⟨true, ha⟩

/-- The consumer does nothing and nothing is taken. -/
theorem onlyPuts_run (cfg : Cfg w) (dflt : T) (mv : T → T) (as : List (Act T)) : ∀ (s : St w T), OnlyPuts as → s.ppc ≠ .reset0 →
    (∀ h, s.ppc ≠ .reset1 h) → s.cpc = .idle →
    (run cfg dflt mv s as).1.cpc = .idle ∧ taken (run cfg dflt mv s as).2 = [] := by
  induction as with
  | nil => intro s _ _ _ h; exact ⟨h, rfl⟩
  | cons a as ih =>
    intro s ho h1 h2 h3
    simp only [run]
    have key : (step cfg dflt mv s a).1.cpc = .idle ∧ taken (step cfg dflt mv s a).2 = [] ∧ (step cfg dflt mv s a).1.ppc ≠ .reset0 ∧
        ∀ h, (step cfg dflt mv s a).1.ppc ≠ .reset1 h := by
      rcases ho a (by simp) with ⟨b, rfl⟩ | ⟨x, rfl⟩
      · simp only [step]
        unfold stepP
        cases hp : s.ppc with
        | idle => simp [h3, taken, hp]
        | put0 x => simp [h3, taken]
        | put1 x h => simp only; split <;> simp [h3, taken]
        | put2 x h => simp only; split <;> simp [h3, taken, hp]
        | put3 x h => simp [h3, taken]
        | free0 f => simp only; split <;> simp [h3, taken]
        | freeH f h => simp [h3, freeEv_taken]
        | freeT f h => simp [h3, freeEv_taken]
        | reset0 => exact absurd hp h1
        | reset1 h => exact absurd hp (h2 h)
      · simp only [step]
        unfold callP
        cases hp : s.ppc with
        | idle => simp [h3, taken]
        | reset0 => exact absurd hp h1
        | reset1 h => exact absurd hp (h2 h)
        | _ => simp [h3, taken, hp]
    obtain ⟨k1, k2, k3, k4⟩ := key
    obtain ⟨i1, i2⟩ := ih (step cfg dflt mv s a).1 (fun b hb => ho b (by simp [hb])) k3 k4 k1
    exact ⟨i1, by rw [taken_append, k2, i2]; rfl⟩

/-- Finishing a `put` does not look at the read position. -/
theorem finish_tail (cfg : Cfg w) (dflt : T) (mv : T → T) (s : St w T) (t : BitVec w) :
    run cfg dflt mv { s with tail := t } (finishPut s.ppc) =
      ({ (run cfg dflt mv s (finishPut s.ppc)).1 with tail := t }, (run cfg dflt mv s (finishPut s.ppc)).2) := by
  obtain ⟨hd, tl, buf, ppc, cpc, ub⟩ := s
  cases ppc with
  | put2 x h =>
    by_cases hb : cfg.idx h < buf.length <;> simp [finishPut, run, step, stepP, hb]
  | put3 x h => simp [finishPut, run, step, stepP]
  | _ => rfl

/-- How many items finishing the `put` adds. -/
def inFlight : PPc w T → Nat
  | .put2 .. => 1
  | .put3 .. => 1
  | _ => 0

theorem finish_count (cfg : Cfg w) (dflt : T) (mv : T → T) {start : List T} {tr : List (Ev T)} {s : St w T} (hI : Inv cfg.cap start tr s)
    (hidx : IdxOk cfg (start ++ accepted tr).length) :
    (accepted (run cfg dflt mv s (finishPut s.ppc)).2).length = inFlight s.ppc ∧
    isPut3 (run cfg dflt mv s (finishPut s.ppc)).1.ppc = 0 := by
  have hp := hI.pinv
  have hb := hI.buflen
  obtain ⟨hd, tl, buf, ppc, cpc, ub⟩ := s
  cases ppc with
  | put2 x h =>
    simp only at hb
    simp only [PInv] at hp
    have : cfg.idx h < buf.length := by
      rw [hp.1, hidx _ (Nat.le_refl _), hb]; exact Nat.mod_lt _ (by omega)
    simp [finishPut, run, step, stepP, this, accepted, inFlight, isPut3]
  | put3 x h => simp [finishPut, run, step, stepP, accepted, inFlight, isPut3]
  | idle => simp [finishPut, run, accepted, inFlight, isPut3]
  | put0 x => simp [finishPut, run, accepted, inFlight, isPut3]
  | put1 x h => simp [finishPut, run, accepted, inFlight, isPut3]
  | free0 f => simp [finishPut, run, accepted, inFlight, isPut3]
  | freeH f h => simp [finishPut, run, accepted, inFlight, isPut3]
  | freeT f h => simp [finishPut, run, accepted, inFlight, isPut3]
  | reset0 => exact hp.elim
  | reset1 h => exact hp.elim

/-- What is known of the state in which the read position is stored. -/
theorem rewind_facts {k : Nat} (hk : k < w) (dflt : T) (mv : T → T) (as mid : List (Act T)) (ha : NoProducerReset as)
    (ham : ∀ a ∈ as, a ≠ .cCall .getMove) (hm : OnlyPuts mid) (s1 s2 : St w T) (h1 h2 : List T) (tr2 : List (Ev T))
    (e1 : s1 = (run (fixedCfg w k) dflt mv (init w (2 ^ k) dflt 0) as).1)
    (e2 : h1 = accepted (run (fixedCfg w k) dflt mv (init w (2 ^ k) dflt 0) as).2)
    (e3 : s2 = (run (fixedCfg w k) dflt mv s1 mid).1)
    (e4 : tr2 = (run (fixedCfg w k) dflt mv (init w (2 ^ k) dflt 0) as).2 ++ (run (fixedCfg w k) dflt mv s1 mid).2)
    (e5 : h2 = accepted tr2) (hc : s1.cpc = .idle) :
    s1.head = BitVec.ofNat w h1.length ∧ Inv (2 ^ k) [] tr2 s2 ∧ Keep (2 ^ k) h2 s2 ∧ s2.cpc = .idle ∧ (taken tr2).length ≤ h1.length ∧
      h1.length ≤ h2.length := by
  have hcE : (fixedCfg w k).cap = 2 ^ k := rfl
  have hI1 := run_Inv (fixedCfg w k) (fixed_cap_lt hk) dflt mv (tr := []) as ha (fixed_IdxOk hk _) (init_Inv dflt 0 (by omega))
  have hK1 := run_Keep (fixedCfg w k) (fixed_cap_lt hk) dflt mv (tr := []) as ha ham (fixed_IdxOk hk _)
    (init_Inv dflt 0 (by omega)) (by simp [notMove, init]) (init_Keep (2 ^ k) dflt 0)
  simp only [List.replicate_zero, List.nil_append] at hI1 hK1
  rw [hcE] at hI1 hK1
  rw [← e1] at hI1 hK1
  have hI2 := run_Inv (fixedCfg w k) (fixed_cap_lt hk) dflt mv mid (onlyPuts_noReset hm) (fixed_IdxOk hk _) hI1
  have hK2 := run_Keep (fixedCfg w k) (fixed_cap_lt hk) dflt mv (start := []) mid (onlyPuts_noReset hm)
    (by intro a ha; rcases hm a ha with ⟨b, rfl⟩ | ⟨x, rfl⟩ <;> simp) (fixed_IdxOk hk _) hI1 (by rw [hc]; trivial)
    (by rw [hcE]; exact hK1)
  rw [← e3, ← e4] at hI2 hK2
  rw [hcE] at hK2
  have hp := hI1.pinv
  obtain ⟨c1, c2⟩ := onlyPuts_run (fixedCfg w k) dflt mv mid s1 hm (by intro h; rw [h] at hp; exact hp) (by intro h' h; rw [h] at hp; exact hp) hc
  refine ⟨?_, hI2, ?_, by rw [e3]; exact c1, ?_, ?_⟩
  · have := hI1.head; simpa [← e2] using this
  · rw [e5]; simpa using hK2
  · rw [e4, taken_append, c2, List.append_nil, e2]
    have := hI1.ka; simpa using this
  · rw [e5, e4, accepted_append, e2]; simp

/-- **C254**: the consumer calls `set_read_offset(d)` after any history without `get_move`, with `d` at most the number
of items written (fewer than `2^w`), while the producer makes any `put`s.  If `d` and the items accepted since `head_` was
loaded, including the one of a `put` that has already found room, are together at most `max_size()`, then from then on the
consumer gets the last `d` items of that moment and the later ones, in order. -/
theorem C254_rewind_partial {k : Nat} (hk : k < w) (dflt : T) (mv : T → T) (as mid bs : List (Act T)) (ha : NoProducerReset as)
    (ham : ∀ a ∈ as, a ≠ .cCall .getMove) (hm : OnlyPuts mid) (hb : NoProducerReset bs) (s1 s2 : St w T) (h1 h2 : List T)
    (e1 : s1 = (run (fixedCfg w k) dflt mv (init w (2 ^ k) dflt 0) as).1)
    (e2 : h1 = accepted (run (fixedCfg w k) dflt mv (init w (2 ^ k) dflt 0) as).2)
    (e3 : s2 = (run (fixedCfg w k) dflt mv s1 mid).1) (e4 : h2 = h1 ++ accepted (run (fixedCfg w k) dflt mv s1 mid).2)
    (hc : s1.cpc = .idle) (hna : notAsking s2.ppc = true) (d : Nat) (hd : d ≤ h1.length) (hlen : h1.length < 2 ^ w)
    (hroom : d + (h2.length + (accepted (run (fixedCfg w k) dflt mv s2 (finishPut s2.ppc)).2).length - h1.length) ≤ 2 ^ k) :
    let r := (rewind (fixedCfg w k) dflt mv s1 (BitVec.ofNat w d) mid).1
    InOrder (h2.drop (h1.length - d)) (run (fixedCfg w k) dflt mv r bs).2 ∧
    (run (fixedCfg w k) dflt mv r bs).1.ub = false ∧
    ∀ es1 es2 g, (run (fixedCfg w k) dflt mv r bs).2 = es1 ++ .getRet g :: es2 → g = (content (h2.drop (h1.length - d)) es1).head? := by
  obtain ⟨tr2, et⟩ : ∃ tr2, tr2 = (run (fixedCfg w k) dflt mv (init w (2 ^ k) dflt 0) as).2 ++ (run (fixedCfg w k) dflt mv s1 mid).2 := ⟨_, rfl⟩
  have e5 : h2 = accepted tr2 := by rw [e4, et, accepted_append, e2]
  obtain ⟨f1, hI, hK, f4, f5, f6⟩ := rewind_facts hk dflt mv as mid ha ham hm s1 s2 h1 h2 tr2 e1 e2 e3 et e5 hc
  have hE : (rewind (fixedCfg w k) dflt mv s1 (BitVec.ofNat w d) mid).1 = { s2 with tail := BitVec.ofNat w (h1.length - d) } := by
    have hle : BitVec.ofNat w d ≤ s1.head := by
      rw [f1, BitVec.le_def, BitVec.toNat_ofNat, BitVec.toNat_ofNat, Nat.mod_eq_of_lt hlen, Nat.mod_eq_of_lt (by omega)]
      exact hd
    unfold rewind
    simp only
    rw [if_pos hle, f1, ofNat_sub hd, ← e3]
  rw [hE]
  have hcnt := (finish_count (fixedCfg w k) dflt mv hI (fixed_IdxOk hk _)).1
  rw [hcnt] at hroom
  have hL : ([] ++ accepted tr2 : List T).length = h2.length := by rw [e5]; rfl
  have hM : Inv (2 ^ k) h2 [.resetRet (h1.length - d)] { s2 with tail := BitVec.ofNat w (h1.length - d) } := by
    unfold Inv
    have q1 : accepted [Ev.resetRet (T := T) (h1.length - d)] = [] := rfl
    have q2 : taken [Ev.resetRet (T := T) (h1.length - d)] = List.replicate (h1.length - d) none := by simp [taken]
    rw [q1, q2, List.append_nil, List.length_replicate]
    refine ⟨hI.ub, hI.buflen, ?_, rfl, by omega, by omega, ?_, ?_, ?_, ?_⟩
    · have := hI.head; rw [hL] at this; exact this
    · intro i x hx
      rw [q2, List.getElem?_replicate] at hx
      split at hx <;> simp at hx
    · intro i i1 i2
      rw [f4] at i1
      simp only [lo] at i1
      apply hK i i2
      have : isPut3 s2.ppc ≤ inFlight s2.ppc := by cases s2.ppc <;> simp [isPut3, inFlight]
      omega
    · have hp := hI.pinv
      rw [hL] at hp
      simp only
      cases hpc : s2.ppc with
      | idle => trivial
      | put0 x => trivial
      | put1 x h => rw [hpc] at hp; exact hp
      | put2 x h =>
        rw [hpc] at hp hroom
        simp only [inFlight] at hroom
        exact ⟨hp.1, by omega⟩
      | put3 x h =>
        rw [hpc] at hp hroom
        simp only [inFlight] at hroom
        exact ⟨hp.1, by omega, hp.2.2⟩
      | free0 f => rw [hpc] at hna; cases hna
      | freeH f h => rw [hpc] at hna; cases hna
      | freeT f h => rw [hpc] at hna; cases hna
      | reset0 => rw [hpc] at hp; exact hp.elim
      | reset1 h => rw [hpc] at hp; exact hp.elim
    · rw [f4]; trivial
  have hR := run_Inv (fixedCfg w k) (fixed_cap_lt hk) dflt mv bs hb (fixed_IdxOk hk _) hM
  refine ⟨InOrder_skip (by omega) (Inv_inOrder hR), hR.ub, ?_⟩
  intro es1 es2 g he
  obtain ⟨as1, a, as2, g1, g2, g3⟩ := run_split _ _ _ _ _ _ _ _ he
  have hR1 := run_Inv (fixedCfg w k) (fixed_cap_lt hk) dflt mv as1 (fun b hb' => hb b (by rw [g1]; simp [hb'])) (fixed_IdxOk hk _) hM
  rw [g2] at hR1
  rw [← content_skip (k := h1.length - d) (by omega)]
  cases g with
  | none => have := core_get_none (fixed_cap_lt hk) hR1 g3; simp at this; rw [this]; rfl
  | some x => exact (core_get_some hR1 g3).symm

/-- two items put and taken, then `set_read_offset(1)` while a third is put -/
example := C254_rewind_partial (w := 8) (k := 1) (by decide) 0 id (putActs 1 ++ putActs 2 ++ getActs ++ getActs) (putActs 3) (getActs ++ getActs)
  (by unfold NoProducerReset; decide) (by decide) (by intro a h; simp [putActs] at h; rcases h with h | h <;> simp [h]) (by unfold NoProducerReset; decide)
  _ _ [1, 2] [1, 2, 3] rfl (by decide) rfl (by decide) (by decide) (by decide) 1 (by decide) (by decide) (by decide)

/-- **C254**, exactly: if they are together more than `max_size()` (`d` itself at most `max_size()`), the next `get()`, once
the `put` in progress is through, returns not the item asked for but the one written `max_size()` puts later, which has
overwritten it. -/
theorem C254_rewind_overwritten {k : Nat} (hk : k < w) (dflt : T) (mv : T → T) (as mid : List (Act T)) (ha : NoProducerReset as)
    (ham : ∀ a ∈ as, a ≠ .cCall .getMove) (hm : OnlyPuts mid) (s1 s2 : St w T) (h1 h3 : List T)
    (e1 : s1 = (run (fixedCfg w k) dflt mv (init w (2 ^ k) dflt 0) as).1)
    (e2 : h1 = accepted (run (fixedCfg w k) dflt mv (init w (2 ^ k) dflt 0) as).2)
    (e3 : s2 = (run (fixedCfg w k) dflt mv s1 mid).1)
    (e4 : h3 = h1 ++ accepted (run (fixedCfg w k) dflt mv s1 (mid ++ finishPut s2.ppc)).2)
    (hc : s1.cpc = .idle) (d : Nat) (hd : d ≤ h1.length) (hlen : h1.length < 2 ^ w) (hdk : d ≤ 2 ^ k)
    (hw : k + 1 < w) (hroom : 2 ^ k < d + (h3.length - h1.length)) :
    let r := (rewind (fixedCfg w k) dflt mv s1 (BitVec.ofNat w d) mid).1
    ∃ es x, h3[h1.length - d + 2 ^ k]? = some x ∧
      (run (fixedCfg w k) dflt mv r (finishPut s2.ppc ++ getActs)).2 = es ++ [.getRet (some x)] := by
  have hm3 : OnlyPuts (mid ++ finishPut s2.ppc) := by
    intro a h
    rcases List.mem_append.mp h with h | h
    · exact hm a h
    · exact finishPut_only _ a h
  obtain ⟨s3, es3⟩ : ∃ s3, s3 = (run (fixedCfg w k) dflt mv s1 (mid ++ finishPut s2.ppc)).1 := ⟨_, rfl⟩
  obtain ⟨tr3, et⟩ : ∃ tr3, tr3 = (run (fixedCfg w k) dflt mv (init w (2 ^ k) dflt 0) as).2 ++
    (run (fixedCfg w k) dflt mv s1 (mid ++ finishPut s2.ppc)).2 := ⟨_, rfl⟩
  have e5 : h3 = accepted tr3 := by rw [e4, et, accepted_append, e2]
  obtain ⟨f1, hI, hK, f4, f5, f6⟩ := rewind_facts hk dflt mv as _ ha ham hm3 s1 s3 h1 h3 tr3 e1 e2 es3 et e5 hc
  have hL : ([] ++ accepted tr3 : List T).length = h3.length := by rw [e5]; rfl
  have hA := hI.head
  have hak := hI.ak
  rw [hL] at hA hak
  have hE : (rewind (fixedCfg w k) dflt mv s1 (BitVec.ofNat w d) mid).1 = { s2 with tail := BitVec.ofNat w (h1.length - d) } := by
    have hle : BitVec.ofNat w d ≤ s1.head := by
      rw [f1, BitVec.le_def, BitVec.toNat_ofNat, BitVec.toNat_ofNat, Nat.mod_eq_of_lt hlen, Nat.mod_eq_of_lt (by omega)]
      exact hd
    unfold rewind
    simp only
    rw [if_pos hle, f1, ofNat_sub hd, ← e3]
  have hs3 : (run (fixedCfg w k) dflt mv s2 (finishPut s2.ppc)).1 = s3 := by rw [es3, run_append, ← e3]
  have hput : isPut3 s3.ppc = 0 := by
    have hm2 := rewind_facts hk dflt mv as mid ha ham hm s1 s2 h1 _ _ e1 e2 e3 rfl rfl hc
    have := (finish_count (fixedCfg w k) dflt mv hm2.2.1 (fixed_IdxOk hk _)).2
    rw [hs3] at this
    exact this
  have hidx : h1.length - d + 2 ^ k < h3.length := by omega
  obtain ⟨x, hx⟩ : ∃ x, h3[h1.length - d + 2 ^ k]? = some x := ⟨_, List.getElem?_eq_getElem hidx⟩
  refine ⟨(run (fixedCfg w k) dflt mv s2 (finishPut s2.ppc)).2, x, hx, ?_⟩
  rw [hE, run_append, finish_tail, hs3, run_getActs (by exact f4)]
  simp only
  have hne : ¬ BitVec.ofNat w (h1.length - d) = s3.head := by
    rw [hA]
    intro h
    have := (ofNat_eq_iff (w := w) (a := h3.length) (b := h1.length - d) (by omega) (by
      have hpow : 2 ^ (k + 1) < 2 ^ w := Nat.pow_lt_pow_right (by decide) hw
      rw [Nat.pow_succ] at hpow
      omega)).mp h
    omega
  rw [if_neg hne, fixed_idx hk]
  have hkk := hK (h1.length - d + 2 ^ k) hidx (by rw [hput]; omega)
  rw [Nat.add_mod_right, hx] at hkk
  have hcE : (fixedCfg w k).cap = 2 ^ k := rfl
  rw [hcE, hkk]

/-- the same with an offset of 2, the third `put` having only found room -/
example := C254_rewind_overwritten (w := 8) (k := 1) (by decide) 0 id (putActs 1 ++ putActs 2 ++ getActs ++ getActs)
  [.pCall (.put 3), .pStep true, .pStep true]
  (by unfold NoProducerReset; decide) (by decide) (by intro a h; simp at h; rcases h with h | h <;> simp [h])
  _ _ [1, 2] [1, 2, 3] rfl (by decide) rfl (by decide) (by decide) 2 (by decide) (by decide) (by decide) (by decide) (by decide)

/-- **C254** fails as claimed: a FIFO of two, both items taken; while the consumer sets the read offset to 2, the producer
puts a third item; the consumer then gets the third item first, and `num_filled()` says 3. -/
theorem C254_violated :
    let as : List (Act Nat) := putActs 1 ++ putActs 2 ++ getActs ++ getActs
    let s1 := (run (fixedCfg 8 1) 0 id (init 8 2 0 0) as).1
    let r := (rewind (fixedCfg 8 1) 0 id s1 2#8 (putActs 3)).1
    (run (fixedCfg 8 1) 0 id r ([.cCall .numFilled, .cStep true, .cStep true] ++ getActs ++ getActs ++ getActs)).2 =
      [.numFilledCall, .numFilledRet 3, .getRet (some 3), .getRet (some 2), .getRet (some 3)] := by decide +kernel

end Spsc
