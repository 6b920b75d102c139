import Verif.Lemmas.SpscSeq
/-! Delay line, repositioning, resizing, and the wrap-around of the run-time sized FIFO. -/
namespace Spsc
open Spec
variable {w : Nat} {T : Type}

theorem IdxOk.mono {cfg : Cfg w} {n m : Nat} (h : IdxOk cfg m) (hnm : n ≤ m) : IdxOk cfg n :=
  fun i hi => h i (by omega)

theorem fixed_IdxOk {w k : Nat} (hk : k < w) (n : Nat) : IdxOk (fixedCfg w k) n := fun i _ => fixed_idx hk i

theorem dyn_IdxOk_lt {w c n : Nat} (h : n < 2 ^ w) : IdxOk (dynCfg w c) n := by
  intro i hi
  simp only [dynCfg, BitVec.toNat_ofNat]
  rw [Nat.mod_eq_of_lt (a := i) (by omega)]

theorem dyn_IdxOk_dvd {w c n : Nat} (h : c ∣ 2 ^ w) : IdxOk (dynCfg w c) n := by
  intro i hi
  simp only [dynCfg, BitVec.toNat_ofNat]
  exact Nat.mod_mod_of_dvd i h

theorem fixed_cap_lt {w k : Nat} (hk : k < w) : (fixedCfg w k).cap < 2 ^ w :=
  Nat.pow_lt_pow_right (a := 2) (by omega) hk

/-! sequential use -/

theorem noReset_putActs (x : T) : NoProducerReset (putActs x) := by
  intro a ha; simp [putActs] at ha; rcases ha with rfl | rfl <;> simp
theorem noReset_getActs : NoProducerReset (getActs (T := T)) := by
  intro a ha; simp [getActs] at ha; rcases ha with rfl | rfl <;> simp

/-- an uninterrupted `put` when there is room -/
theorem seq_put {cfg : Cfg w} (hcap : cfg.cap < 2 ^ w) {dflt : T} {mv : T → T} {s : St w T} {start : List T}
    {tr : List (Ev T)} (x : T) (h : Inv cfg.cap start tr s) (hp : s.ppc = .idle)
    (hidx : IdxOk cfg (start ++ accepted tr).length)
    (hroom : (content start tr).length < cfg.cap) :
    (run cfg dflt mv s (putActs x)).2 = [.putRet x true] ∧ (run cfg dflt mv s (putActs x)).1.ppc = .idle ∧
      (run cfg dflt mv s (putActs x)).1.cpc = s.cpc := by
  rw [run_putActs x hp]
  rw [content_length] at hroom
  have h1 : ¬ s.head - s.tail = BitVec.ofNat w cfg.cap := by
    rw [h.head, h.tail, ofNat_sub h.ka, ofNat_inj_lt (by omega) hcap]; omega
  have h2 : cfg.idx s.head < s.buf.length := by
    rw [h.head, hidx _ (Nat.le_refl _), h.buflen]; exact Nat.mod_lt _ (by omega)
  rw [if_neg h1, if_pos h2]
  exact ⟨rfl, hp, rfl⟩

/-- an uninterrupted `get` when there is an item -/
theorem seq_get {cfg : Cfg w} (hcap : cfg.cap < 2 ^ w) {dflt : T} {mv : T → T} {s : St w T} {start : List T}
    {tr : List (Ev T)} (h : Inv cfg.cap start tr s) (hp : s.cpc = .idle)
    (hidx : IdxOk cfg (start ++ accepted tr).length)
    (hne : content start tr ≠ []) :
    ∃ x, (content start tr).head? = some x ∧
    (run cfg dflt mv s getActs).2 = [.getRet (some x)] ∧ (run cfg dflt mv s getActs).1.cpc = .idle ∧
      (run cfg dflt mv s getActs).1.ppc = s.ppc := by
  have hpos : 0 < (content start tr).length := List.length_pos_iff.mpr hne
  rw [content_length] at hpos
  have hak := h.ak
  have hsl := h.slots (taken tr).length (by rw [hp]; exact Nat.le_refl _) (by omega)
  have hx : (start ++ accepted tr)[(taken tr).length]? =
      some ((start ++ accepted tr)[(taken tr).length]'(by omega)) := by simp
  generalize (start ++ accepted tr)[(taken tr).length]'(by omega) = x at hx
  refine ⟨x, head_of_drop hx, ?_⟩
  rw [run_getActs hp]
  have h1 : ¬ s.tail = s.head := by
    rw [h.head, h.tail, ofNat_eq_iff h.ka (by omega)]; omega
  have h2 : s.buf[cfg.idx s.tail]? = some x := by
    rw [h.tail, hidx _ (by omega), hsl, hx]
  rw [if_neg h1, h2]
  exact ⟨rfl, hp, rfl⟩

theorem NoProducerReset.append {as bs : List (Act T)} (ha : NoProducerReset as) (hb : NoProducerReset bs) :
    NoProducerReset (as ++ bs) := by
  intro a h; rcases List.mem_append.mp h with h | h
  · exact ha a h
  · exact hb a h

/-- One `put` then one `get`, for each item of a stream. -/
def putGetStream (xs : List T) : List (Act T) := xs.flatMap fun x => putActs x ++ getActs

/-- One `get` then one `put`, for each item of a stream. -/
def getPutStream (xs : List T) : List (Act T) := xs.flatMap fun x => getActs ++ putActs x

theorem content_put (start : List T) (tr : List (Ev T)) (x : T) (h : (taken tr).length ≤ (start ++ accepted tr).length) :
    content start (tr ++ [.putRet x true]) = content start tr ++ [x] := by
  unfold content
  simp only [accepted_append, taken_append]
  have : taken [Ev.putRet x true] = [] := rfl
  rw [this, List.append_nil]
  have : accepted [Ev.putRet x true] = [x] := rfl
  rw [this, ← List.append_assoc, List.drop_append_of_le_length h]

theorem content_get (start : List T) (tr : List (Ev T)) (x : T) :
    content start (tr ++ [.getRet (some x)]) = (content start tr).tail := by
  unfold content
  simp only [accepted_append, taken_append]
  have : accepted [Ev.getRet (some x)] = [] := rfl
  rw [this, List.append_nil]
  have : taken [Ev.getRet (some x)] = [some x] := rfl
  rw [this, List.length_append]; simp [List.tail_drop]

theorem putGet_ok {cfg : Cfg w} (hcap : cfg.cap < 2 ^ w) {dflt : T} {mv : T → T} (xs : List T) :
    ∀ {s : St w T} {start : List T} {tr : List (Ev T)}, Inv cfg.cap start tr s → s.ppc = .idle → s.cpc = .idle →
    IdxOk cfg ((start ++ accepted tr).length + xs.length) → (content start tr).length < cfg.cap →
    accepted (run cfg dflt mv s (putGetStream xs)).2 = xs ∧
    taken (run cfg dflt mv s (putGetStream xs)).2 = ((content start tr ++ xs).take xs.length).map some := by
  induction xs with
  | nil => intro s start tr h _ _ _ _; simp [putGetStream, run, accepted, taken]
  | cons x xs ih =>
    intro s start tr h hp hc hidx hlt
    have hE : putGetStream (x :: xs) = putActs x ++ (getActs ++ putGetStream xs) := by simp [putGetStream]
    have hidx0 : IdxOk cfg (start ++ accepted tr).length := hidx.mono (by omega)
    obtain ⟨p1, p2, p3⟩ := seq_put hcap (dflt := dflt) (mv := mv) x h hp hidx0 hlt
    have hlen1 : (start ++ accepted (tr ++ [Ev.putRet x true])).length = (start ++ accepted tr).length + 1 := by
      simp [accepted]; omega
    have I1 := run_Inv cfg hcap dflt mv (putActs x) (noReset_putActs x)
      (by rw [p1, hlen1]; exact hidx.mono (by simp)) h
    rw [p1] at I1
    have hne : content start (tr ++ [Ev.putRet x true]) ≠ [] := by
      rw [content_put _ _ _ h.ka]; simp
    obtain ⟨y, hy, g1, g2, g3⟩ := seq_get hcap (dflt := dflt) (mv := mv) I1 (by rw [p3, hc])
      (by rw [hlen1]; exact hidx.mono (by simp)) hne
    have hlen2 : (start ++ accepted (tr ++ [Ev.putRet x true] ++ [Ev.getRet (some y)])).length =
        (start ++ accepted tr).length + 1 := by
      simp [accepted]; omega
    have I2 := run_Inv cfg hcap dflt mv getActs noReset_getActs
      (by rw [g1, hlen2]; exact hidx.mono (by simp)) I1
    rw [g1] at I2
    have hcont : content start (tr ++ [Ev.putRet x true] ++ [Ev.getRet (some y)]) = (content start tr ++ [x]).tail := by
      rw [content_get, content_put _ _ _ h.ka]
    obtain ⟨q1, q2⟩ := ih I2 (by rw [g3, p2]) g2 (by rw [hlen2]; exact hidx.mono (by simp; omega))
      (by rw [hcont]; simp; omega)
    rw [hE, run_append, p1]
    simp only
    rw [run_append, g1]
    simp only [accepted_append, taken_append]
    rw [q1, q2, hcont]
    rw [content_put _ _ _ h.ka] at hy
    refine ⟨by simp [accepted], ?_⟩
    have hrot : content start tr ++ x :: xs = y :: ((content start tr ++ [x]).tail ++ xs) := by
      cases hcs : content start tr with
      | nil => rw [hcs] at hy; simp at hy; simp [hy]
      | cons z zs => rw [hcs] at hy; simp at hy; simp [hy]
    rw [hrot]; simp [taken]

theorem getPut_ok {cfg : Cfg w} (hcap : cfg.cap < 2 ^ w) {dflt : T} {mv : T → T} (xs : List T) :
    ∀ {s : St w T} {start : List T} {tr : List (Ev T)}, Inv cfg.cap start tr s → s.ppc = .idle → s.cpc = .idle →
    IdxOk cfg ((start ++ accepted tr).length + xs.length) → content start tr ≠ [] →
    accepted (run cfg dflt mv s (getPutStream xs)).2 = xs ∧
    taken (run cfg dflt mv s (getPutStream xs)).2 = ((content start tr ++ xs).take xs.length).map some := by
  induction xs with
  | nil => intro s start tr h _ _ _ _; simp [getPutStream, run, accepted, taken]
  | cons x xs ih =>
    intro s start tr h hp hc hidx hne
    have hE : getPutStream (x :: xs) = getActs ++ (putActs x ++ getPutStream xs) := by simp [getPutStream]
    have hidx0 : IdxOk cfg (start ++ accepted tr).length := hidx.mono (by omega)
    obtain ⟨y, hy, g1, g2, g3⟩ := seq_get hcap (dflt := dflt) (mv := mv) h hc hidx0 hne
    have hlen1 : (start ++ accepted (tr ++ [Ev.getRet (some y)])).length = (start ++ accepted tr).length := by
      simp [accepted]
    have I1 := run_Inv cfg hcap dflt mv getActs noReset_getActs (by rw [g1, hlen1]; exact hidx0) h
    rw [g1] at I1
    have hlt : (content start (tr ++ [Ev.getRet (some y)])).length < cfg.cap := by
      rw [content_get]
      have := Inv_content_len h
      have : 0 < (content start tr).length := List.length_pos_iff.mpr hne
      simp; omega
    obtain ⟨p1, p2, p3⟩ := seq_put hcap (dflt := dflt) (mv := mv) x I1 (by rw [g3, hp]) (by rw [hlen1]; exact hidx0) hlt
    have hlen2 : (start ++ accepted (tr ++ [Ev.getRet (some y)] ++ [Ev.putRet x true])).length =
        (start ++ accepted tr).length + 1 := by
      simp [accepted]; omega
    have I2 := run_Inv cfg hcap dflt mv (putActs x) (noReset_putActs x)
      (by rw [p1, hlen2]; exact hidx.mono (by simp)) I1
    rw [p1] at I2
    have hcont : content start (tr ++ [Ev.getRet (some y)] ++ [Ev.putRet x true]) = (content start tr).tail ++ [x] := by
      rw [content_put _ _ _ I1.ka, content_get]
    obtain ⟨q1, q2⟩ := ih I2 p2 (by rw [p3, g2]) (by rw [hlen2]; exact hidx.mono (by simp; omega))
      (by rw [hcont]; simp)
    rw [hE, run_append, g1]
    simp only
    rw [run_append, p1]
    simp only [accepted_append, taken_append]
    rw [q1, q2, hcont]
    refine ⟨by simp [accepted], ?_⟩
    have hrot : content start tr ++ x :: xs = y :: ((content start tr).tail ++ [x] ++ xs) := by
      cases hcs : content start tr with
      | nil => exact absurd hcs hne
      | cons z zs => rw [hcs] at hy; simp at hy; simp [hy]
    rw [hrot]; simp [taken]

/-! shifting the starting content -/

theorem InOrder_skip {start : List T} {k : Nat} {es : List (Ev T)} (hk : k ≤ start.length)
    (h : InOrder start (.resetRet k :: es)) : InOrder (start.drop k) es := by
  obtain ⟨h1, h2⟩ := h
  simp only [taken, accepted] at h1 h2
  constructor
  · simp at h1 ⊢; omega
  · intro i x hi
    have := h2 (k + i) x (by rw [List.getElem?_append_right (by simp)]; simpa using hi)
    rw [show start.drop k ++ accepted es = (start ++ accepted es).drop k by
      rw [List.drop_append_of_le_length hk], List.getElem?_drop]
    exact this

theorem content_skip {start : List T} {k : Nat} {es : List (Ev T)} (hk : k ≤ start.length) :
    content start (.resetRet k :: es) = content (start.drop k) es := by
  unfold content
  simp only [taken, accepted]
  rw [show start.drop k ++ accepted es = (start ++ accepted es).drop k by
      rw [List.drop_append_of_le_length hk], List.drop_drop]
  simp

/-- A quiescent memory holding the last `d` of the items `hist` as its content. -/
theorem Inv_of_memory {cap : Nat} {s : St w T} {hist : List T} {d : Nat} (hd : d ≤ cap) (hdh : d ≤ hist.length)
    (hub : s.ub = false) (hp : s.ppc = .idle) (hc : s.cpc = .idle) (hb : s.buf.length = cap)
    (hh : s.head = BitVec.ofNat w hist.length) (ht : s.tail = BitVec.ofNat w (hist.length - d))
    (hsl : ∀ i : Nat, hist.length - d ≤ i → i < hist.length → s.buf[i % cap]? = hist[i]?) :
    Inv cap hist [.resetRet (hist.length - d)] s := by
  unfold Inv
  have e1 : accepted [Ev.resetRet (T := T) (hist.length - d)] = [] := rfl
  have e2 : taken [Ev.resetRet (T := T) (hist.length - d)] = List.replicate (hist.length - d) none := by
    simp [taken]
  rw [e1, e2, List.append_nil, List.length_replicate]
  refine ⟨hub, hb, hh, ht, by omega, by omega, ?_, ?_, by rw [hp]; trivial, by rw [hc]; trivial⟩
  · intro i x hx
    rw [e2, List.getElem?_replicate] at hx
    split at hx <;> simp at hx
  · rw [hc]; exact hsl

/-! The buffer keeps the last `cap` items until they are overwritten (no `get_move`). -/

def isPut3 : PPc w T → Nat
  | .put3 .. => 1
  | _ => 0

def Keep (cap : Nat) (hist : List T) (s : St w T) : Prop :=
  ∀ i : Nat, i < hist.length → hist.length + isPut3 s.ppc ≤ i + cap → s.buf[i % cap]? = hist[i]?

def notMove : CPc w T → Prop
  | .get0 k => k ≠ .move
  | .get1 k _ => k ≠ .move
  | .get2 k _ => k ≠ .move
  | .get3 k _ _ => k ≠ .move
  | _ => True

theorem stepP_Keep (cfg : Cfg w) {start : List T} {tr : List (Ev T)} {s : St w T} (hf : Bool)
    (hidx : IdxOk cfg (start ++ accepted tr).length)
    (h : Inv cfg.cap start tr s) (hk : Keep cfg.cap (start ++ accepted tr) s) :
    Keep cfg.cap (start ++ accepted (tr ++ (stepP cfg hf s).2)) (stepP cfg hf s).1 := by
  have hpi := h.pinv
  unfold stepP
  split
  · simpa using hk
  · next x hp => simpa [Keep, hp, isPut3] using hk
  · next x h' hp =>
    split <;> simpa [Keep, hp, isPut3, accepted] using hk
  · next x h' hp =>
    rw [hp] at hpi
    obtain ⟨h1, h2⟩ := hpi
    have hc : 0 < cfg.cap := by omega
    have hi := hidx _ (Nat.le_refl _)
    have hlt : cfg.idx h' < s.buf.length := by
      rw [h1, hi, h.buflen]; exact Nat.mod_lt _ hc
    rw [if_pos hlt]
    intro i hi1 hi2
    simp only [isPut3, List.append_nil] at hi1 hi2 ⊢
    rw [← hk i hi1 (by rw [hp]; simp only [isPut3]; omega)]
    rw [h1, hi]
    apply List.getElem?_set_ne
    exact (mod_ne_of_lt (by omega) (by omega)).symm
  · next x h' hp =>
    rw [hp] at hpi
    obtain ⟨h1, h2, h3⟩ := hpi
    have e1 : accepted (tr ++ [Ev.putRet x true]) = accepted tr ++ [x] := by simp [accepted]
    rw [e1, ← List.append_assoc]
    intro i hi1 hi2
    simp only [isPut3, List.length_append (as := start ++ accepted tr), List.length_singleton] at hi1 hi2 ⊢
    by_cases hiA : i = (start ++ accepted tr).length
    · subst hiA
      rw [h3]; simp
    · rw [List.getElem?_append_left (by omega)]
      exact hk i (by omega) (by rw [hp]; simp only [isPut3]; omega)
  · next f hp => split <;> simpa [Keep, hp, isPut3] using hk
  · next f h' hp => rw [accepted_append, freeEv_accepted]; simpa [Keep, hp, isPut3] using hk
  · next f h' hp => rw [accepted_append, freeEv_accepted]; simpa [Keep, hp, isPut3] using hk
  · next hp => rw [hp] at hpi; exact hpi.elim
  · next h' hp => rw [hp] at hpi; exact hpi.elim

theorem stepC_Keep (cfg : Cfg w) (dflt : T) (mv : T → T) {start : List T} {tr : List (Ev T)} {s : St w T} (hf : Bool)
    (hm : notMove s.cpc) (hk : Keep cfg.cap (start ++ accepted tr) s) :
    Keep cfg.cap (start ++ accepted (tr ++ (stepC cfg dflt mv hf s).2)) (stepC cfg dflt mv hf s).1 ∧
    notMove (stepC cfg dflt mv hf s).1.cpc := by
  unfold stepC
  split
  · next hp => exact ⟨by simpa using hk, hm⟩
  · next k hp => rw [hp] at hm; exact ⟨by simpa [Keep] using hk, hm⟩
  · next k t hp =>
    rw [hp] at hm
    split
    · refine ⟨?_, trivial⟩
      rw [accepted_append]
      have : accepted [if k = GetKind.orDefault then Ev.getOrDefaultRet false dflt else Ev.getRet none] = [] := by
        split <;> rfl
      rw [this]; simpa [Keep] using hk
    · exact ⟨by simpa [Keep] using hk, hm⟩
  · next k t hp =>
    rw [hp] at hm
    have hm : k ≠ .move := hm
    split
    · rw [if_neg hm]; exact ⟨by simpa [Keep] using hk, hm⟩
    · exact ⟨by simpa [Keep] using hk, by rw [hp]; exact hm⟩
  · next k t x hp =>
    refine ⟨?_, trivial⟩
    rw [accepted_append]
    have : accepted [if k = GetKind.orDefault then Ev.getOrDefaultRet true x else Ev.getRet (some x)] = [] := by
      split <;> rfl
    rw [this]; simpa [Keep] using hk
  · exact ⟨by simpa [Keep] using hk, trivial⟩
  · split
    · exact ⟨by simpa [Keep] using hk, trivial⟩
    · exact ⟨by simpa [Keep, accepted] using hk, trivial⟩
  · exact ⟨by simpa [Keep, accepted] using hk, trivial⟩
  · split <;> exact ⟨by simpa [Keep] using hk, trivial⟩
  · rw [accepted_append, fillEv_accepted]; exact ⟨by simpa [Keep] using hk, trivial⟩
  · rw [accepted_append, fillEv_accepted]; exact ⟨by simpa [Keep] using hk, trivial⟩
  · exact ⟨by simpa [Keep] using hk, trivial⟩
  · exact ⟨by simpa [Keep, accepted] using hk, trivial⟩

theorem step_Keep (cfg : Cfg w) (dflt : T) (mv : T → T) {start : List T} {tr : List (Ev T)} {s : St w T}
    (a : Act T) (ha : a ≠ .pCall .reset) (ha2 : a ≠ .cCall .getMove)
    (hidx : IdxOk cfg (start ++ accepted tr).length) (h : Inv cfg.cap start tr s)
    (hm : notMove s.cpc) (hk : Keep cfg.cap (start ++ accepted tr) s) :
    Keep cfg.cap (start ++ accepted (tr ++ (step cfg dflt mv s a).2)) (step cfg dflt mv s a).1 ∧
    notMove (step cfg dflt mv s a).1.cpc := by
  cases a with
  | pCall op =>
    simp only [step, callP]
    split
    · next hp => cases op <;> exact ⟨by simpa [Keep, hp, isPut3, accepted] using hk, hm⟩
    · exact ⟨by simpa using hk, hm⟩
  | cCall op =>
    simp only [step, callC]
    split
    · next hp =>
      cases op <;> first | exact absurd rfl ha2 | exact ⟨by simpa [Keep, accepted] using hk, by simp [notMove]⟩
    · exact ⟨by simpa using hk, hm⟩
  | pStep hf =>
    refine ⟨stepP_Keep cfg hf hidx h hk, ?_⟩
    have : (stepP cfg hf s).1.cpc = s.cpc := by
      unfold stepP; split <;> (try split) <;> rfl
    simp only [step]; rw [this]; exact hm
  | cStep hf => exact stepC_Keep cfg dflt mv hf hm hk

theorem run_Keep (cfg : Cfg w) (hcap : cfg.cap < 2 ^ w) (dflt : T) (mv : T → T) {start : List T}
    (as : List (Act T)) : ∀ {tr : List (Ev T)} {s : St w T}, NoProducerReset as → (∀ a ∈ as, a ≠ .cCall .getMove) →
    IdxOk cfg (start ++ accepted (tr ++ (run cfg dflt mv s as).2)).length →
    Inv cfg.cap start tr s → notMove s.cpc → Keep cfg.cap (start ++ accepted tr) s →
    Keep cfg.cap (start ++ accepted (tr ++ (run cfg dflt mv s as).2)) (run cfg dflt mv s as).1 := by
  induction as with
  | nil => intro tr s _ _ _ _ _ hk; simpa [run] using hk
  | cons a as ih =>
    intro tr s h1 h2 hidx hI hm hk
    simp only [run] at hidx ⊢
    rw [← List.append_assoc] at hidx ⊢
    have hidx' : IdxOk cfg (start ++ accepted tr).length := by
      apply hidx.mono
      rw [List.append_assoc]
      exact accepted_mono_len ..
    obtain ⟨k1, k2⟩ := step_Keep cfg dflt mv a (h1 a (by simp)) (h2 a (by simp)) hidx' hI hm hk
    exact ih (fun b hb => h1 b (by simp [hb])) (fun b hb => h2 b (by simp [hb])) hidx
      (step_Inv cfg hcap dflt mv a (h1 a (by simp)) hidx' hI) k2 k1

theorem init_Keep (cap : Nat) (dflt : T) (d : Nat) : Keep cap (List.replicate d dflt ++ accepted []) (init w cap dflt d) := by
  intro i h1 h2
  simp [accepted] at h1
  simp only [init, isPut3, accepted, List.append_nil, List.length_replicate] at h2 ⊢
  rw [List.getElem?_replicate, List.getElem?_replicate, if_pos h1, if_pos]
  exact Nat.mod_lt _ (by omega)

/-! running a stream up to the top of the counter range -/

theorem stream_state {dflt : T} {mv : T → T} {n : Nat} (h0 : 0 < n) (hn : n < 2 ^ w) (xs : List T) : ∀ {s : St w T},
    s.ppc = .idle → s.cpc = .idle → s.tail = s.head → s.buf.length = n → s.ub = false →
    ∃ b, b.length = n ∧ (run (dynCfg w n) dflt mv s (putGetStream xs)).1 =
      { s with buf := b, head := s.head + BitVec.ofNat w xs.length, tail := s.head + BitVec.ofNat w xs.length } := by
  induction xs with
  | nil =>
    intro s h1 h2 h3 h4 h5
    exact ⟨s.buf, h4, by
      obtain ⟨hd, tl, buf, ppc, cpc, ub⟩ := s
      simp at h3; subst h3
      simp [putGetStream, run]⟩
  | cons x xs ih =>
    intro s h1 h2 h3 h4 h5
    have hE : putGetStream (x :: xs) = putActs x ++ (getActs ++ putGetStream xs) := by simp [putGetStream]
    have hne3 : ¬ s.head - s.tail = BitVec.ofNat w n := by
      rw [h3, BitVec.sub_self]
      have := (ofNat_inj_lt (w := w) (a := 0) (b := n) (by omega) (by omega))
      rw [this]; omega
    have hlt : ∀ c : BitVec w, (dynCfg w n).idx c < s.buf.length := by
      intro c; rw [h4]; exact Nat.mod_lt _ (by omega)
    have hP := run_putActs (cfg := dynCfg w n) (dflt := dflt) (mv := mv) (s := s) x h1
    rw [show (dynCfg w n).cap = n from rfl] at hP
    rw [if_neg hne3, if_pos (hlt _)] at hP
    rw [hE, run_append, run_append, hP]
    simp only
    have h01 : ¬ s.tail = s.head + 1#w := by
      rw [h3]
      intro hc
      have h0 : (0#w) = 1#w := by
        have := congrArg (fun z => z - s.head) hc
        simp only [BitVec.sub_self] at this
        rw [BitVec.add_comm, BitVec.add_sub_cancel] at this
        exact this
      have := (ofNat_inj_lt (w := w) (a := 0) (b := 1) (by omega) (by omega)).mp h0
      omega
    have hG := run_getActs (cfg := dynCfg w n) (dflt := dflt) (mv := mv)
      (s := { s with buf := s.buf.set ((dynCfg w n).idx s.head) x, head := s.head + 1#w }) h2
    simp only at hG
    rw [if_neg h01, h3, List.getElem?_set_self (hlt _)] at hG
    rw [h3]
    rw [hG]
    simp only
    obtain ⟨b, hb1, hb2⟩ := ih (s := { s with buf := s.buf.set ((dynCfg w n).idx s.head) x, head := s.head + 1#w, tail := s.head + 1#w })
      h1 h2 rfl (by simpa using h4) h5
    refine ⟨b, hb1, ?_⟩
    rw [hb2]
    have : s.head + 1#w + BitVec.ofNat w xs.length = s.head + BitVec.ofNat w (xs.length + 1) := by
      rw [BitVec.add_assoc, BitVec.add_comm 1#w, ofNat_add_one]
    simp [this]

/-- Puts of the same value while there is room: the counter `j` goes up, the last slot written holds the value. -/
theorem puts_state {dflt : T} {mv : T → T} {n : Nat} (hn : n < 2 ^ w) (x : T) (k : Nat) : ∀ {s : St w T} (j : Nat),
    s.ppc = .idle → s.head = BitVec.ofNat w j → s.tail = 0#w - 1#w → s.buf.length = n → j + k < n →
    ∃ b, b.length = n ∧ (0 < k → b[j + k - 1]? = some x) ∧
      run (dynCfg w n) dflt mv s ((List.replicate k (putActs x)).flatten) =
        ({ s with buf := b, head := BitVec.ofNat w (j + k) }, List.replicate k (.putRet x true)) := by
  induction k with
  | zero =>
    intro s j h1 h2 h3 h4 h5
    refine ⟨s.buf, h4, by omega, ?_⟩
    obtain ⟨hd, tl, buf, ppc, cpc, ub⟩ := s
    simp at h2; subst h2
    simp [run]
  | succ k ih =>
    intro s j h1 h2 h3 h4 h5
    have hne : ¬ s.head - s.tail = BitVec.ofNat w n := by
      rw [h2, h3]
      simp only [BitVec.sub_eq_add_neg, BitVec.zero_add, BitVec.neg_neg]
      rw [ofNat_add_one, ofNat_inj_lt (by omega) hn]; omega
    have hi : (dynCfg w n).idx s.head = j := by
      simp only [dynCfg, h2, BitVec.toNat_ofNat]
      rw [Nat.mod_eq_of_lt (a := j) (b := 2 ^ w) (by omega), Nat.mod_eq_of_lt (by omega)]
    have hP := run_putActs (cfg := dynCfg w n) (dflt := dflt) (mv := mv) (s := s) x h1
    rw [show (dynCfg w n).cap = n from rfl, if_neg hne, hi, if_pos (by omega)] at hP
    rw [List.replicate_succ, List.flatten_cons, run_append, hP]
    simp only
    obtain ⟨b, hb1, hb2, hb3⟩ := ih (s := { s with buf := s.buf.set j x, head := s.head + 1#w }) (j + 1)
      h1 (by simp only [h2, ofNat_add_one]) h3 (by simpa using h4) (by omega)
    rw [hb3]
    rcases Nat.eq_zero_or_pos k with hk | hk
    · subst hk
      refine ⟨s.buf.set j x, by simpa using h4, ?_, ?_⟩
      · intro _
        rw [show j + (0 + 1) - 1 = j by omega, List.getElem?_set_self (by omega)]
      · simp [run] at hb3
        simp [hb3]
    · refine ⟨b, hb1, ?_, ?_⟩
      · intro _
        rw [show j + (k + 1) - 1 = j + 1 + k - 1 by omega]
        exact hb2 hk
      · simp [show j + 1 + k = j + (k + 1) by omega, List.replicate_succ]

end Spsc
