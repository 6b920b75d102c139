import Verif.Lemmas.Spsc
/-! Facts about single steps and about uninterrupted calls. -/
namespace Spsc
open Spec
variable {w : Nat} {T : Type}

/-! ### which step emits which event -/

theorem emit_putRet {cfg : Cfg w} {dflt : T} {mv : T → T} {s : St w T} {a : Act T} {x : T} {b : Bool}
    (h : (step cfg dflt mv s a).2 = [.putRet x b]) :
    (b = false ∧ ∃ h', s.ppc = .put1 x h' ∧ h' - s.tail = BitVec.ofNat w cfg.cap) ∨
    (b = true ∧ ∃ h', s.ppc = .put3 x h') := by
  cases a with
  | pCall op => simp only [step, callP] at h; split at h <;> (try cases op) <;> simp at h
  | cCall op => simp only [step, callC] at h; split at h <;> (try cases op) <;> simp at h
  | cStep hf =>
    simp only [step, stepC] at h
    split at h <;> (try split at h) <;> (try simp [fillEv] at h) <;> (try split at h) <;> simp_all
  | pStep hf =>
    simp only [step, stepP] at h
    split at h <;> (try split at h) <;> (try simp [freeEv] at h) <;> (try split at h) <;> simp_all

theorem emit_getRet {cfg : Cfg w} {dflt : T} {mv : T → T} {s : St w T} {a : Act T} {r : Option T}
    (h : (step cfg dflt mv s a).2 = [.getRet r]) :
    (r = none ∧ ∃ k, s.cpc = .get1 k s.head) ∨ (∃ k t x, r = some x ∧ s.cpc = .get3 k t x) := by
  cases a with
  | pCall op => simp only [step, callP] at h; split at h <;> (try cases op) <;> simp at h
  | cCall op => simp only [step, callC] at h; split at h <;> (try cases op) <;> simp at h
  | pStep hf =>
    simp only [step, stepP] at h
    split at h <;> (try split at h) <;> (try simp [freeEv] at h) <;> (try split at h) <;> simp_all
  | cStep hf =>
    simp only [step, stepC] at h
    split at h <;> (try split at h) <;> (try simp [fillEv] at h) <;> (try split at h) <;> simp_all
    exact ⟨_, _, _, h.symm, rfl, rfl, rfl⟩

theorem emit_getOrDefaultRet {cfg : Cfg w} {dflt : T} {mv : T → T} {s : St w T} {a : Act T} {b : Bool} {v : T}
    (h : (step cfg dflt mv s a).2 = [.getOrDefaultRet b v]) :
    (b = false ∧ v = dflt ∧ ∃ k, s.cpc = .get1 k s.head) ∨ (b = true ∧ ∃ k t, s.cpc = .get3 k t v) := by
  cases a with
  | pCall op => simp only [step, callP] at h; split at h <;> (try cases op) <;> simp at h
  | cCall op => simp only [step, callC] at h; split at h <;> (try cases op) <;> simp at h
  | pStep hf =>
    simp only [step, stepP] at h
    split at h <;> (try split at h) <;> (try simp [freeEv] at h) <;> (try split at h) <;> simp_all
  | cStep hf =>
    simp only [step, stepC] at h
    split at h <;> (try split at h) <;> (try simp [fillEv] at h) <;> (try split at h) <;> simp_all

theorem emit_removeRet {cfg : Cfg w} {dflt : T} {mv : T → T} {s : St w T} {a : Act T} {b : Bool}
    (h : (step cfg dflt mv s a).2 = [.removeRet b]) :
    (b = false ∧ s.cpc = .rem1 s.head) ∨ (b = true ∧ ∃ t, s.cpc = .rem2 t) := by
  cases a with
  | pCall op => simp only [step, callP] at h; split at h <;> (try cases op) <;> simp at h
  | cCall op => simp only [step, callC] at h; split at h <;> (try cases op) <;> simp at h
  | pStep hf =>
    simp only [step, stepP] at h
    split at h <;> (try split at h) <;> (try simp [freeEv] at h) <;> (try split at h) <;> simp_all
  | cStep hf =>
    simp only [step, stepC] at h
    split at h <;> (try split at h) <;> (try simp [fillEv] at h) <;> (try split at h) <;> simp_all

theorem emit_free {cfg : Cfg w} {dflt : T} {mv : T → T} {s : St w T} {a : Act T} {e : Ev T}
    (he : (∃ n, e = .numFreeRet n) ∨ ∃ b, e = .fullRet b)
    (h : (step cfg dflt mv s a).2 = [e]) :
    (∃ f h', s.ppc = .freeH f h' ∧ e = freeEv f (numFreeVal cfg h' s.tail)) ∨
    (∃ f t, s.ppc = .freeT f t ∧ e = freeEv f (numFreeVal cfg s.head t)) := by
  cases a with
  | pCall op => simp only [step, callP] at h; split at h <;> (try cases op) <;> simp at h <;> subst h <;> simp at he
  | cCall op => simp only [step, callC] at h; split at h <;> (try cases op) <;> simp at h <;> subst h <;> simp at he
  | cStep hf =>
    simp only [step, stepC] at h
    split at h <;> (try split at h) <;> (try simp at h) <;> (try subst h) <;> (try (exfalso; revert he; simp [fillEv]; done)) <;>
      (try (exfalso; revert he; split <;> simp; done)) <;> (try (exfalso; revert he; unfold fillEv; split <;> simp; done))
  | pStep hf =>
    simp only [step, stepP] at h
    split at h <;> (try split at h) <;> (try simp at h) <;> (try subst h) <;> (try (simp at he; done))
    · next f h' hp => exact .inl ⟨f, h', hp, rfl⟩
    · next f t hp => exact .inr ⟨f, t, hp, rfl⟩

theorem emit_fill {cfg : Cfg w} {dflt : T} {mv : T → T} {s : St w T} {a : Act T} {e : Ev T}
    (he : (∃ n, e = .numFilledRet n) ∨ ∃ b, e = .emptyRet b)
    (h : (step cfg dflt mv s a).2 = [e]) :
    (∃ f h', s.cpc = .fillH f h' ∧ e = fillEv f (numFilledVal h' s.tail)) ∨
    (∃ f t, s.cpc = .fillT f t ∧ e = fillEv f (numFilledVal s.head t)) := by
  cases a with
  | pCall op => simp only [step, callP] at h; split at h <;> (try cases op) <;> simp at h <;> subst h <;> simp at he
  | cCall op => simp only [step, callC] at h; split at h <;> (try cases op) <;> simp at h <;> subst h <;> simp at he
  | pStep hf =>
    simp only [step, stepP] at h
    split at h <;> (try split at h) <;> (try simp at h) <;> (try subst h) <;>
      (try (exfalso; revert he; simp; done)) <;> (try (exfalso; revert he; unfold freeEv; split <;> simp; done))
  | cStep hf =>
    simp only [step, stepC] at h
    split at h <;> (try split at h) <;> (try simp at h) <;> (try subst h) <;> (try (simp at he; done)) <;>
      (try (exfalso; revert he; split <;> simp; done))
    · next f h' hp => exact .inl ⟨f, h', hp, rfl⟩
    · next f t hp => exact .inr ⟨f, t, hp, rfl⟩

theorem emit_reset {cfg : Cfg w} {dflt : T} {mv : T → T} {s : St w T} {a : Act T} {n : Nat}
    (h : (step cfg dflt mv s a).2 = [.resetRet n]) :
    (∃ h', s.ppc = .reset1 h') ∨ (∃ h', s.cpc = .reset1 h' ∧ n = (h' - s.tail).toNat) := by
  cases a with
  | pCall op => simp only [step, callP] at h; split at h <;> (try cases op) <;> simp at h
  | cCall op => simp only [step, callC] at h; split at h <;> (try cases op) <;> simp at h
  | pStep hf =>
    simp only [step, stepP] at h
    split at h <;> (try split at h) <;> (try simp [freeEv] at h) <;> (try split at h) <;> simp_all
  | cStep hf =>
    simp only [step, stepC] at h
    split at h <;> (try split at h) <;> (try simp [fillEv] at h) <;> (try split at h) <;> simp_all

/-! ### the invariant just before an observed event -/

theorem before_event (cfg : Cfg w) (hcap : cfg.cap < 2 ^ w) (dflt : T) (mv : T → T) {start : List T} {s : St w T}
    (as : List (Act T)) (ha : NoProducerReset as)
    (hidx : IdxOk cfg (start ++ accepted (run cfg dflt mv s as).2).length)
    (h : Inv cfg.cap start [] s) {es1 es2 : List (Ev T)} {e : Ev T}
    (he : (run cfg dflt mv s as).2 = es1 ++ e :: es2) :
    ∃ s1 a, Inv cfg.cap start es1 s1 ∧ (step cfg dflt mv s1 a).2 = [e] := by
  obtain ⟨as1, a, as2, h1, h2, h3⟩ := run_split cfg dflt mv s as es1 es2 e he
  refine ⟨_, a, ?_, h3⟩
  have := run_Inv cfg hcap dflt mv (tr := []) as1 (fun b hb => ha b (by rw [h1]; simp [hb])) ?_ h
  · rw [h2, List.nil_append] at this; exact this
  · intro i hi
    apply hidx
    rw [he]
    rw [h2, List.nil_append] at hi
    exact Nat.le_trans hi (accepted_mono_len ..)

theorem Inv_content_len {cap : Nat} {start : List T} {tr : List (Ev T)} {s : St w T} (h : Inv cap start tr s) :
    (content start tr).length ≤ cap := by
  rw [content_length]; exact h.ak

theorem Inv_inOrder {cap : Nat} {start : List T} {tr : List (Ev T)} {s : St w T} (h : Inv cap start tr s) :
    InOrder start tr := ⟨h.ka, h.order⟩

section
variable {cfg : Cfg w} {dflt : T} {mv : T → T} {start : List T} {tr : List (Ev T)} {s : St w T} {a : Act T}

theorem core_put_false (hcap : cfg.cap < 2 ^ w) (h : Inv cfg.cap start tr s) {x : T}
    (he : (step cfg dflt mv s a).2 = [.putRet x false]) : (content start tr).length = cfg.cap := by
  rcases emit_putRet he with ⟨_, h', hp, heq⟩ | ⟨hb, _⟩
  · have hpi := h.pinv
    rw [hp] at hpi
    have hpi : h' = BitVec.ofNat w _ := hpi
    have hk := h.ak
    rw [hpi, h.tail, ofNat_sub h.ka, ofNat_inj_lt (by omega) (by omega)] at heq
    rw [content_length]; exact heq
  · cases hb

theorem core_put_true (h : Inv cfg.cap start tr s) {x : T}
    (he : (step cfg dflt mv s a).2 = [.putRet x true]) : (content start tr).length < cfg.cap := by
  rcases emit_putRet he with ⟨hb, _⟩ | ⟨_, h', hp⟩
  · cases hb
  · have hpi := h.pinv
    rw [hp] at hpi
    rw [content_length]; exact hpi.2.1

theorem core_empty1 (hcap : cfg.cap < 2 ^ w) (h : Inv cfg.cap start tr s)
    (ht : s.head = BitVec.ofNat w (taken tr).length) : content start tr = [] := by
  have hk := h.ak
  rw [h.head, eq_comm, ofNat_eq_iff h.ka (by omega)] at ht
  rw [← List.length_eq_zero_iff, content_length]; omega

theorem core_get_none (hcap : cfg.cap < 2 ^ w) (h : Inv cfg.cap start tr s)
    (he : (step cfg dflt mv s a).2 = [.getRet none]) : content start tr = [] := by
  rcases emit_getRet he with ⟨_, k, hp⟩ | ⟨k, t, x, hb, _⟩
  · have hci := h.cinv
    rw [hp] at hci
    exact core_empty1 hcap h hci
  · cases hb

theorem head_of_drop {l : List T} {k : Nat} {x : T} (h : l[k]? = some x) : (l.drop k).head? = some x := by
  rw [List.head?_drop]; exact h

theorem core_get_some (h : Inv cfg.cap start tr s) {x : T}
    (he : (step cfg dflt mv s a).2 = [.getRet (some x)]) : (content start tr).head? = some x := by
  rcases emit_getRet he with ⟨hb, _⟩ | ⟨k, t, y, hb, hp⟩
  · cases hb
  · cases hb
    have hci := h.cinv
    rw [hp] at hci
    exact head_of_drop hci.2.2

theorem core_getOr (hcap : cfg.cap < 2 ^ w) (h : Inv cfg.cap start tr s) {b : Bool} {v : T}
    (he : (step cfg dflt mv s a).2 = [.getOrDefaultRet b v]) :
    (b = false ∧ content start tr = [] ∧ v = dflt) ∨ (b = true ∧ (content start tr).head? = some v) := by
  rcases emit_getOrDefaultRet he with ⟨hb, hv, k, hp⟩ | ⟨hb, k, t, hp⟩
  · have hci := h.cinv
    rw [hp] at hci
    exact .inl ⟨hb, core_empty1 hcap h hci, hv⟩
  · have hci := h.cinv
    rw [hp] at hci
    exact .inr ⟨hb, head_of_drop hci.2.2⟩

theorem core_remove (hcap : cfg.cap < 2 ^ w) (h : Inv cfg.cap start tr s) {b : Bool}
    (he : (step cfg dflt mv s a).2 = [.removeRet b]) :
    (b = false ∧ content start tr = []) ∨ (b = true ∧ content start tr ≠ []) := by
  rcases emit_removeRet he with ⟨hb, hp⟩ | ⟨hb, t, hp⟩
  · have hci := h.cinv
    rw [hp] at hci
    exact .inl ⟨hb, core_empty1 hcap h hci⟩
  · have hci := h.cinv
    rw [hp] at hci
    refine .inr ⟨hb, ?_⟩
    have := hci.2
    rw [← List.length_pos_iff, content_length]; omega

theorem last_split {e : α} {a b c d : List α} (h : a ++ e :: b = c ++ e :: d) (hb : e ∉ b) (hd : e ∉ d) :
    a = c ∧ b = d := by
  induction a generalizing c with
  | nil =>
    cases c with
    | nil => simpa using h
    | cons x c => simp at h; obtain ⟨rfl, rfl⟩ := h; simp at hb
  | cons x a ih =>
    cases c with
    | nil => simp at h; obtain ⟨rfl, rfl⟩ := h; simp at hd
    | cons y c =>
      simp only [List.cons_append, List.cons.injEq] at h
      obtain ⟨h1, h2⟩ := ih h.2
      exact ⟨by rw [h.1, h1], h2⟩

theorem numFreeVal_eq {cfg : Cfg w} (hcap : cfg.cap < 2 ^ w) {A K : Nat} (h1 : K ≤ A) (h2 : A - K ≤ cfg.cap) :
    numFreeVal cfg (BitVec.ofNat w A) (BitVec.ofNat w K) = cfg.cap - (A - K) := by
  unfold numFreeVal
  rw [ofNat_sub h1, ofNat_sub h2, BitVec.toNat_ofNat, Nat.mod_eq_of_lt (by omega)]

theorem numFilledVal_eq {A K : Nat} (h1 : K ≤ A) (h2 : A - K < 2 ^ w) :
    numFilledVal (BitVec.ofNat w A) (BitVec.ofNat w K) = A - K := by
  unfold numFilledVal
  rw [ofNat_sub h1, BitVec.toNat_ofNat, Nat.mod_eq_of_lt h2]

/-- the value a finishing `num_free`/`full` reports -/
theorem core_free (hcap : cfg.cap < 2 ^ w) (h : Inv cfg.cap start tr s) {e : Ev T}
    (he1 : (∃ n, e = .numFreeRet n) ∨ ∃ b, e = .fullRet b)
    (he : (step cfg dflt mv s a).2 = [e]) {pre mid : List (Ev T)} (htr : tr = pre ++ .numFreeCall :: mid)
    (hmid : Ev.numFreeCall ∉ mid) :
    ∃ f n, e = freeEv f n ∧ cfg.cap - (content start pre).length ≤ n ∧ n ≤ cfg.cap - (content start tr).length := by
  have hka := h.ka
  have hak := h.ak
  have htk : (taken pre).length ≤ (taken tr).length := by rw [htr]; simp
  rcases emit_free he1 he with ⟨f, h', hp, rfl⟩ | ⟨f, t, hp, rfl⟩
  · have hpi := h.pinv
    rw [hp] at hpi
    obtain ⟨⟨pre', mid', g1, g2, g3⟩, g4⟩ := hpi
    obtain ⟨rfl, rfl⟩ := last_split (htr.symm.trans g1) hmid g2
    refine ⟨f, _, rfl, ?_⟩
    rw [g4, h.tail, numFreeVal_eq hcap h.ka h.ak, content_length, content_length]
    have : accepted tr = accepted pre := by rw [htr]; simp [accepted, g3]
    rw [this] at hka hak ⊢
    omega
  · have hpi := h.pinv
    rw [hp] at hpi
    obtain ⟨pre', mid', K', g1, g2, g3, g4, g5, g6, g7⟩ := hpi
    obtain ⟨rfl, rfl⟩ := last_split (htr.symm.trans g1) hmid g2
    refine ⟨f, _, rfl, ?_⟩
    rw [g7, h.head, numFreeVal_eq hcap (by omega) g6, content_length, content_length]
    have : accepted tr = accepted pre := by rw [htr]; simp [accepted, g3]
    rw [this] at hka hak ⊢
    omega

theorem core_fill (hcap : cfg.cap < 2 ^ w) (h : Inv cfg.cap start tr s) {e : Ev T}
    (he1 : (∃ n, e = .numFilledRet n) ∨ ∃ b, e = .emptyRet b)
    (he : (step cfg dflt mv s a).2 = [e]) {pre mid : List (Ev T)} (htr : tr = pre ++ .numFilledCall :: mid)
    (hmid : Ev.numFilledCall ∉ mid) :
    ∃ f n, e = fillEv f n ∧ (content start pre).length ≤ n ∧ n ≤ (content start tr).length := by
  have hka := h.ka
  have hak := h.ak
  have htk : (start ++ accepted pre).length ≤ (start ++ accepted tr).length := by rw [htr]; simp
  rcases emit_fill he1 he with ⟨f, h', hp, rfl⟩ | ⟨f, t, hp, rfl⟩
  · have hci := h.cinv
    rw [hp] at hci
    obtain ⟨pre', mid', A', g1, g2, g3, g4, g5, g6, g7⟩ := hci
    obtain ⟨rfl, rfl⟩ := last_split (htr.symm.trans g1) hmid g2
    refine ⟨f, _, rfl, ?_⟩
    rw [g7, h.tail, numFilledVal_eq g6 (by omega), content_length, content_length]
    have : taken tr = taken pre := by rw [htr]; simp [taken, g3]
    rw [this] at hka hak ⊢
    omega
  · have hci := h.cinv
    rw [hp] at hci
    obtain ⟨⟨pre', mid', g1, g2, g3⟩, g4⟩ := hci
    obtain ⟨rfl, rfl⟩ := last_split (htr.symm.trans g1) hmid g2
    refine ⟨f, _, rfl, ?_⟩
    rw [g4, h.head, numFilledVal_eq h.ka (by omega), content_length, content_length]
    have : taken tr = taken pre := by rw [htr]; simp [taken, g3]
    rw [this] at hka hak ⊢
    omega

theorem core_reset (hcap : cfg.cap < 2 ^ w) (h : Inv cfg.cap start tr s) {n : Nat}
    (he : (step cfg dflt mv s a).2 = [.resetRet n]) {pre mid : List (Ev T)} (htr : tr = pre ++ .resetCall :: mid)
    (hmid : Ev.resetCall ∉ mid) :
    (content start pre).length ≤ n ∧ n ≤ (content start tr).length ∧ taken mid = [] := by
  have hka := h.ka
  have hak := h.ak
  have htk : (start ++ accepted pre).length ≤ (start ++ accepted tr).length := by rw [htr]; simp
  rcases emit_reset he with ⟨h', hp⟩ | ⟨h', hp, rfl⟩
  · have hpi := h.pinv
    rw [hp] at hpi
    exact hpi.elim
  · have hci := h.cinv
    rw [hp] at hci
    obtain ⟨pre', mid', A', g1, g2, g3, g4, g5, g6, g7⟩ := hci
    obtain ⟨rfl, rfl⟩ := last_split (htr.symm.trans g1) hmid g2
    have : taken tr = taken pre := by rw [htr]; simp [taken, g3]
    rw [g7, h.tail, ofNat_sub g6, BitVec.toNat_ofNat, Nat.mod_eq_of_lt (by omega), content_length, content_length]
    rw [this] at hka hak g6 ⊢
    refine ⟨by omega, by omega, g3⟩
end

/-! ### uninterrupted calls -/

/-- the scheduler runs one `put(x)` from start to finish -/
def putActs (x : T) : List (Act T) :=
  [.pCall (.put x), .pStep true, .pStep true, .pStep true, .pStep true]

/-- the scheduler runs one `get()` from start to finish -/
def getActs : List (Act T) := [.cCall .get, .cStep true, .cStep true, .cStep true, .cStep true]

theorem run_putActs {cfg : Cfg w} {dflt : T} {mv : T → T} {s : St w T} (x : T) (hp : s.ppc = .idle) :
    run cfg dflt mv s (putActs x) =
      if s.head - s.tail = BitVec.ofNat w cfg.cap then (s, [.putRet x false])
      else if cfg.idx s.head < s.buf.length then
        ({ s with buf := s.buf.set (cfg.idx s.head) x, head := s.head + 1#w }, [.putRet x true])
      else ({ s with ub := true, ppc := .put2 x s.head }, []) := by
  obtain ⟨hd, tl, buf, ppc, cpc, ub⟩ := s
  simp only at hp
  subst hp
  by_cases h : hd - tl = BitVec.ofNat w cfg.cap <;> by_cases h2 : cfg.idx hd < buf.length <;>
    simp [putActs, run, step, callP, stepP, h, h2]

theorem run_getActs {cfg : Cfg w} {dflt : T} {mv : T → T} {s : St w T} (hp : s.cpc = .idle) :
    run cfg dflt mv s getActs =
      if s.tail = s.head then (s, [.getRet none])
      else match s.buf[cfg.idx s.tail]? with
        | some x => ({ s with tail := s.tail + 1#w }, [.getRet (some x)])
        | none => ({ s with ub := true, cpc := .get2 .get s.tail }, []) := by
  obtain ⟨hd, tl, buf, ppc, cpc, ub⟩ := s
  simp only at hp
  subst hp
  by_cases h : tl = hd
  · simp [getActs, run, step, callC, stepC, h]
  · cases h2 : buf[cfg.idx tl]? <;>
    simp [getActs, run, step, callC, stepC, h, h2]

end Spsc
