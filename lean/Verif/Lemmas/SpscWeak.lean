import Verif.Model.SpscWeak
import Verif.Lemmas.SpscDelay
import Verif.Spec.SpscCover
/-! Invariant of the weak-memory FIFO. -/
namespace SpscWeak
open Spsc (Cfg Ev IdxOk ofNat_sub ofNat_inj_lt ofNat_add_one ofNat_eq_iff mod_ne_of_lt accepted_append taken_append)
open Spsc.Spec
variable {w : Nat} {T : Type}

def OkHist (ms : List (Msg w)) (n : Nat) : Prop :=
  ms.length = n + 1 ∧ ∀ j : Nat, j ≤ n → ms[j]? = some ⟨BitVec.ofNat w j, j⟩

theorem OkHist.own {ms : List (Msg w)} {n : Nat} (h : OkHist ms n) : own ms = BitVec.ofNat w n := by
  unfold SpscWeak.own
  rw [List.getLast?_eq_getElem?, h.1]
  simp [h.2 n (Nat.le_refl _)]

theorem OkHist.push {ms : List (Msg w)} {n : Nat} (h : OkHist ms n) :
    OkHist (ms ++ [⟨BitVec.ofNat w (n + 1), n + 1⟩]) (n + 1) := by
  refine ⟨by simp [h.1], ?_⟩
  intro j hj
  by_cases hjn : j ≤ n
  · rw [List.getElem?_append_left (by rw [h.1]; omega)]; exact h.2 j hjn
  · have : j = n + 1 := by omega
    subst this
    rw [List.getElem?_append_right (by rw [h.1]; omega), h.1]; simp

theorem OkHist.get {ms : List (Msg w)} {n j : Nat} {m : Msg w} (h : OkHist ms n) (hm : ms[j]? = some m) :
    j ≤ n ∧ m = ⟨BitVec.ofNat w j, j⟩ := by
  have hlt := (List.getElem?_eq_some_iff.mp hm).1
  rw [h.1] at hlt
  have := h.2 j (by omega)
  rw [hm] at this
  exact ⟨by omega, by simpa using this⟩

def in3 : CPc w T → Nat
  | .get3 .. => 1
  | _ => 0

def PInv (cap A tv : Nat) (buf : List T) (wEp : List Nat) : PPc w T → Prop
  | .idle => True
  | .put0 _ => True
  | .put1 _ h => h = BitVec.ofNat w A
  | .put2 _ h => h = BitVec.ofNat w A ∧ A < tv + cap
  | .put3 x h => h = BitVec.ofNat w A ∧ A < tv + cap ∧ buf[A % cap]? = some x ∧ wEp[A % cap]? = some (A + 1)
  | .free0 => True
  | .free1 h => h = BitVec.ofNat w A

def CInv (K cknow hv : Nat) (hist : List T) : CPc w T → Prop
  | .idle => True
  | .chk0 _ => True
  | .chk1 _ h => K ≤ cknow ∧ h = BitVec.ofNat w cknow
  | .get0 _ _ => True
  | .get1 _ _ t => t = BitVec.ofNat w K
  | .get2 _ t => t = BitVec.ofNat w K ∧ K < hv
  | .get3 t x => t = BitVec.ofNat w K ∧ K < hv ∧ hist[K]? = some x
  | .rem0 => True
  | .rem1 t => t = BitVec.ofNat w K
  | .rem2 t => t = BitVec.ofNat w K ∧ K < hv
  | .reset0 => False
  | .reset1 _ => False

structure Inv' (cap A K : Nat) (hist : List T) (tk : List (Option T)) (s : St w T) : Prop where
  ub : s.ub = false
  buflen : s.buf.length = cap
  wlen : s.wEp.length = cap
  rlen : s.rEp.length = cap
  hm : OkHist s.hmsgs A
  tm : OkHist s.tmsgs K
  pclk : s.pclk = A + 1
  cclk : s.cclk = K + 1
  pk : s.pknow = s.tv
  ck : s.cknow ≤ s.hv
  hvA : s.hv ≤ A
  Khv : K ≤ s.hv
  tvK : s.tv ≤ K
  tvA : A ≤ s.tv + cap
  order : ∀ (i : Nat) (x : T), tk[i]? = some (some x) → hist[i]? = some x
  slots : ∀ i : Nat, K + in3 s.cpc ≤ i → i < A → s.buf[i % cap]? = hist[i]? ∧ s.wEp[i % cap]? = some (i + 1)
  reads : ∀ (q e : Nat), s.rEp[q]? = some e → e = 0 ∨ ∃ i, i % cap = q ∧ i < K + in3 s.cpc ∧ e = i + 1
  pinv : PInv cap A s.tv s.buf s.wEp s.ppc
  cinv : CInv K s.cknow s.hv hist s.cpc

def Inv (cap : Nat) (tr : List (Ev T)) (s : St w T) : Prop :=
  Inv' cap (accepted tr).length (taken tr).length (accepted tr) (taken tr) s

theorem init_Inv (cap : Nat) (dflt : T) : Inv cap [] (init w cap dflt) := by
  constructor <;> simp [init, accepted, taken, OkHist, PInv, CInv]
  intro q e h; exact .inl (by have := List.mem_of_getElem? h; simp at this; omega)

theorem stepP_Inv (cfg : Cfg w) (hcap : cfg.cap < 2 ^ w) {tr : List (Ev T)} (hidx : IdxOk cfg (accepted tr).length) {s : St w T} (j : Nat) (h : Inv cfg.cap tr s) :
    Inv cfg.cap (tr ++ (stepP cfg j s).2) (stepP cfg j s).1 := by
  obtain ⟨A, hA⟩ : ∃ A, (accepted tr).length = A := ⟨_, rfl⟩
  obtain ⟨K, hK⟩ : ∃ K, (taken tr).length = K := ⟨_, rfl⟩
  have h0 : Inv' cfg.cap A K (accepted tr) (taken tr) s := by rw [← hA, ← hK]; exact h
  have hp := h0.pinv
  have hka : K ≤ A := Nat.le_trans h0.Khv h0.hvA
  unfold stepP
  split
  · simpa using h
  · next x hpc =>
    unfold Inv; simp only [List.append_nil]; rw [hA, hK]
    exact { h0 with pinv := h0.hm.own }
  · next x h' hpc =>
    rw [hpc] at hp
    split
    · next hj =>
      split
      · simpa using h
      · next m hm =>
        obtain ⟨hjK, rfl⟩ := h0.tm.get hm
        have hcond : (h' - BitVec.ofNat w j = BitVec.ofNat w cfg.cap) ↔ A - j = cfg.cap := by
          rw [show h' = _ from hp, ofNat_sub (by omega), ofNat_inj_lt _ hcap]
          have := h0.tvA; omega
        have hpk : max s.pknow j = j := by rw [h0.pk]; omega
        split
        · unfold Inv; simp only [accepted_append, taken_append]
          have e1 : accepted [Ev.putRet x false] = [] := rfl
          have e2 : taken [Ev.putRet x false] = [] := rfl
          simp only [e1, e2, List.append_nil]; rw [hA, hK]
          exact { h0 with pk := hpk, tvK := hjK, tvA := by have := h0.tvA; simp only; omega, pinv := trivial }
        · next hc =>
          rw [hcond] at hc
          have := h0.tvA
          unfold Inv; simp only [List.append_nil]; rw [hA, hK]
          exact { h0 with pk := hpk, tvK := hjK, tvA := by simp only; omega, pinv := ⟨hp, by simp only; omega⟩ }
    · simpa using h
  · next x h' hpc =>
    rw [hpc] at hp
    obtain ⟨h1, h2⟩ := hp
    have := h0.tvK
    have hc : 0 < cfg.cap := by omega
    have hi : cfg.idx h' = A % cfg.cap := by rw [h1]; exact hidx A (by omega)
    have hlt : A % cfg.cap < cfg.cap := Nat.mod_lt _ hc
    obtain ⟨e, he⟩ : ∃ e, s.rEp[cfg.idx h']? = some e := by
      rw [hi]; exact ⟨_, List.getElem?_eq_getElem (by rw [h0.rlen]; exact hlt)⟩
    rw [he]
    have hle : e ≤ s.pknow := by
      rcases h0.reads _ _ he with rfl | ⟨i, g1, g2, rfl⟩
      · omega
      · rw [hi] at g1
        have hiA : i < A := by
          have : K + in3 s.cpc ≤ A := by
            cases hcp : s.cpc with
            | get3 t x => have hci := h0.cinv; rw [hcp] at hci; have := hci.2.1; have := h0.hvA; simp [in3]; omega
            | _ => simp [in3]; exact hka
          omega
        rw [h0.pk]
        by_cases hd : A - i < cfg.cap
        · exact absurd g1 (mod_ne_of_lt hiA hd)
        · omega
    unfold Inv; simp only [List.append_nil]; rw [hA, hK]
    exact { h0 with
      buflen := by simpa using h0.buflen
      wlen := by simpa using h0.wlen
      slots := by
        intro i h3 h4
        have : i % cfg.cap ≠ A % cfg.cap := mod_ne_of_lt h4 (by simp only at h3; omega)
        simp only
        rw [hi, List.getElem?_set_ne this.symm, List.getElem?_set_ne this.symm]
        exact h0.slots i h3 h4
      pinv := by
        refine ⟨h1, h2, ?_, ?_⟩
        · rw [hi, List.getElem?_set_self (by rw [h0.buflen]; exact hlt)]
        · rw [hi, List.getElem?_set_self (by rw [h0.wlen]; exact hlt), h0.pclk] }
  · next x h' hpc =>
    rw [hpc] at hp
    obtain ⟨h1, h2, h3, h4⟩ := hp
    have e1 : accepted (tr ++ [Ev.putRet x true]) = accepted tr ++ [x] := by simp [accepted]
    have e2 : taken (tr ++ [Ev.putRet x true]) = taken tr := by simp [taken]
    unfold Inv
    rw [e1, e2]
    have hl : (accepted tr ++ [x]).length = A + 1 := by simp [hA]
    rw [hl, hK]
    have hmono : ∀ (i : Nat) (y : T), (accepted tr)[i]? = some y → (accepted tr ++ [x])[i]? = some y := by
      intro i y hy
      rw [List.getElem?_append_left]
      · exact hy
      · exact (List.getElem?_eq_some_iff.mp hy).1
    exact { h0 with
      hm := by
        simp only [h1, h0.pclk]
        rw [ofNat_add_one]; exact h0.hm.push
      pclk := by simp [h0.pclk]
      hvA := by have := h0.hvA; simp only; omega
      tvA := by simp only; omega
      order := fun i y hy => hmono i y (h0.order i y hy)
      slots := by
        intro i h5 h6
        by_cases hiA : i = A
        · subst hiA
          simp only
          rw [h3, List.getElem?_append_right (by omega)]
          exact ⟨by simp [hA], h4⟩
        · obtain ⟨g1, g2⟩ := h0.slots i h5 (by omega)
          refine ⟨?_, g2⟩
          rw [g1, List.getElem?_append_left (by omega)]
      pinv := trivial
      cinv := by
        have hc := h0.cinv
        simp only
        cases hcp : s.cpc with
        | get3 t y =>
          rw [hcp] at hc
          exact ⟨hc.1, hc.2.1, hmono _ _ hc.2.2⟩
        | _ => rw [hcp] at hc; exact hc }
  · next hpc =>
    unfold Inv; simp only [List.append_nil]; rw [hA, hK]
    exact { h0 with pinv := h0.hm.own }
  · next h' hpc =>
    rw [hpc] at hp
    split
    · next hj =>
      split
      · simpa using h
      · next m hm =>
        obtain ⟨hjK, rfl⟩ := h0.tm.get hm
        have hpk : max s.pknow j = j := by rw [h0.pk]; omega
        unfold Inv; simp only [accepted_append, taken_append]
        have e1 : ∀ n, accepted [(Ev.numFreeRet n : Ev T)] = [] := fun _ => rfl
        have e2 : ∀ n, taken [(Ev.numFreeRet n : Ev T)] = [] := fun _ => rfl
        simp only [e1, e2, List.append_nil]; rw [hA, hK]
        exact { h0 with pk := hpk, tvK := hjK, tvA := by have := h0.tvA; simp only; omega, pinv := trivial }
    · simpa using h

def Allowed (a : Act T) : Prop := a ≠ .cCall .reset

theorem loadHead_spec {acq : Bool} {j : Nat} {s s' : St w T} {hval : BitVec w} {A : Nat} (hm : OkHist s.hmsgs A)
    (h : loadHead acq j s = some (hval, s')) :
    s.hv ≤ j ∧ j ≤ A ∧ hval = BitVec.ofNat w j ∧
      s' = { s with hv := j, cknow := if acq then max s.cknow j else s.cknow } := by
  unfold loadHead at h
  split at h
  · next hj =>
    split at h
    · cases h
    · next m hmm =>
      obtain ⟨hjA, rfl⟩ := hm.get hmm
      simp only [Option.some.injEq, Prod.mk.injEq] at h
      exact ⟨hj, hjA, h.1.symm, h.2.symm⟩
  · cases h

/-- a consumer step that only changes its program counter and what it knows -/
theorem Inv_c_local {cap : Nat} {tr : List (Ev T)} {s : St w T} {es : List (Ev T)} {p : CPc w T} {kn hv : Nat}
    (h : Inv cap tr s) (h1 : accepted es = []) (h2 : taken es = [])
    (hin : in3 s.cpc = in3 p) (hck : kn ≤ hv) (hhv : hv ≤ (accepted tr).length) (hK : (taken tr).length ≤ hv)
    (hc : CInv (taken tr).length kn hv (accepted tr) p) :
    Inv cap (tr ++ es) { s with cpc := p, cknow := kn, hv := hv } := by
  unfold Inv at *
  simp only [accepted_append, taken_append, h1, h2, List.append_nil]
  exact { h with ck := hck, hvA := hhv, Khv := hK, slots := by simp only; rw [← hin]; exact h.slots,
                 reads := by simp only; rw [← hin]; exact h.reads, cinv := hc }

theorem stepC_Inv (cfg : Cfg w) (_ : cfg.cap < 2 ^ w) {acq : Bool} (mvf : T → T) {tr : List (Ev T)} (hidx : IdxOk cfg (accepted tr).length) {s : St w T} (j : Nat) (h : Inv cfg.cap tr s) :
    Inv cfg.cap (tr ++ (stepC cfg acq mvf j s).2) (stepC cfg acq mvf j s).1 := by
  obtain ⟨A, hA⟩ : ∃ A, (accepted tr).length = A := ⟨_, rfl⟩
  obtain ⟨K, hK⟩ : ∃ K, (taken tr).length = K := ⟨_, rfl⟩
  have h0 : Inv' cfg.cap A K (accepted tr) (taken tr) s := by rw [← hA, ← hK]; exact h
  have hc := h0.cinv
  have hka : K ≤ A := Nat.le_trans h0.Khv h0.hvA
  have hak : A - K ≤ cfg.cap := by have := h0.tvA; have := h0.tvK; omega
  have hck := h0.ck
  have hvA := h0.hvA
  have hKv := h0.Khv
  unfold stepC
  split
  · simpa using h
  · next hpc =>
    rw [hpc] at hc
    split
    · simpa using h
    · next hval s' hl =>
      obtain ⟨g1, g2, rfl, rfl⟩ := loadHead_spec h0.hm hl
      refine Inv_c_local (s := s) (kn := if true = true then max s.cknow j else s.cknow) (hv := j) h rfl rfl (by simp [hpc, in3]) ?_ (by omega) (by omega) ?_
      · simp; omega
      · have e : (if true = true then max s.cknow j else s.cknow) = j := by simp; omega
        rw [e]; exact ⟨by omega, rfl⟩
  · next only h' hpc =>
    simp only
    split
    · exact Inv_c_local (kn := s.cknow) (hv := s.hv) h rfl rfl (by simp [hpc, in3]) hck (by omega) (by omega) trivial
    · exact Inv_c_local (kn := s.cknow) (hv := s.hv) h rfl rfl (by simp [hpc, in3]) hck (by omega) (by omega) trivial
  · next mv ck hpc =>
    rw [hpc] at hc
    refine Inv_c_local (kn := s.cknow) (hv := s.hv) h rfl rfl (by simp [hpc, in3]) hck (by omega) (by omega) ?_
    rw [hK]
    exact h0.tm.own
  · next mv ck t hpc =>
    rw [hpc] at hc
    have c2 : t = _ := hc
    split
    · simpa using h
    · next hval s' hl =>
      obtain ⟨g1, g2, rfl, rfl⟩ := loadHead_spec h0.hm hl
      have hkn : (if acq = true then max s.cknow j else s.cknow) ≤ j := by split <;> omega
      split
      · exact Inv_c_local (s := s) (kn := if acq = true then max s.cknow j else s.cknow) (hv := j) h rfl rfl (by simp [hpc, in3]) hkn (by omega) (by omega) trivial
      · next hne =>
        refine Inv_c_local (s := s) (kn := if acq = true then max s.cknow j else s.cknow) (hv := j) h rfl rfl (by simp [hpc, in3]) hkn (by omega) (by omega) ?_
        rw [hK]
        refine ⟨c2, ?_⟩
        rw [c2] at hne
        have : ¬ j = K := by
          intro e; subst e; exact hne rfl
        omega
  · next mv t hpc =>
    rw [hpc] at hc
    obtain ⟨c1, c2⟩ := hc
    have hKA : K < A := by omega
    have hc0 : 0 < cfg.cap := by omega
    have hi : cfg.idx t = K % cfg.cap := by rw [c1]; exact hidx K (by have := h.Khv; have := h.hvA; omega)
    have hlt : K % cfg.cap < cfg.cap := Nat.mod_lt _ hc0
    obtain ⟨s1, s2⟩ := h0.slots K (by rw [hpc]; simp [in3]) hKA
    have hx : (accepted tr)[K]? = some ((accepted tr)[K]'(by omega)) := by simp
    generalize (accepted tr)[K]'(by omega) = x at hx
    rw [hi, s1, s2, hx]
    simp only
    unfold Inv; simp only [List.append_nil]; rw [hA, hK]
    exact { h0 with
      buflen := by simp only; split <;> simp [h0.buflen]
      rlen := by simpa using h0.rlen
      slots := by
        intro i h3 h4
        simp only [in3] at h3
        have hne : K % cfg.cap ≠ i % cfg.cap := mod_ne_of_lt (by omega) (by omega)
        obtain ⟨k1, k2⟩ := h0.slots i (by rw [hpc]; simp [in3]; omega) h4
        refine ⟨?_, k2⟩
        simp only
        split
        · rw [List.getElem?_set_ne hne]; exact k1
        · exact k1
      reads := by
        intro q e he
        simp only [in3] at he ⊢
        by_cases hq : q = K % cfg.cap
        · subst hq
          rw [List.getElem?_set_self (by rw [h0.rlen]; exact hlt)] at he
          right
          exact ⟨K, rfl, by omega, by simp at he; rw [← he, h0.cclk]⟩
        · rw [List.getElem?_set_ne (Ne.symm hq)] at he
          rcases h0.reads q e he with rfl | ⟨i, k1, k2, k3⟩
          · exact .inl rfl
          · refine .inr ⟨i, k1, ?_, k3⟩
            rw [hpc] at k2; simp [in3] at k2; omega
      pinv := by
        have hp := h0.pinv
        simp only
        cases hpp : s.ppc with
        | put3 y h' =>
          rw [hpp] at hp
          obtain ⟨k1, k2, k3, k4⟩ := hp
          refine ⟨k1, k2, ?_, k4⟩
          have hne : K % cfg.cap ≠ A % cfg.cap := mod_ne_of_lt hKA (by have := h0.tvK; omega)
          split
          · rw [List.getElem?_set_ne hne]; exact k3
          · exact k3
        | _ => rw [hpp] at hp; exact hp
      cinv := ⟨c1, by simp only; omega, hx⟩ }
  · next t x hpc =>
    rw [hpc] at hc
    obtain ⟨c1, c2, c3⟩ := hc
    have e1 : accepted (tr ++ [Ev.getRet (some x)]) = accepted tr := by simp [accepted]
    have e2 : taken (tr ++ [Ev.getRet (some x)]) = taken tr ++ [some x] := by simp [taken]
    unfold Inv
    rw [e1, e2]
    have hl : (taken tr ++ [some x]).length = K + 1 := by simp [hK]
    rw [hl, hA]
    exact { h0 with
      tm := by
        simp only [c1, h0.cclk]
        rw [ofNat_add_one]; exact h0.tm.push
      cclk := by simp [h0.cclk]
      Khv := by simp only; omega
      tvK := by have := h0.tvK; simp only; omega
      order := by
        intro i y hy
        by_cases hi : i < (taken tr).length
        · rw [List.getElem?_append_left hi] at hy; exact h0.order i y hy
        · rw [List.getElem?_append_right (by omega)] at hy
          match hd : i - (taken tr).length, hy with
          | 0, hy =>
            simp at hy
            subst hy
            rw [show i = K by omega]; exact c3
          | n + 1, hy => simp at hy
      slots := by
        intro i h3 h4
        exact h0.slots i (by rw [hpc]; simpa [in3] using h3) h4
      reads := by
        intro q e he
        rcases h0.reads q e he with r | ⟨i, k1, k2, k3⟩
        · exact .inl r
        · exact .inr ⟨i, k1, by rw [hpc] at k2; simpa [in3] using k2, k3⟩
      cinv := trivial }
  · next hpc =>
    refine Inv_c_local (kn := s.cknow) (hv := s.hv) h rfl rfl (by simp [hpc, in3]) hck (by omega) (by omega) ?_
    rw [hK]; exact h0.tm.own
  · next t hpc =>
    rw [hpc] at hc
    split
    · simpa using h
    · next hval s' hl =>
      obtain ⟨g1, g2, rfl, rfl⟩ := loadHead_spec h0.hm hl
      split
      · next hne =>
        refine Inv_c_local (s := s) (kn := if false = true then max s.cknow j else s.cknow) (hv := j) h rfl rfl (by simp [hpc, in3]) (by simp; omega) (by omega) (by omega) ?_
        rw [hK]
        refine ⟨hc, ?_⟩
        rw [show t = _ from hc] at hne
        have : ¬ j = K := by
          intro e; subst e; exact hne rfl
        omega
      · exact Inv_c_local (s := s) (kn := if false = true then max s.cknow j else s.cknow) (hv := j) h rfl rfl (by simp [hpc, in3]) (by simp; omega) (by omega) (by omega) trivial
  · next t hpc =>
    rw [hpc] at hc
    obtain ⟨c1, c2⟩ := hc
    have e1 : accepted (tr ++ [Ev.removeRet true]) = accepted tr := by simp [accepted]
    have e2 : taken (tr ++ [Ev.removeRet true]) = taken tr ++ [none] := by simp [taken]
    unfold Inv
    rw [e1, e2]
    have hl : (taken tr ++ [none]).length = K + 1 := by simp [hK]
    rw [hl, hA]
    exact { h0 with
      tm := by
        simp only [c1, h0.cclk]
        rw [ofNat_add_one]; exact h0.tm.push
      cclk := by simp [h0.cclk]
      Khv := by simp only; omega
      tvK := by have := h0.tvK; simp only; omega
      order := by
        intro i y hy
        by_cases hi : i < (taken tr).length
        · rw [List.getElem?_append_left hi] at hy; exact h0.order i y hy
        · rw [List.getElem?_append_right (by omega)] at hy
          match hd : i - (taken tr).length, hy with
          | 0, hy => simp at hy
          | n + 1, hy => simp at hy
      slots := by
        intro i h3 h4
        exact h0.slots i (by rw [hpc]; simp [in3] at h3 ⊢; omega) h4
      reads := by
        intro q e he
        rcases h0.reads q e he with r | ⟨i, k1, k2, k3⟩
        · exact .inl r
        · exact .inr ⟨i, k1, by rw [hpc] at k2; simp [in3] at k2 ⊢; omega, k3⟩
      cinv := trivial }
  · next hpc => rw [hpc] at hc; exact hc.elim
  · next t hpc => rw [hpc] at hc; exact hc.elim

theorem step_Inv (cfg : Cfg w) (hcap : cfg.cap < 2 ^ w) {acq : Bool} (mvf : T → T) {tr : List (Ev T)} (hidx : IdxOk cfg (accepted tr).length) {s : St w T} (a : Act T) (ha : Allowed a)
    (h : Inv cfg.cap tr s) :
    Inv cfg.cap (tr ++ (step cfg acq mvf s a).2) (step cfg acq mvf s a).1 := by
  cases a with
  | put x =>
    simp only [step, callP]
    split
    · rw [List.append_nil]; exact { h with pinv := trivial }
    · simpa using h
  | numFree =>
    simp only [step, callFree]
    split
    · rw [List.append_nil]; exact { h with pinv := trivial }
    · simpa using h
  | pStep j => exact stepP_Inv cfg hcap hidx j h
  | cStep j => exact stepC_Inv cfg hcap mvf hidx j h
  | cCall op =>
    simp only [step, callC]
    split
    · next hpc =>
      have L : ∀ p : CPc w T, in3 p = 0 → CInv (taken tr).length s.cknow s.hv (accepted tr) p →
          Inv cfg.cap (tr ++ []) { s with cpc := p } :=
        fun p hp hc => Inv_c_local (kn := s.cknow) (hv := s.hv) h rfl rfl (by rw [hpc, hp]; rfl) h.ck h.hvA h.Khv hc
      cases op with
      | get => exact L _ rfl trivial
      | getMove => exact L _ rfl trivial
      | numFilled => exact L _ rfl trivial
      | getIfFilled => exact L _ rfl trivial
      | removeFirst => exact L _ rfl trivial
      | reset => exact absurd rfl ha
    · simpa using h

theorem run_Inv (cfg : Cfg w) (hcap : cfg.cap < 2 ^ w)
    {acq : Bool} (mvf : T → T) (as : List (Act T)) : ∀ {tr : List (Ev T)} {s : St w T}, IdxOk cfg (accepted (tr ++ (run cfg acq mvf s as).2)).length → (∀ a ∈ as, Allowed a) →
    Inv cfg.cap tr s → Inv cfg.cap (tr ++ (run cfg acq mvf s as).2) (run cfg acq mvf s as).1 := by
  induction as with
  | nil => intro tr s _ _ h; simpa [run] using h
  | cons a as ih =>
    intro tr s hidx ha h
    simp only [run] at hidx ⊢
    rw [← List.append_assoc] at hidx ⊢
    exact ih hidx (fun b hb => ha b (by simp [hb])) (step_Inv cfg hcap mvf (hidx.mono (by rw [accepted_append, accepted_append]; simp only [List.length_append]; omega)) a (ha a (by simp)) h)

/-! ## Data races -/

theorem stepP_race (cfg : Cfg w) {tr : List (Ev T)} (hidx : IdxOk cfg (accepted tr).length) {s : St w T} (j : Nat) (h : Inv cfg.cap tr s) :
    (stepP cfg j s).1.race = s.race := by
  obtain ⟨A, hA⟩ : ∃ A, (accepted tr).length = A := ⟨_, rfl⟩
  obtain ⟨K, hK⟩ : ∃ K, (taken tr).length = K := ⟨_, rfl⟩
  have h0 : Inv' cfg.cap A K (accepted tr) (taken tr) s := by rw [← hA, ← hK]; exact h
  have hp := h0.pinv
  have hka : K ≤ A := Nat.le_trans h0.Khv h0.hvA
  unfold stepP
  split
  · rfl
  · rfl
  · split
    · split
      · rfl
      · simp only; split <;> rfl
    · rfl
  · next x h' hpc =>
    rw [hpc] at hp
    obtain ⟨h1, h2⟩ := hp
    have := h0.tvK
    have hc : 0 < cfg.cap := by omega
    have hi : cfg.idx h' = A % cfg.cap := by rw [h1]; exact hidx A (by omega)
    have hlt : A % cfg.cap < cfg.cap := Nat.mod_lt _ hc
    obtain ⟨e, he⟩ : ∃ e, s.rEp[cfg.idx h']? = some e := by
      rw [hi]; exact ⟨_, List.getElem?_eq_getElem (by rw [h0.rlen]; exact hlt)⟩
    rw [he]
    have hle : e ≤ s.pknow := by
      rcases h0.reads _ _ he with rfl | ⟨i, g1, g2, rfl⟩
      · omega
      · rw [hi] at g1
        have hiA : i < A := by
          have : K + in3 s.cpc ≤ A := by
            cases hcp : s.cpc with
            | get3 t x => have hci := h0.cinv; rw [hcp] at hci; have := hci.2.1; have := h0.hvA; simp [in3]; omega
            | _ => simp [in3]; exact hka
          omega
        rw [h0.pk]
        by_cases hd : A - i < cfg.cap
        · exact absurd g1 (mod_ne_of_lt hiA hd)
        · omega
    simp only [Bool.or_eq_left_iff_imp, decide_eq_true_eq]
    omega
  · rfl
  · rfl
  · split
    · split <;> rfl
    · rfl

theorem stepP_c (cfg : Cfg w) (s : St w T) (j : Nat) :
    (stepP cfg j s).1.cpc = s.cpc ∧ (stepP cfg j s).1.cknow = s.cknow ∧
    ((stepP cfg j s).2 = [] ∨ (∃ x b, (stepP cfg j s).2 = [.putRet x b]) ∨ ∃ n, (stepP cfg j s).2 = [.numFreeRet n]) := by
  unfold stepP
  split
  · simp
  · simp
  · split
    · split
      · simp
      · simp only; split <;> simp
    · simp
  · split <;> simp
  · simp
  · simp
  · split
    · split <;> simp
    · simp

/-- what the reading step of `get` does to `race` -/
theorem get2_race (cfg : Cfg w) {acq : Bool} (mvf : T → T) {tr : List (Ev T)} (hidx : IdxOk cfg (accepted tr).length) {s : St w T} (j : Nat)
    (h : Inv cfg.cap tr s) {mv : Bool} {t : BitVec w} (hpc : s.cpc = .get2 mv t) :
    (stepC cfg acq mvf j s).1.race = (s.race || decide (s.cknow ≤ (taken tr).length)) ∧
    (stepC cfg acq mvf j s).1.cknow = s.cknow ∧ (∃ t x, (stepC cfg acq mvf j s).1.cpc = .get3 t x) ∧ (stepC cfg acq mvf j s).2 = [] := by
  have hc := h.cinv
  rw [hpc] at hc
  obtain ⟨c1, c2⟩ := hc
  have hKA : (taken tr).length < (accepted tr).length := by have := h.hvA; omega
  have hi : cfg.idx t = (taken tr).length % cfg.cap := by rw [c1]; exact hidx _ (by omega)
  obtain ⟨s1, s2⟩ := h.slots _ (by rw [hpc]; simp [in3]) hKA
  have hx : (accepted tr)[(taken tr).length]? = some ((accepted tr)[(taken tr).length]'hKA) := by simp
  generalize (accepted tr)[(taken tr).length]'hKA = x at hx
  unfold stepC
  rw [hpc]
  simp only
  rw [hi, s1, s2, hx]
  simp [Nat.lt_succ_iff]

/-! ### Guarded gets, or the acquire load -/

def GPc (acq : Bool) (K cknow : Nat) : CPc w T → Prop
  | .get0 _ ck => (ck = true ∧ K < cknow) ∨ acq = true
  | .get1 _ ck _ => (ck = true ∧ K < cknow) ∨ acq = true
  | .get2 _ _ => K < cknow
  | _ => True

def GInv (acq : Bool) (tr : List (Ev T)) (s : St w T) : Prop := s.race = false ∧ GPc acq (taken tr).length s.cknow s.cpc

def AllowedG (acq : Bool) (a : Act T) : Prop :=
  match a with
  | .cCall .reset => False
  | .cCall .get => acq = true
  | .cCall .getMove => acq = true
  | _ => True

theorem AllowedG.allowed {acq : Bool} {a : Act T} (h : AllowedG acq a) : Allowed a := by
  rintro rfl; exact h

theorem taken_free (tr : List (Ev T)) (n : Nat) : taken (tr ++ [.numFreeRet n]) = taken tr := by simp [taken]

theorem taken_put (tr : List (Ev T)) (x : T) (b : Bool) : taken (tr ++ [.putRet x b]) = taken tr := by simp [taken]

/-- `h - own` is the number of items the consumer knows of -/
theorem chk_n {cfg : Cfg w} (hcap : cfg.cap < 2 ^ w) {tr : List (Ev T)} {s : St w T} (h : Inv cfg.cap tr s) {o : Bool} {hd : BitVec w} (hpc : s.cpc = .chk1 o hd) :
    (hd - own s.tmsgs).toNat = s.cknow - (taken tr).length := by
  have hc := h.cinv
  rw [hpc] at hc
  obtain ⟨c1, c2⟩ := hc
  rw [c2, h.tm.own, ofNat_sub (by omega), BitVec.toNat_ofNat]
  apply Nat.mod_eq_of_lt
  have := h.tvA; have := h.tvK; have := h.ck; have := h.hvA
  omega

theorem step_GInv (cfg : Cfg w) (hcap : cfg.cap < 2 ^ w) {acq : Bool} (mvf : T → T) {tr : List (Ev T)} (hidx : IdxOk cfg (accepted tr).length) {s : St w T} (a : Act T)
    (ha : AllowedG acq a) (h : Inv cfg.cap tr s) (hg : GInv acq tr s) : GInv acq (tr ++ (step cfg acq mvf s a).2) (step cfg acq mvf s a).1 := by
  obtain ⟨hr, hp⟩ := hg
  cases a with
  | put x => simp only [step, callP]; split <;> exact ⟨hr, by simpa using hp⟩
  | numFree => simp only [step, callFree]; split <;> exact ⟨hr, by simpa using hp⟩
  | pStep j =>
    obtain ⟨e1, e2, e3⟩ := stepP_c cfg s j
    refine ⟨by rw [← hr]; exact stepP_race cfg hidx j h, ?_⟩
    simp only [step]
    rw [e1, e2]
    rcases e3 with e3 | ⟨x, b, e3⟩ | ⟨n, e3⟩ <;> rw [e3]
    · simpa using hp
    · rw [taken_put]; exact hp
    · rw [taken_free]; exact hp
  | cCall op =>
    simp only [step, callC]
    split
    · next hpc => cases op <;> first | exact ⟨hr, .inr ha⟩ | exact ⟨hr, trivial⟩
    · exact ⟨hr, by simpa using hp⟩
  | cStep j =>
    simp only [step]
    by_cases h2 : ∃ mv t, s.cpc = .get2 mv t
    · obtain ⟨mv, t, hpc⟩ := h2
      obtain ⟨g1, g2, ⟨t', x, g3⟩, g4⟩ := get2_race cfg (acq := acq) mvf hidx j h hpc
      rw [hpc] at hp
      refine ⟨?_, by rw [g3]; trivial⟩
      rw [g1, hr]
      have : ¬ s.cknow ≤ (taken tr).length := by simp only [GPc] at hp; omega
      simp [this]
    · unfold stepC
      split
      · exact ⟨hr, by simpa using hp⟩
      · split
        · exact ⟨hr, by simpa using hp⟩
        · next hl => obtain ⟨g1, g2, rfl, rfl⟩ := loadHead_spec h.hm hl; exact ⟨hr, trivial⟩
      · next o hd hpc =>
        have e := chk_n hcap h hpc
        simp only
        split
        · exact ⟨hr, trivial⟩
        · next hne =>
          refine ⟨hr, .inl ⟨rfl, ?_⟩⟩
          have : taken (tr ++ [.numFilledRet (hd - own s.tmsgs).toNat]) = taken tr := by simp [taken]
          rw [this]
          simp only
          have : (hd - own s.tmsgs).toNat ≠ 0 := fun e => hne (.inr e)
          omega
      · next mv ck hpc => rw [hpc] at hp; exact ⟨hr, by simpa [GPc] using hp⟩
      · next mv ck t hpc =>
        rw [hpc] at hp
        have hc := h.cinv
        rw [hpc] at hc
        split
        · exact ⟨hr, by rw [hpc]; simpa [GPc] using hp⟩
        · next hval s' hl =>
          obtain ⟨g1, g2, rfl, rfl⟩ := loadHead_spec h.hm hl
          split
          · exact ⟨hr, trivial⟩
          · next hne =>
            refine ⟨hr, ?_⟩
            simp only [List.append_nil, GPc]
            rw [show t = _ from hc] at hne
            have hj : ¬ j = (taken tr).length := by
              intro e; subst e; exact hne rfl
            have := h.Khv
            rcases hp with ⟨_, hp⟩ | hp
            · split <;> omega
            · rw [hp]; simp only [if_true]; omega
      · next mv t hpc => exact absurd ⟨mv, t, hpc⟩ h2
      · exact ⟨hr, trivial⟩
      · exact ⟨hr, trivial⟩
      · next hpc =>
        split
        · exact ⟨hr, by rw [hpc]; trivial⟩
        · next hl =>
          obtain ⟨g1, g2, rfl, rfl⟩ := loadHead_spec h.hm hl
          split <;> exact ⟨hr, trivial⟩
      · exact ⟨hr, trivial⟩
      · next hpc => have hc := h.cinv; rw [hpc] at hc; exact hc.elim
      · next hpc => have hc := h.cinv; rw [hpc] at hc; exact hc.elim

theorem run_GInv (cfg : Cfg w) (hcap : cfg.cap < 2 ^ w)
    {acq : Bool} (mvf : T → T) (as : List (Act T)) : ∀ {tr : List (Ev T)} {s : St w T}, IdxOk cfg (accepted (tr ++ (run cfg acq mvf s as).2)).length → (∀ a ∈ as, AllowedG acq a) →
    Inv cfg.cap tr s → GInv acq tr s → GInv acq (tr ++ (run cfg acq mvf s as).2) (run cfg acq mvf s as).1 := by
  induction as with
  | nil => intro tr s _ _ _ h; simpa [run] using h
  | cons a as ih =>
    intro tr s hidx ha h hg
    simp only [run] at hidx ⊢
    rw [← List.append_assoc] at hidx ⊢
    have hi := hidx.mono (n := (accepted tr).length) (by rw [accepted_append, accepted_append]; simp only [List.length_append]; omega)
    exact ih hidx (fun b hb => ha b (by simp [hb])) (step_Inv cfg hcap mvf hi a (ha a (by simp)).allowed h) (step_GInv cfg hcap mvf hi a (ha a (by simp)) h hg)

/-! ### Exactly the blind gets -/

theorem credit_append (b : Nat) (es fs : List (Ev T)) : credit b (es ++ fs) = credit (credit b es) fs := by
  induction es generalizing b with
  | nil => rfl
  | cons e es ih =>
    cases e with
    | getRet r => cases r <;> simp [credit, ih]
    | removeRet r => cases r <;> simp [credit, ih]
    | _ => simp [credit, ih]

theorem blind_append (b : Nat) (es fs : List (Ev T)) : Blind b (es ++ fs) ↔ Blind b es ∨ Blind (credit b es) fs := by
  induction es generalizing b with
  | nil => simp [Blind, credit]
  | cons e es ih =>
    cases e with
    | getRet r => cases r <;> simp [Blind, credit, ih, or_assoc]
    | removeRet r => cases r <;> simp [Blind, credit, ih]
    | _ => simp [Blind, credit, ih]

/-- the reading step of a `get` that was not announced -/
def blindRead (c : Nat) : CPc w T → Prop
  | .get3 _ _ => c = 0
  | _ => False

def inChk : CPc w T → Prop
  | .chk1 _ _ => True
  | _ => False

structure XInv (tr : List (Ev T)) (s : St w T) : Prop where
  race : s.race = true ↔ Blind 0 tr ∨ blindRead (credit 0 tr) s.cpc
  credit : ¬ inChk s.cpc → credit 0 tr = s.cknow - (taken tr).length

/-- a step that neither reads a slot nor emits an event -/
theorem XInv_quiet {tr : List (Ev T)} {s s' : St w T} (h : XInv tr s) (hr : s'.race = s.race) (hk : s'.cknow = s.cknow)
    (h1 : ¬ inChk s.cpc) (h3 : ∀ t x, s.cpc ≠ .get3 t x) (h3' : ∀ t x, s'.cpc ≠ .get3 t x) {es : List (Ev T)}
    (he : ∀ b, Spsc.Spec.credit b es = b) (hb : ∀ b, ¬ Blind b es) (ht : taken es = []) : XInv (tr ++ es) s' := by
  have n1 : ∀ (c : Nat) (p : CPc w T), (∀ t x, p ≠ .get3 t x) → ¬ blindRead c p := by
    intro c p hp
    cases p <;> simp_all [blindRead]
  constructor
  · rw [hr, h.race, blind_append]
    simp only [hb, or_false, n1 _ _ h3, n1 _ _ h3']
  · intro _
    rw [credit_append, he, h.credit h1, hk, taken_append, ht, List.append_nil]

theorem step_XInv (cfg : Cfg w) (hcap : cfg.cap < 2 ^ w) (mvf : T → T) {tr : List (Ev T)} (hidx : IdxOk cfg (accepted tr).length) {s : St w T} (a : Act T)
    (ha : Allowed a) (h : Inv cfg.cap tr s) (hx : XInv tr s) : XInv (tr ++ (step cfg false mvf s a).2) (step cfg false mvf s a).1 := by
  cases a with
  | put x => simp only [step, callP]; split <;> simp only [List.append_nil] <;> exact ⟨hx.race, hx.credit⟩
  | numFree => simp only [step, callFree]; split <;> simp only [List.append_nil] <;> exact ⟨hx.race, hx.credit⟩
  | pStep j =>
    obtain ⟨e1, e2, e3⟩ := stepP_c cfg s j
    have e4 := stepP_race cfg hidx j h
    simp only [step]
    constructor
    · rw [e4, e1, hx.race]
      rcases e3 with e3 | ⟨x, b, e3⟩ | ⟨n, e3⟩ <;> rw [e3]
      · simp
      · rw [blind_append, credit_append]; simp [Blind, Spsc.Spec.credit]
      · rw [blind_append, credit_append]; simp [Blind, Spsc.Spec.credit]
    · rw [e1, e2]
      intro hn
      rcases e3 with e3 | ⟨x, b, e3⟩ | ⟨n, e3⟩ <;> rw [e3]
      · simpa using hx.credit hn
      · rw [credit_append, taken_put]; exact hx.credit hn
      · rw [credit_append, taken_free]; exact hx.credit hn
  | cCall op =>
    simp only [step, callC]
    split
    · next hpc =>
      have L : ∀ p : CPc w T, (∀ t x, p ≠ .get3 t x) → XInv (tr ++ []) { s with cpc := p } :=
        fun p hp => XInv_quiet (s' := { s with cpc := p }) hx rfl rfl (by rw [hpc]; exact id) (by rw [hpc]; simp) hp (fun _ => rfl) (fun _ => id) rfl
      cases op <;> exact L _ (by simp)
    · simpa using hx
  | cStep j =>
    simp only [step]
    have L : ∀ (p : CPc w T) (hv : Nat) (es : List (Ev T)), ¬ inChk s.cpc → (∀ t x, s.cpc ≠ .get3 t x) → (∀ t x, p ≠ .get3 t x) →
        (∀ b, Spsc.Spec.credit b es = b) → (∀ b, ¬ Blind b es) → taken es = [] →
        XInv (tr ++ es) { s with cpc := p, hv := hv, cknow := s.cknow } :=
      fun p hv es a1 a2 a3 a4 a5 a6 => XInv_quiet (s' := { s with cpc := p, hv := hv, cknow := s.cknow }) hx rfl rfl a1 a2 a3 a4 a5 a6
    by_cases h2 : ∃ mv t, s.cpc = .get2 mv t
    · obtain ⟨mv, t, hpc⟩ := h2
      obtain ⟨g1, g2, ⟨t', x, g3⟩, g4⟩ := get2_race cfg (acq := false) mvf hidx j h hpc
      have hcr := hx.credit (by rw [hpc]; exact id)
      rw [g4, List.append_nil]
      constructor
      · rw [g1, g3]
        have := hx.race
        rw [hpc] at this
        simp only [blindRead, or_false] at this ⊢
        rw [Bool.or_eq_true, this, decide_eq_true_iff, hcr, Nat.sub_eq_zero_iff_le]
      · intro _; rw [g2]; exact hcr
    · unfold stepC
      split
      · simpa using hx
      · next o hpc =>
        split
        · simpa using hx
        · next hl =>
          obtain ⟨g1, g2, rfl, rfl⟩ := loadHead_spec h.hm hl
          refine ⟨?_, fun hn => absurd trivial hn⟩
          have := hx.race
          rw [hpc] at this
          simpa [blindRead] using this
      · next o hd hpc =>
        have e := chk_n hcap h hpc
        have hr := hx.race
        rw [hpc] at hr
        have key : ∀ p : CPc w T, (∀ t x, p ≠ .get3 t x) → XInv (tr ++ [.numFilledRet (hd - own s.tmsgs).toNat]) { s with cpc := p } := by
          intro p hp
          constructor
          · rw [blind_append]
            have : ∀ c, ¬ blindRead c p := by intro c; cases p <;> simp_all [blindRead]
            simp only [this, or_false, Blind]
            simpa [blindRead] using hr
          · intro _
            have : taken (tr ++ [.numFilledRet (hd - own s.tmsgs).toNat]) = taken tr := by simp [taken]
            rw [this, credit_append]
            exact e
        simp only
        split <;> exact key _ (by simp)
      · next mv ck hpc =>
        exact L _ s.hv [] (by rw [hpc]; exact id) (by rw [hpc]; simp) (by simp) (fun _ => rfl) (fun _ => id) rfl
      · next mv ck t hpc =>
        split
        · simpa using hx
        · next hval s' hl =>
          obtain ⟨g1, g2, rfl, rfl⟩ := loadHead_spec h.hm hl
          split <;> exact L _ j _ (by rw [hpc]; exact id) (by rw [hpc]; simp) (by simp) (fun _ => rfl) (fun _ => id) rfl
      · next mv t hpc => exact absurd ⟨mv, t, hpc⟩ h2
      · next t x hpc =>
        have hr := hx.race
        have hcr := hx.credit (by rw [hpc]; exact id)
        rw [hpc] at hr
        constructor
        · rw [blind_append]
          simp only [blindRead, or_false, Blind] at hr ⊢
          exact hr
        · intro _
          have : taken (tr ++ [.getRet (some x)]) = taken tr ++ [some x] := by simp [taken]
          rw [this, credit_append]
          simp only [Spsc.Spec.credit, hcr, List.length_append, List.length_singleton]
          omega
      · next hpc => exact L _ s.hv [] (by rw [hpc]; exact id) (by rw [hpc]; simp) (by simp) (fun _ => rfl) (fun _ => id) rfl
      · next hpc =>
        split
        · simpa using hx
        · next hl =>
          obtain ⟨g1, g2, rfl, rfl⟩ := loadHead_spec h.hm hl
          split <;> exact L _ j _ (by rw [hpc]; exact id) (by rw [hpc]; simp) (by simp) (fun _ => rfl) (fun _ => id) rfl
      · next t hpc =>
        have hr := hx.race
        have hcr := hx.credit (by rw [hpc]; exact id)
        rw [hpc] at hr
        constructor
        · rw [blind_append]
          simp only [blindRead, or_false, Blind] at hr ⊢
          exact hr
        · intro _
          have : taken (tr ++ [Ev.removeRet true]) = taken tr ++ [none] := by simp [taken]
          rw [this, credit_append]
          simp only [Spsc.Spec.credit, hcr, List.length_append, List.length_singleton]
          omega
      · next hpc => have hc := h.cinv; rw [hpc] at hc; exact hc.elim
      · next hpc => have hc := h.cinv; rw [hpc] at hc; exact hc.elim

theorem run_XInv (cfg : Cfg w) (hcap : cfg.cap < 2 ^ w)
    (mvf : T → T) (as : List (Act T)) : ∀ {tr : List (Ev T)} {s : St w T}, IdxOk cfg (accepted (tr ++ (run cfg false mvf s as).2)).length → (∀ a ∈ as, Allowed a) →
    Inv cfg.cap tr s → XInv tr s → XInv (tr ++ (run cfg false mvf s as).2) (run cfg false mvf s as).1 := by
  induction as with
  | nil => intro tr s _ _ _ h; simpa [run] using h
  | cons a as ih =>
    intro tr s hidx ha h hg
    simp only [run] at hidx ⊢
    rw [← List.append_assoc] at hidx ⊢
    have hi := hidx.mono (n := (accepted tr).length) (by rw [accepted_append, accepted_append]; simp only [List.length_append]; omega)
    exact ih hidx (fun b hb => ha b (by simp [hb])) (step_Inv cfg hcap mvf hi a (ha a (by simp)) h) (step_XInv cfg hcap mvf hi a (ha a (by simp)) h hg)

theorem init_XInv (cap : Nat) (dflt : T) : XInv [] (init w cap dflt) := by
  constructor <;> simp [init, Blind, blindRead, Spsc.Spec.credit]

end SpscWeak
