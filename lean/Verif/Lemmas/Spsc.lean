import Verif.Spec.Spsc
/-! Helper lemmas for the SPSC FIFO. -/
namespace Spsc
open Spec

@[simp] theorem accepted_append (a b : List (Ev T)) : accepted (a ++ b) = accepted a ++ accepted b := by
  induction a with
  | nil => simp [accepted]
  | cons e a ih =>
    cases e <;> simp only [List.cons_append, accepted, ih]
    case putRet x ok => cases ok <;> simp [accepted, ih]

@[simp] theorem taken_append (a b : List (Ev T)) : taken (a ++ b) = taken a ++ taken b := by
  induction a with
  | nil => simp [taken]
  | cons e a ih =>
    cases e <;> simp only [List.cons_append, taken, ih, List.append_assoc]
    case getRet r => cases r <;> simp [taken, ih]
    case getOrDefaultRet b v => cases b <;> simp [taken, ih]
    case removeRet b => cases b <;> simp [taken, ih]

theorem content_length (start : List T) (es : List (Ev T)) :
    (content start es).length = (start ++ accepted es).length - (taken es).length := by
  simp [content]

/-! counters -/

theorem ofNat_sub {w a b : Nat} (h : b ≤ a) : BitVec.ofNat w a - BitVec.ofNat w b = BitVec.ofNat w (a - b) := by
  apply BitVec.eq_of_toNat_eq
  rw [BitVec.toNat_sub, BitVec.toNat_ofNat, BitVec.toNat_ofNat, BitVec.toNat_ofNat]
  have hpos : 0 < 2 ^ w := Nat.two_pow_pos w
  have h1 : b % 2 ^ w ≤ b := Nat.mod_le _ _
  have h2 : b % 2^w < 2^w := Nat.mod_lt _ hpos
  have key : (2 ^ w - b % 2 ^ w + a % 2 ^ w + b) % 2^w = ((a - b) + b) % 2^w := by
    rw [Nat.sub_add_cancel h]
    have : (2 ^ w - b % 2 ^ w + a % 2 ^ w + b) = 2^w - b % 2^w + b + a % 2^w := by omega
    rw [this]
    have hb : 2^w - b % 2^w + b = 2^w * (b / 2^w + 1) := by
      have := Nat.div_add_mod b (2^w)
      rw [Nat.mul_add, Nat.mul_one]; omega
    rw [hb, Nat.add_comm, Nat.add_mul_mod_self_left, Nat.mod_mod]
  exact Nat.ModEq.add_right_cancel' b key
where
  Nat.ModEq.add_right_cancel' {x y n : Nat} (c : Nat) (h : (x + c) % n = (y + c) % n) : x % n = y % n := by
    have := Nat.sub_mod_eq_zero_of_mod_eq h
    have h2 := Nat.sub_mod_eq_zero_of_mod_eq h.symm
    rcases Nat.le_total x y with hxy | hxy
    · have e : y + c - (x + c) = y - x := by omega
      rw [e] at h2
      obtain ⟨k, hk⟩ := Nat.dvd_of_mod_eq_zero h2
      have : y = x + n * k := by omega
      rw [this, Nat.add_mul_mod_self_left]
    · have e : x + c - (y + c) = x - y := by omega
      rw [e] at this
      obtain ⟨k, hk⟩ := Nat.dvd_of_mod_eq_zero this
      have : x = y + n * k := by omega
      rw [this, Nat.add_mul_mod_self_left]

theorem ofNat_inj_lt {w a b : Nat} (ha : a < 2 ^ w) (hb : b < 2 ^ w) :
    BitVec.ofNat w a = BitVec.ofNat w b ↔ a = b := by
  constructor
  · intro h
    have := congrArg BitVec.toNat h
    simpa [BitVec.toNat_ofNat, Nat.mod_eq_of_lt ha, Nat.mod_eq_of_lt hb] using this
  · intro h; rw [h]

theorem ofNat_add_one (w a : Nat) : BitVec.ofNat w a + 1#w = BitVec.ofNat w (a + 1) := by
  simp [BitVec.ofNat_add]

theorem ofNat_eq_iff {w a b : Nat} (h : b ≤ a) (hlt : a - b < 2 ^ w) :
    BitVec.ofNat w b = BitVec.ofNat w a ↔ a = b := by
  constructor
  · intro e
    have h1 := ofNat_sub (w := w) h
    rw [e, BitVec.sub_self] at h1
    have := congrArg BitVec.toNat h1
    simp [BitVec.toNat_ofNat, Nat.mod_eq_of_lt hlt] at this
    omega
  · intro e; rw [e]

/-- The mask of the fixed-size FIFO picks the slot `i mod 2^k`, whatever the counter's wrap-around. -/
theorem fixed_idx {w k : Nat} (hk : k < w) (i : Nat) :
    (fixedCfg w k).idx (BitVec.ofNat w i) = i % (fixedCfg w k).cap := by
  unfold fixedCfg
  simp only
  have hm : (BitVec.ofNat w (2 ^ k) - 1#w) = BitVec.ofNat w (2 ^ k - 1) := by
    have := ofNat_sub (w := w) (a := 2 ^ k) (b := 1) (Nat.one_le_two_pow)
    simpa using this
  rw [hm, BitVec.toNat_and, BitVec.toNat_ofNat, BitVec.toNat_ofNat]
  have h2 : 2 ^ k - 1 < 2 ^ w := by
    have := Nat.pow_lt_pow_right (a := 2) (by omega) hk
    have := Nat.two_pow_pos k
    omega
  rw [Nat.mod_eq_of_lt h2, Nat.and_two_pow_sub_one_eq_mod]
  exact Nat.mod_mod_of_dvd i (Nat.pow_dvd_pow 2 (by omega))

theorem mod_ne_of_lt {i j n : Nat} (h1 : i < j) (h2 : j - i < n) : i % n ≠ j % n := by
  intro h
  have := Nat.sub_mod_eq_zero_of_mod_eq h.symm
  rw [Nat.mod_eq_of_lt h2] at this
  omega

/-! the invariant -/

/-- the producer is inside a call that began with event `e` and has accepted nothing since -/
def PWin (tr : List (Ev T)) : Prop :=
  ∃ pre mid, tr = pre ++ .numFreeCall :: mid ∧ Ev.numFreeCall ∉ mid ∧ accepted mid = []

def CWin (e : Ev T) (tr : List (Ev T)) : Prop :=
  ∃ pre mid, tr = pre ++ e :: mid ∧ e ∉ mid ∧ taken mid = []

def PInv (cap A K : Nat) (buf : List T) (tr : List (Ev T)) : PPc w T → Prop
  | .idle => True
  | .put0 _ => True
  | .put1 _ h => h = BitVec.ofNat w A
  | .put2 _ h => h = BitVec.ofNat w A ∧ A - K < cap
  | .put3 x h => h = BitVec.ofNat w A ∧ A - K < cap ∧ buf[A % cap]? = some x
  | .free0 _ => PWin tr
  | .freeH _ h => PWin tr ∧ h = BitVec.ofNat w A
  | .freeT _ t => ∃ pre mid K', tr = pre ++ .numFreeCall :: mid ∧ Ev.numFreeCall ∉ mid ∧ accepted mid = [] ∧
      (taken pre).length ≤ K' ∧ K' ≤ K ∧ A - K' ≤ cap ∧ t = BitVec.ofNat w K'
  | .reset0 => False
  | .reset1 _ => False

def CInv (A K : Nat) (hist : List T) (start : List T) (tr : List (Ev T)) : CPc w T → Prop
  | .idle => True
  | .get0 _ => True
  | .get1 _ t => t = BitVec.ofNat w K
  | .get2 _ t => t = BitVec.ofNat w K ∧ K < A
  | .get3 _ t x => t = BitVec.ofNat w K ∧ K < A ∧ hist[K]? = some x
  | .rem0 => True
  | .rem1 t => t = BitVec.ofNat w K
  | .rem2 t => t = BitVec.ofNat w K ∧ K < A
  | .fill0 _ => CWin .numFilledCall tr
  | .fillH _ h => ∃ pre mid A', tr = pre ++ .numFilledCall :: mid ∧ Ev.numFilledCall ∉ mid ∧ taken mid = [] ∧
      (start ++ accepted pre).length ≤ A' ∧ A' ≤ A ∧ K ≤ A' ∧ h = BitVec.ofNat w A'
  | .fillT _ t => CWin .numFilledCall tr ∧ t = BitVec.ofNat w K
  | .reset0 => CWin .resetCall tr
  | .reset1 h => ∃ pre mid A', tr = pre ++ .resetCall :: mid ∧ Ev.resetCall ∉ mid ∧ taken mid = [] ∧
      (start ++ accepted pre).length ≤ A' ∧ A' ≤ A ∧ K ≤ A' ∧ h = BitVec.ofNat w A'

/-- first index whose slot must still hold its item -/
def lo (K : Nat) : CPc w T → Nat
  | .get3 .. => K + 1
  | _ => K

structure Inv' (cap : Nat) (start : List T) (tr : List (Ev T)) (A K : Nat) (hist : List T) (s : St w T) : Prop where
  ub : s.ub = false
  buflen : s.buf.length = cap
  head : s.head = BitVec.ofNat w A
  tail : s.tail = BitVec.ofNat w K
  ka : K ≤ A
  ak : A - K ≤ cap
  order : ∀ (i : Nat) (x : T), (taken tr)[i]? = some (some x) → hist[i]? = some x
  slots : ∀ (i : Nat), lo K s.cpc ≤ i → i < A → s.buf[i % cap]? = hist[i]?
  pinv : PInv cap A K s.buf tr s.ppc
  cinv : CInv A K hist start tr s.cpc

def Inv (cap : Nat) (start : List T) (tr : List (Ev T)) (s : St w T) : Prop :=
  Inv' cap start tr (start ++ accepted tr).length (taken tr).length (start ++ accepted tr) s

/-! stability of each side's invariant under the other side's moves -/

theorem PInv_mono {cap A K K' : Nat} {buf buf' : List T} {tr es : List (Ev T)} {p : PPc w T}
    (h : PInv cap A K buf tr p) (hK : K ≤ K') (hes : Ev.numFreeCall ∉ es) (hacc : accepted es = [])
    (hbuf : ∀ x h', p = .put3 x h' → A - K < cap → buf[A % cap]? = some x → buf'[A % cap]? = some x) :
    PInv cap A K' buf' (tr ++ es) p := by
  cases p with
  | idle => trivial
  | put0 x => trivial
  | put1 x h' => exact h
  | put2 x h' => exact ⟨h.1, by have := h.2; omega⟩
  | put3 x h' => exact ⟨h.1, by have := h.2.1; omega, hbuf x h' rfl h.2.1 h.2.2⟩
  | free0 f =>
    obtain ⟨pre, mid, h1, h2, h3⟩ := h
    exact ⟨pre, mid ++ es, by simp [h1], by simp [h2, hes], by simp [h3, hacc]⟩
  | freeH f h' =>
    obtain ⟨⟨pre, mid, h1, h2, h3⟩, h4⟩ := h
    exact ⟨⟨pre, mid ++ es, by simp [h1], by simp [h2, hes], by simp [h3, hacc]⟩, h4⟩
  | freeT f t =>
    obtain ⟨pre, mid, k, h1, h2, h3, h4, h5, h6, h7⟩ := h
    exact ⟨pre, mid ++ es, k, by simp [h1], by simp [h2, hes], by simp [h3, hacc], h4, by omega, h6, h7⟩
  | reset0 => exact h
  | reset1 h' => exact h

theorem CInv_mono {A A' K : Nat} {hist ext start : List T} {tr es : List (Ev T)} {p : CPc w T}
    (h : CInv A K hist start tr p) (hA : A ≤ A') (h1es : Ev.numFilledCall ∉ es) (h2es : Ev.resetCall ∉ es)
    (htak : taken es = []) :
    CInv A' K (hist ++ ext) start (tr ++ es) p := by
  cases p with
  | idle => trivial
  | get0 k => trivial
  | get1 k t => exact h
  | get2 k t => exact ⟨h.1, by have := h.2; omega⟩
  | get3 k t x =>
    refine ⟨h.1, by have := h.2.1; omega, ?_⟩
    have := h.2.2
    rw [List.getElem?_append_left]
    · exact this
    · exact (List.getElem?_eq_some_iff.mp this).1
  | rem0 => trivial
  | rem1 t => exact h
  | rem2 t => exact ⟨h.1, by have := h.2; omega⟩
  | fill0 f =>
    obtain ⟨pre, mid, h1, h2, h3⟩ := h
    exact ⟨pre, mid ++ es, by simp [h1], by simp [h2, h1es], by simp [h3, htak]⟩
  | fillH f h' =>
    obtain ⟨pre, mid, k, h1, h2, h3, h4, h5, h6, h7⟩ := h
    exact ⟨pre, mid ++ es, k, by simp [h1], by simp [h2, h1es], by simp [h3, htak], h4, by omega, h6, h7⟩
  | fillT f h' =>
    obtain ⟨⟨pre, mid, h1, h2, h3⟩, h4⟩ := h
    exact ⟨⟨pre, mid ++ es, by simp [h1], by simp [h2, h1es], by simp [h3, htak]⟩, h4⟩
  | reset0 =>
    obtain ⟨pre, mid, h1, h2, h3⟩ := h
    exact ⟨pre, mid ++ es, by simp [h1], by simp [h2, h2es], by simp [h3, htak]⟩
  | reset1 h' =>
    obtain ⟨pre, mid, k, h1, h2, h3, h4, h5, h6, h7⟩ := h
    exact ⟨pre, mid ++ es, k, by simp [h1], by simp [h2, h2es], by simp [h3, htak], h4, by omega, h6, h7⟩

theorem freeEv_accepted (f : Bool) (n : Nat) : accepted [freeEv (T := T) f n] = [] := by
  unfold freeEv; split <;> rfl
theorem freeEv_taken (f : Bool) (n : Nat) : taken [freeEv (T := T) f n] = [] := by
  unfold freeEv; split <;> rfl
theorem fillEv_accepted (f : Bool) (n : Nat) : accepted [fillEv (T := T) f n] = [] := by
  unfold fillEv; split <;> rfl
theorem fillEv_taken (f : Bool) (n : Nat) : taken [fillEv (T := T) f n] = [] := by
  unfold fillEv; split <;> rfl

/-- A producer step that neither writes memory nor accepts an item. -/
theorem Inv_p_local {cap : Nat} {start : List T} {tr es : List (Ev T)} {s : St w T} {p : PPc w T}
    (h : Inv cap start tr s) (hacc : accepted es = []) (htak : taken es = [])
    (h1es : Ev.numFilledCall ∉ es) (h2es : Ev.resetCall ∉ es)
    (hp : PInv cap (start ++ accepted tr).length (taken tr).length s.buf (tr ++ es) p) :
    Inv cap start (tr ++ es) { s with ppc := p } := by
  unfold Inv at *
  simp only [accepted_append, taken_append, hacc, htak, List.append_nil]
  exact ⟨h.ub, h.buflen, h.head, h.tail, h.ka, h.ak, by simpa [htak] using h.order, h.slots, hp,
    by simpa using CInv_mono (ext := []) h.cinv (Nat.le_refl _) h1es h2es htak⟩

/-- A consumer step that neither writes memory nor takes an item, and is not in the middle of a `get`. -/
theorem Inv_c_local {cap : Nat} {start : List T} {tr es : List (Ev T)} {s : St w T} {p : CPc w T}
    (h : Inv cap start tr s) (hacc : accepted es = []) (htak : taken es = [])
    (h1es : Ev.numFreeCall ∉ es)
    (hlo : lo (taken tr).length s.cpc ≤ lo (taken tr).length p)
    (hp : CInv (start ++ accepted tr).length (taken tr).length (start ++ accepted tr) start (tr ++ es) p) :
    Inv cap start (tr ++ es) { s with cpc := p } := by
  unfold Inv at *
  simp only [accepted_append, taken_append, hacc, htak, List.append_nil]
  exact ⟨h.ub, h.buflen, h.head, h.tail, h.ka, h.ak, by simpa [htak] using h.order,
    fun i h1 h2 => h.slots i (Nat.le_trans hlo h1) h2,
    PInv_mono h.pinv (Nat.le_refl _) h1es hacc (fun _ _ _ _ h => h), hp⟩

variable {w : Nat} {T : Type}

theorem stepP_Inv (cfg : Cfg w) (hcap : cfg.cap < 2 ^ w) {start : List T} {tr : List (Ev T)} {s : St w T} (hf : Bool)
    (hidx : ∀ i, i ≤ (start ++ accepted tr).length → cfg.idx (BitVec.ofNat w i) = i % cfg.cap)
    (h : Inv cfg.cap start tr s) :
    Inv cfg.cap start (tr ++ (stepP cfg hf s).2) (stepP cfg hf s).1 := by
  obtain ⟨A, hA⟩ : ∃ A, (start ++ accepted tr).length = A := ⟨_, rfl⟩
  obtain ⟨K, hK⟩ : ∃ K, (taken tr).length = K := ⟨_, rfl⟩
  have h0 : Inv' cfg.cap start tr A K (start ++ accepted tr) s := by rw [← hA, ← hK]; exact h
  have hpi := h0.pinv
  have hka := h0.ka; have hak := h0.ak
  unfold stepP
  split
  · simpa using h
  · next x hp =>
    exact Inv_p_local h rfl rfl (by simp) (by simp) (by rw [hA, hK]; exact h0.head)
  · next x h' hp =>
    rw [hp] at hpi
    split
    · exact Inv_p_local h rfl rfl (by simp) (by simp) trivial
    · next hne =>
      refine Inv_p_local h rfl rfl (by simp) (by simp) ?_
      rw [hA, hK]
      have ht := h0.tail
      change h' = _ at hpi
      refine ⟨hpi, ?_⟩
      rw [hpi, ht, ofNat_sub hka, ofNat_inj_lt (by omega) (by omega)] at hne
      omega
  · next x h' hp =>
    rw [hp] at hpi
    obtain ⟨h1, h2⟩ := hpi
    have hc : 0 < cfg.cap := by omega
    have hi := hidx A (by omega)
    have hlt : cfg.idx h' < s.buf.length := by
      rw [h1, hi, h.buflen]; exact Nat.mod_lt _ hc
    rw [if_pos hlt]
    unfold Inv
    simp only [List.append_nil]
    rw [hA, hK]
    replace h := h0
    refine ⟨h.ub, by simpa using h.buflen, h.head, h.tail, h.ka, h.ak, h.order, ?_, ?_, h.cinv⟩
    · intro i hi1 hi2
      rw [← h.slots i hi1 hi2, h1, hi]
      apply List.getElem?_set_ne
      have : K ≤ i := by
        have : K ≤ lo K s.cpc := by unfold lo; split <;> omega
        simp only at hi1
        omega
      exact (mod_ne_of_lt (i := i) (j := A) (by omega) (by omega)).symm
    · refine ⟨h1, h2, ?_⟩
      rw [h1, hi, List.getElem?_set_self]
      rw [h.buflen]; exact Nat.mod_lt _ hc
  · next x h' hp =>
    rw [hp] at hpi
    obtain ⟨h1, h2, h3⟩ := hpi
    unfold Inv
    have e1 : accepted (tr ++ [Ev.putRet x true]) = accepted tr ++ [x] := by simp [accepted]
    have e2 : taken (tr ++ [Ev.putRet x true]) = taken tr := by simp [taken]
    rw [e1, e2, ← List.append_assoc]
    have hl : (start ++ accepted tr ++ [x]).length = A + 1 := by simp at hA ⊢; omega
    rw [hl, hK]
    replace h := h0
    have hord : ∀ (i : Nat) (y : T), (taken tr)[i]? = some (some y) → (start ++ accepted tr ++ [x])[i]? = some y := by
      intro i y hy
      have := h.order i y hy
      rw [List.getElem?_append_left]
      · exact this
      · exact (List.getElem?_eq_some_iff.mp this).1
    refine ⟨h.ub, h.buflen, ?_, h.tail, by omega, by omega, ?_, ?_, trivial, ?_⟩
    · simp only [h1]; exact ofNat_add_one w A
    · rw [e2]; exact hord
    · intro i hi1 hi2
      by_cases hiA : i = A
      · subst hiA
        rw [h3, List.getElem?_append_right (by omega)]
        rw [hA]; simp
      · rw [List.getElem?_append_left (by omega)]
        exact h.slots i hi1 (by omega)
    · exact CInv_mono h.cinv (by omega) (by simp) (by simp) rfl
  · next f hp =>
    rw [hp] at hpi
    split
    · refine Inv_p_local h rfl rfl (by simp) (by simp) ?_
      rw [hA, hK]
      exact ⟨by rw [List.append_nil]; exact hpi, h0.head⟩
    · refine Inv_p_local h rfl rfl (by simp) (by simp) ?_
      rw [hA, hK]
      obtain ⟨pre, mid, g1, g2, g3⟩ := hpi
      refine ⟨pre, mid, K, by simpa using g1, g2, g3, ?_, Nat.le_refl _, hak, ?_⟩
      · rw [← hK, g1]; simp
      · exact h0.tail
  · exact Inv_p_local h (freeEv_accepted _ _) (freeEv_taken _ _) (by unfold freeEv; split <;> simp)
      (by unfold freeEv; split <;> simp) trivial
  · exact Inv_p_local h (freeEv_accepted _ _) (freeEv_taken _ _) (by unfold freeEv; split <;> simp)
      (by unfold freeEv; split <;> simp) trivial
  · next hp => rw [hp] at hpi; exact hpi.elim
  · next h' hp => rw [hp] at hpi; exact hpi.elim

theorem callP_Inv {cap : Nat} {start : List T} {tr : List (Ev T)} {s : St w T} (op : POp T) (hop : op ≠ .reset)
    (h : Inv cap start tr s) : Inv cap start (tr ++ (callP s op).2) (callP s op).1 := by
  unfold callP
  split
  · cases op with
    | put x => exact Inv_p_local h rfl rfl (by simp) (by simp) trivial
    | numFree => exact Inv_p_local h rfl rfl (by simp) (by simp) ⟨tr, [], rfl, by simp, rfl⟩
    | full => exact Inv_p_local h rfl rfl (by simp) (by simp) ⟨tr, [], rfl, by simp, rfl⟩
    | reset => exact absurd rfl hop
  · simpa using h

theorem callC_Inv {cap : Nat} {start : List T} {tr : List (Ev T)} {s : St w T} (op : COp)
    (h : Inv cap start tr s) : Inv cap start (tr ++ (callC s op).2) (callC s op).1 := by
  unfold callC
  split
  · next hp =>
    have hl : ∀ p : CPc w T, lo (taken tr).length s.cpc ≤ lo (taken tr).length p := by
      intro p; rw [hp]; unfold lo; split <;> (try split) <;> simp_all
    cases op with
    | get => exact Inv_c_local h rfl rfl (by simp) (hl _) trivial
    | getMove => exact Inv_c_local h rfl rfl (by simp) (hl _) trivial
    | getOrDefault => exact Inv_c_local h rfl rfl (by simp) (hl _) trivial
    | removeFirst => exact Inv_c_local h rfl rfl (by simp) (hl _) trivial
    | numFilled => exact Inv_c_local h rfl rfl (by simp) (hl _) ⟨tr, [], rfl, by simp, rfl⟩
    | empty => exact Inv_c_local h rfl rfl (by simp) (hl _) ⟨tr, [], rfl, by simp, rfl⟩
    | reset => exact Inv_c_local h rfl rfl (by simp) (hl _) ⟨tr, [], rfl, by simp, rfl⟩
  · simpa using h

/-- The consumer's tail store: `n` items leave. -/
theorem Inv_c_take {cap : Nat} {start : List T} {tr : List (Ev T)} {s : St w T} {e : Ev T} {ts : List (Option T)}
    (h : Inv cap start tr s) (hacc : accepted [e] = []) (htak : taken [e] = ts) (he : e ≠ .numFreeCall)
    (hlen : (taken tr).length + ts.length ≤ (start ++ accepted tr).length)
    (hval : ∀ (i : Nat) (x : T), ts[i]? = some (some x) → (start ++ accepted tr)[(taken tr).length + i]? = some x)
    (hlo : lo (taken tr).length s.cpc ≤ (taken tr).length + ts.length) :
    Inv cap start (tr ++ [e])
      { s with tail := BitVec.ofNat w ((taken tr).length + ts.length), cpc := .idle } := by
  unfold Inv
  simp only [accepted_append, taken_append, hacc, htak, List.append_nil, List.length_append (as := taken tr)]
  refine ⟨h.ub, h.buflen, h.head, rfl, hlen, ?_, ?_, ?_, ?_, trivial⟩
  · have := h.ak; omega
  · intro i x hx
    rw [taken_append, htak] at hx
    by_cases hi : i < (taken tr).length
    · rw [List.getElem?_append_left hi] at hx
      exact h.order i x hx
    · rw [List.getElem?_append_right (by omega)] at hx
      have := hval _ _ hx
      rwa [show (taken tr).length + (i - (taken tr).length) = i by omega] at this
  · intro i h1 h2
    simp only [lo] at h1
    exact h.slots i (by omega) h2
  · exact PInv_mono h.pinv (by omega) (by simpa using Ne.symm he) hacc (fun _ _ _ _ h => h)

theorem stepC_Inv (cfg : Cfg w) (hcap : cfg.cap < 2 ^ w) (dflt : T) (mv : T → T)
    {start : List T} {tr : List (Ev T)} {s : St w T} (hf : Bool)
    (hidx : ∀ i, i ≤ (start ++ accepted tr).length → cfg.idx (BitVec.ofNat w i) = i % cfg.cap)
    (h : Inv cfg.cap start tr s) :
    Inv cfg.cap start (tr ++ (stepC cfg dflt mv hf s).2) (stepC cfg dflt mv hf s).1 := by
  obtain ⟨A, hA⟩ : ∃ A, (start ++ accepted tr).length = A := ⟨_, rfl⟩
  obtain ⟨K, hK⟩ : ∃ K, (taken tr).length = K := ⟨_, rfl⟩
  have h0 : Inv' cfg.cap start tr A K (start ++ accepted tr) s := by rw [← hA, ← hK]; exact h
  have hci := h0.cinv
  have hka := h0.ka; have hak := h0.ak
  unfold stepC
  split
  · simpa using h
  · next k hp =>
    exact Inv_c_local h rfl rfl (by simp) (by simp [hp, lo]) (by rw [hK]; exact h0.tail)
  · next k t hp =>
    rw [hp] at hci
    have hci : t = BitVec.ofNat w K := hci
    split
    · exact Inv_c_local h (by split <;> rfl) (by split <;> rfl) (by simp; split <;> simp) (by simp [hp, lo]) trivial
    · next hne =>
      refine Inv_c_local h rfl rfl (by simp) (by simp [hp, lo]) ?_
      rw [hK, hA]
      refine ⟨hci, ?_⟩
      rw [hci, h0.head, ofNat_eq_iff hka (by omega)] at hne
      omega
  · next k t hp =>
    rw [hp] at hci
    obtain ⟨h1, h2⟩ := hci
    have hc : 0 < cfg.cap := by omega
    have hi := hidx K (by omega)
    have hsl : s.buf[K % cfg.cap]? = (start ++ accepted tr)[K]? := h0.slots K (by rw [hp]; exact Nat.le_refl _) h2
    have hx : (start ++ accepted tr)[K]? = some ((start ++ accepted tr)[K]'(by omega)) := by simp
    generalize (start ++ accepted tr)[K]'(by omega) = x at hx
    have hbuf : s.buf[cfg.idx t]? = some x := by rw [h1, hi, hsl, hx]
    rw [hbuf]
    simp only
    unfold Inv
    rw [List.append_nil, hA, hK]
    have hlo : lo K s.cpc = K := by rw [hp]; rfl
    refine ⟨h0.ub, ?_, h0.head, h0.tail, h0.ka, h0.ak, h0.order, ?_, ?_, ⟨h1, h2, hx⟩⟩
    · simp only; split
      · rw [List.length_set]; exact h0.buflen
      · exact h0.buflen
    · intro i hi1 hi2
      simp only [lo] at hi1
      rw [← h0.slots i (by omega) hi2]
      simp only
      split
      · rw [h1, hi]
        apply List.getElem?_set_ne
        exact mod_ne_of_lt (by omega) (by omega)
      · rfl
    · have := PInv_mono (K' := K) (es := [])
        (buf' := if k = GetKind.move then s.buf.set (cfg.idx t) (mv x) else s.buf) h0.pinv (Nat.le_refl _) (by simp) rfl ?_
      · simpa using this
      · intro y h' _ hlt hy
        split
        · rw [h1, hi, List.getElem?_set_ne]
          · exact hy
          · exact mod_ne_of_lt (by omega) (by omega)
        · exact hy
  · next k t x hp =>
    rw [hp] at hci
    obtain ⟨h1, h2, h3⟩ := hci
    have := Inv_c_take (e := if k = GetKind.orDefault then Ev.getOrDefaultRet true x else Ev.getRet (some x))
      (ts := [some x]) h (by split <;> rfl) (by split <;> rfl) (by split <;> simp) (by rw [hK, hA]; simp; omega)
      (by
        intro i y hy
        match i with
        | 0 => simp at hy; rw [hK]; simpa [hy] using h3
        | i + 1 => simp at hy)
      (by rw [hp, hK]; simp [lo])
    rw [hK] at this
    rw [h1, ofNat_add_one]
    exact this
  · next hp => exact Inv_c_local h rfl rfl (by simp) (by simp [hp, lo]) (by rw [hK]; exact h0.tail)
  · next t hp =>
    rw [hp] at hci
    have hci : t = BitVec.ofNat w K := hci
    split
    · next hne =>
      refine Inv_c_local h rfl rfl (by simp) (by simp [hp, lo]) ?_
      rw [hK, hA]
      refine ⟨hci, ?_⟩
      rw [Ne, hci, h0.head, ofNat_eq_iff hka (by omega)] at hne
      omega
    · exact Inv_c_local h rfl rfl (by simp) (by simp [hp, lo]) trivial
  · next t hp =>
    rw [hp] at hci
    obtain ⟨h1, h2⟩ := hci
    have := Inv_c_take (e := Ev.removeRet true)
      (ts := [none]) h rfl rfl (by simp) (by rw [hK, hA]; simp; omega)
      (by
        intro i y hy
        match i with
        | 0 => simp at hy
        | i + 1 => simp at hy)
      (by rw [hp, hK]; simp [lo])
    rw [hK] at this
    rw [h1, ofNat_add_one]
    exact this
  · next f hp =>
    rw [hp] at hci
    split
    · refine Inv_c_local h rfl rfl (by simp) (by simp [hp, lo]) ?_
      rw [hA, hK]
      obtain ⟨pre, mid, g1, g2, g3⟩ := hci
      refine ⟨pre, mid, A, by simpa using g1, g2, g3, ?_, Nat.le_refl _, hka, h0.head⟩
      rw [← hA, g1]; simp
    · refine Inv_c_local h rfl rfl (by simp) (by simp [hp, lo]) ?_
      rw [hA, hK]
      exact ⟨by rw [List.append_nil]; exact hci, h0.tail⟩
  · next f h' hp =>
    exact Inv_c_local h (fillEv_accepted _ _) (fillEv_taken _ _) (by unfold fillEv; split <;> simp)
      (by simp [hp, lo]) trivial
  · next f h' hp =>
    exact Inv_c_local h (fillEv_accepted _ _) (fillEv_taken _ _) (by unfold fillEv; split <;> simp)
      (by simp [hp, lo]) trivial
  · next hp =>
    rw [hp] at hci
    refine Inv_c_local h rfl rfl (by simp) (by simp [hp, lo]) ?_
    rw [hA, hK]
    obtain ⟨pre, mid, g1, g2, g3⟩ := hci
    refine ⟨pre, mid, A, by simpa using g1, g2, g3, ?_, Nat.le_refl _, hka, h0.head⟩
    rw [← hA, g1]; simp
  · next h' hp =>
    rw [hp] at hci
    obtain ⟨pre, mid, A', g1, g2, g3, g4, g5, g6, g7⟩ := hci
    have hn : (h' - s.tail).toNat = A' - K := by
      rw [g7, h0.tail, ofNat_sub g6, BitVec.toNat_ofNat, Nat.mod_eq_of_lt (by omega)]
    have := Inv_c_take (e := Ev.resetRet (h' - s.tail).toNat)
      (ts := List.replicate (A' - K) none) h rfl (by simp [taken, hn]) (by simp) (by rw [hK, hA]; simp; omega)
      (by
        intro i y hy
        rw [List.getElem?_replicate] at hy
        split at hy <;> simp at hy)
      (by rw [hp, hK]; simp [lo])
    rw [hK, List.length_replicate, show K + (A' - K) = A' by omega] at this
    rw [g7] at this ⊢
    exact this

/-! whole runs -/

theorem accepted_mono_len (start : List T) (tr es : List (Ev T)) :
    (start ++ accepted tr).length ≤ (start ++ accepted (tr ++ es)).length := by simp

theorem step_Inv (cfg : Cfg w) (hcap : cfg.cap < 2 ^ w) (dflt : T) (mv : T → T)
    {start : List T} {tr : List (Ev T)} {s : St w T} (a : Act T) (ha : a ≠ .pCall .reset)
    (hidx : ∀ i, i ≤ (start ++ accepted tr).length → cfg.idx (BitVec.ofNat w i) = i % cfg.cap)
    (h : Inv cfg.cap start tr s) :
    Inv cfg.cap start (tr ++ (step cfg dflt mv s a).2) (step cfg dflt mv s a).1 := by
  cases a with
  | pCall op => exact callP_Inv op (by rintro rfl; exact ha rfl) h
  | pStep hf => exact stepP_Inv cfg hcap hf hidx h
  | cCall op => exact callC_Inv op h
  | cStep hf => exact stepC_Inv cfg hcap dflt mv hf hidx h

theorem run_append (cfg : Cfg w) (dflt : T) (mv : T → T) (s : St w T) (as bs : List (Act T)) :
    run cfg dflt mv s (as ++ bs) =
      ((run cfg dflt mv (run cfg dflt mv s as).1 bs).1,
        (run cfg dflt mv s as).2 ++ (run cfg dflt mv (run cfg dflt mv s as).1 bs).2) := by
  induction as generalizing s with
  | nil => simp [run]
  | cons a as ih => simp [run, ih]

/-- `IdxOk`: counters up to `n` are mapped to slots round-robin. -/
def IdxOk (cfg : Cfg w) (n : Nat) : Prop := ∀ i, i ≤ n → cfg.idx (BitVec.ofNat w i) = i % cfg.cap

theorem run_Inv (cfg : Cfg w) (hcap : cfg.cap < 2 ^ w) (dflt : T) (mv : T → T)
    {start : List T} {tr : List (Ev T)} {s : St w T} (as : List (Act T)) (ha : NoProducerReset as)
    (hidx : IdxOk cfg (start ++ accepted (tr ++ (run cfg dflt mv s as).2)).length)
    (h : Inv cfg.cap start tr s) :
    Inv cfg.cap start (tr ++ (run cfg dflt mv s as).2) (run cfg dflt mv s as).1 := by
  induction as generalizing s tr with
  | nil => simpa [run] using h
  | cons a as ih =>
    simp only [run] at hidx ⊢
    rw [← List.append_assoc] at hidx ⊢
    apply ih (fun b hb => ha b (List.mem_cons_of_mem _ hb)) hidx
    apply step_Inv cfg hcap dflt mv a (ha a (by simp)) _ h
    intro i hi
    apply hidx
    refine Nat.le_trans hi ?_
    rw [List.append_assoc]
    exact accepted_mono_len ..

theorem step_events_le_one (cfg : Cfg w) (dflt : T) (mv : T → T) (s : St w T) (a : Act T) :
    (step cfg dflt mv s a).2.length ≤ 1 := by
  cases a with
  | pCall op => simp only [step, callP]; split <;> (try cases op) <;> simp
  | pStep hf => simp only [step, stepP]; split <;> (try split) <;> simp
  | cCall op => simp only [step, callC]; split <;> (try cases op) <;> simp
  | cStep hf => simp only [step, stepC]; split <;> (try split) <;> simp

/-- Every observed event was produced by some step of a prefix of the schedule. -/
theorem run_split (cfg : Cfg w) (dflt : T) (mv : T → T) (s : St w T) (as : List (Act T))
    (es1 es2 : List (Ev T)) (e : Ev T) (h : (run cfg dflt mv s as).2 = es1 ++ e :: es2) :
    ∃ as1 a as2, as = as1 ++ a :: as2 ∧ (run cfg dflt mv s as1).2 = es1 ∧
      (step cfg dflt mv (run cfg dflt mv s as1).1 a).2 = [e] := by
  induction as generalizing s es1 with
  | nil => simp [run] at h
  | cons a as ih =>
    simp only [run] at h
    have hle := step_events_le_one cfg dflt mv s a
    match hs : (step cfg dflt mv s a).2 with
    | [] =>
      rw [hs, List.nil_append] at h
      obtain ⟨as1, b, as2, h1, h2, h3⟩ := ih _ _ h
      exact ⟨a :: as1, b, as2, by simp [h1], by simp [run, hs, h2], by simpa [run] using h3⟩
    | [e'] =>
      rw [hs] at h
      match es1, h with
      | [], h =>
        simp at h
        exact ⟨[], a, as, rfl, rfl, by simp [run, hs, h.1]⟩
      | e1 :: es1, h =>
        simp at h
        obtain ⟨as1, b, as2, h1, h2, h3⟩ := ih _ _ h.2
        exact ⟨a :: as1, b, as2, by simp [h1], by simp [run, hs, h2, h.1], by simpa [run] using h3⟩
    | e1 :: e2 :: l => rw [hs] at hle; simp at hle

theorem init_Inv {cap : Nat} (dflt : T) (d : Nat) (hd : d ≤ cap) :
    Inv cap (List.replicate d dflt) [] (init w cap dflt d) := by
  refine ⟨rfl, by simp [init], by simp [init, accepted], by simp [init, taken], by simp [taken],
    by simp [accepted, taken]; exact hd, by simp [taken], ?_, trivial, trivial⟩
  intro i h1 h2
  simp [accepted] at h2
  simp only [init, accepted, List.append_nil, List.getElem?_replicate]
  rw [if_pos (Nat.mod_lt _ (by omega)), if_pos h2]

end Spsc
