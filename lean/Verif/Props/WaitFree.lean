import Verif.Model.Spsc
import Verif.Model.PoolWeak
/-! # Property C228: no call waits for another thread -/

namespace Spsc
variable {w : Nat} {T : Type}

/-- How many steps the producer takes at most until the call it is in has returned. -/
def pLeft : PPc w T → Nat
  | .idle => 0
  | .put0 _ => 4
  | .put1 _ _ => 3
  | .put2 _ _ => 2
  | .put3 _ _ => 1
  | .free0 _ => 2
  | .freeH _ _ => 1
  | .freeT _ _ => 1
  | .reset0 => 2
  | .reset1 _ => 1

/-- The same for the consumer. -/
def cLeft : CPc w T → Nat
  | .idle => 0
  | .get0 _ => 4
  | .get1 _ _ => 3
  | .get2 _ _ => 2
  | .get3 _ _ _ => 1
  | .rem0 => 3
  | .rem1 _ => 2
  | .rem2 _ => 1
  | .fill0 _ => 2
  | .fillH _ _ => 1
  | .fillT _ _ => 1
  | .reset0 => 2
  | .reset1 _ => 1

theorem pLeft_idle {p : PPc w T} (h : pLeft p = 0) : p = .idle := by
  cases p <;> simp_all [pLeft]

theorem cLeft_idle {p : CPc w T} (h : cLeft p = 0) : p = .idle := by
  cases p <;> simp_all [cLeft]

theorem stepP_facts (cfg : Cfg w) (hidx : ∀ c, cfg.idx c < cfg.cap) (hf : Bool) (s : St w T) (hb : s.buf.length = cfg.cap) :
    pLeft (stepP cfg hf s).1.ppc ≤ pLeft s.ppc - 1 ∧ (stepP cfg hf s).1.cpc = s.cpc ∧ (stepP cfg hf s).1.buf.length = cfg.cap := by
  unfold stepP
  split
  · next h => simp [h, pLeft, hb]
  · next h => simp [h, pLeft, hb]
  · next h => split <;> simp [h, pLeft, hb]
  · next x c h => rw [if_pos (by rw [hb]; exact hidx c)]; simp [h, pLeft, hb]
  · next h => simp [h, pLeft, hb]
  · next h => split <;> simp [h, pLeft, hb]
  · next h => simp [h, pLeft, hb]
  · next h => simp [h, pLeft, hb]
  · next h => simp [h, pLeft, hb]
  · next h => simp [h, pLeft, hb]

theorem stepC_facts (cfg : Cfg w) (hidx : ∀ c, cfg.idx c < cfg.cap) (dflt : T) (mv : T → T) (hf : Bool) (s : St w T) (hb : s.buf.length = cfg.cap) :
    cLeft (stepC cfg dflt mv hf s).1.cpc ≤ cLeft s.cpc - 1 ∧ (stepC cfg dflt mv hf s).1.ppc = s.ppc ∧ (stepC cfg dflt mv hf s).1.buf.length = cfg.cap := by
  unfold stepC
  split
  · next h => simp [h, cLeft, hb]
  · next h => simp [h, cLeft, hb]
  · next h => split <;> simp [h, cLeft, hb]
  · next k t h =>
    have : s.buf[cfg.idx t]? = some (s.buf[cfg.idx t]'(by rw [hb]; exact hidx t)) := List.getElem?_eq_getElem _
    rw [this]
    simp only [h, cLeft]
    refine ⟨by omega, trivial, ?_⟩
    split <;> simp [hb]
  · next h => simp [h, cLeft, hb]
  · next h => simp [h, cLeft, hb]
  · next h => split <;> simp [h, cLeft, hb]
  · next h => simp [h, cLeft, hb]
  · next h => split <;> simp [h, cLeft, hb]
  · next h => simp [h, cLeft, hb]
  · next h => simp [h, cLeft, hb]
  · next h => simp [h, cLeft, hb]
  · next h => simp [h, cLeft, hb]

theorem callP_facts (s : St w T) (op : POp T) : (callP s op).1.cpc = s.cpc ∧ (callP s op).1.buf = s.buf := by
  unfold callP
  split
  · cases op <;> simp
  · simp

theorem callC_facts (s : St w T) (op : COp) : (callC s op).1.ppc = s.ppc ∧ (callC s op).1.buf = s.buf := by
  unfold callC
  split
  · cases op <;> simp
  · simp

/-- How many steps of the schedule are the producer's. -/
def pSteps : List (Act T) → Nat
  | [] => 0
  | .pStep _ :: l => pSteps l + 1
  | _ :: l => pSteps l

/-- How many steps of the schedule are the consumer's. -/
def cSteps : List (Act T) → Nat
  | [] => 0
  | .cStep _ :: l => cSteps l + 1
  | _ :: l => cSteps l

theorem run_pLeft (cfg : Cfg w) (hidx : ∀ c, cfg.idx c < cfg.cap) (dflt : T) (mv : T → T) (l : List (Act T)) : ∀ s : St w T, s.buf.length = cfg.cap → (∀ a ∈ l, ∀ op, a ≠ .pCall op) →
    pLeft (run cfg dflt mv s l).1.ppc ≤ pLeft s.ppc - pSteps l := by
  induction l with
  | nil => intro s _ _; simp [run, pSteps]
  | cons a l ih =>
    intro s hb hl
    have hl' : ∀ b ∈ l, ∀ op, b ≠ Act.pCall op := fun b hb' => hl b (by simp [hb'])
    simp only [run]
    cases a with
    | pCall op => exact absurd rfl (hl _ (by simp) op)
    | pStep hf =>
      obtain ⟨k1, _, k3⟩ := stepP_facts cfg hidx hf s hb
      have := ih _ k3 hl'
      simp only [step, pSteps] at this ⊢
      omega
    | cCall op =>
      obtain ⟨k1, k2⟩ := callC_facts s op
      have := ih (callC s op).1 (by rw [k2]; exact hb) hl'
      simp only [step, pSteps]
      rwa [k1] at this
    | cStep hf =>
      obtain ⟨_, k2, k3⟩ := stepC_facts cfg hidx dflt mv hf s hb
      have := ih _ k3 hl'
      simp only [step, pSteps]
      rwa [k2] at this

theorem run_cLeft (cfg : Cfg w) (hidx : ∀ c, cfg.idx c < cfg.cap) (dflt : T) (mv : T → T) (l : List (Act T)) : ∀ s : St w T, s.buf.length = cfg.cap → (∀ a ∈ l, ∀ op, a ≠ .cCall op) →
    cLeft (run cfg dflt mv s l).1.cpc ≤ cLeft s.cpc - cSteps l := by
  induction l with
  | nil => intro s _ _; simp [run, cSteps]
  | cons a l ih =>
    intro s hb hl
    have hl' : ∀ b ∈ l, ∀ op, b ≠ Act.cCall op := fun b hb' => hl b (by simp [hb'])
    simp only [run]
    cases a with
    | cCall op => exact absurd rfl (hl _ (by simp) op)
    | cStep hf =>
      obtain ⟨k1, _, k3⟩ := stepC_facts cfg hidx dflt mv hf s hb
      have := ih _ k3 hl'
      simp only [step, cSteps] at this ⊢
      omega
    | pCall op =>
      obtain ⟨k1, k2⟩ := callP_facts s op
      have := ih (callP s op).1 (by rw [k2]; exact hb) hl'
      simp only [step, cSteps]
      rwa [k1] at this
    | pStep hf =>
      obtain ⟨_, k2, k3⟩ := stepP_facts cfg hidx hf s hb
      have := ih _ k3 hl'
      simp only [step, cSteps]
      rwa [k2] at this

/-- Whose turn it is to return, and after how many accesses to memory of its own at most. -/
def POp.bound : POp T → Nat
  | .put _ => 4
  | _ => 2

def COp.bound : COp → Nat
  | .get => 4
  | .getMove => 4
  | .getOrDefault => 4
  | .removeFirst => 3
  | _ => 2

/-- **C228**: in a `LockFreeFifoSpsc` or `LockFreeFifoSpscDyn` of any capacity that is not 0, in whatever state the counters and the other thread are, every call of the producer returns after at most four accesses of its own (`put`; the other functions two),
whatever the consumer does, or does not do, in the meantime. -/
theorem C228_producer (cfg : Cfg w) (hidx : ∀ c, cfg.idx c < cfg.cap) (dflt : T) (mv : T → T) (s : St w T) (hb : s.buf.length = cfg.cap) (hi : s.ppc = .idle) (op : POp T) (l : List (Act T))
    (hl : ∀ a ∈ l, ∀ op, a ≠ .pCall op) (hn : op.bound ≤ pSteps l) : (run cfg dflt mv s (.pCall op :: l)).1.ppc = .idle := by
  apply pLeft_idle
  have h := run_pLeft cfg hidx dflt mv l (callP s op).1 (by rw [(callP_facts s op).2]; exact hb) hl
  have hb' : pLeft (callP s op).1.ppc ≤ op.bound := by
    unfold callP
    rw [hi]
    cases op <;> simp [pLeft, POp.bound]
  simp only [run, step]
  omega

/-- **C228**: the same for the consumer: four accesses for `get`, `get_move` and `get_or_default`, three for `remove_first`, two for the others. -/
theorem C228_consumer (cfg : Cfg w) (hidx : ∀ c, cfg.idx c < cfg.cap) (dflt : T) (mv : T → T) (s : St w T) (hb : s.buf.length = cfg.cap) (hi : s.cpc = .idle) (op : COp) (l : List (Act T))
    (hl : ∀ a ∈ l, ∀ op, a ≠ .cCall op) (hn : op.bound ≤ cSteps l) : (run cfg dflt mv s (.cCall op :: l)).1.cpc = .idle := by
  apply cLeft_idle
  have h := run_cLeft cfg hidx dflt mv l (callC s op).1 (by rw [(callC_facts s op).2]; exact hb) hl
  have hb' : cLeft (callC s op).1.cpc ≤ op.bound := by
    unfold callC
    rw [hi]
    cases op <;> simp [cLeft, COp.bound]
  simp only [run, step]
  omega

/-- Both FIFOs keep their indices inside the buffer. -/
theorem C228_index (k n : Nat) (hk : k < w) (hn : 0 < n) : (∀ c, (fixedCfg w k).idx c < (fixedCfg w k).cap) ∧ (∀ c, (dynCfg w n).idx c < (dynCfg w n).cap) := by
  refine ⟨fun c => ?_, fun c => Nat.mod_lt _ hn⟩
  have hp : 2 ^ k < 2 ^ w := Nat.pow_lt_pow_right (by omega) hk
  have h1 : 1 ≤ 2 ^ k := Nat.one_le_two_pow
  have e : (BitVec.ofNat w (2 ^ k) - 1#w).toNat = 2 ^ k - 1 := by
    have hw : 0 < w := by omega
    have h2 : 1 < 2 ^ w := by omega
    rw [BitVec.toNat_sub, BitVec.toNat_ofNat, BitVec.toNat_ofNat, Nat.mod_eq_of_lt hp, Nat.mod_eq_of_lt h2]
    rw [show 2 ^ w - 1 + 2 ^ k = (2 ^ k - 1) + 2 ^ w by omega, Nat.add_mod_right, Nat.mod_eq_of_lt (by omega)]
  show (c &&& (BitVec.ofNat w (2 ^ k) - 1#w)).toNat < 2 ^ k
  rw [BitVec.toNat_and, e]
  exact Nat.lt_of_le_of_lt Nat.and_le_right (by omega)

/-- four accesses are needed by a successful `put`, and a consumer that is stopped in the middle of `get` does not delay it -/
example : (run (fixedCfg 64 1) (0 : Nat) id (init 64 2 0 0) [.pCall (.put 7), .pStep true, .pStep true, .pStep true]).1.ppc ≠ .idle ∧
    (run (fixedCfg 64 1) (0 : Nat) id (init 64 2 0 0) [.cCall .get, .cStep true, .pCall (.put 7), .pStep true, .pStep true, .pStep true, .pStep true]).2 = [.putRet 7 true] := by decide

end Spsc

namespace PoolWeak

/-- How many steps a thread in `create()` or `clear()` takes at most until it returns. -/
def left (n : Nat) : Loc → Nat
  | .idle => 0
  | .creating i => n + 1 - i
  | .clearing i false => 2 * (n - i) + 1
  | .clearing i true => 2 * (n - i)

/-- The step that goes on in the call (not one that begins a call). -/
def Goes : Act → Prop
  | .cas => True
  | .endCreate => True
  | .clearStep => True
  | _ => False

/-- Where a thread is in a call of a pool of `n` entries. -/
def Within (n : Nat) : Loc → Prop
  | .idle => True
  | .creating i => i ≤ n
  | .clearing i false => i ≤ n
  | .clearing i true => i < n

theorem wf_upd_same {α : Type} (f : Nat → α) (k : Nat) (v : α) : upd f k v k = v := by simp [upd]
theorem wf_upd_other {α : Type} (f : Nat → α) (k : Nat) (v : α) (x : Nat) (h : x ≠ k) : upd f k v x = f x := by simp [upd, h]

theorem step_other {N : Nat} {s s' : St} {u : Nat} {a : Act} {e : List Event} (h : step N s u a = some (s', e)) :
    (∀ t, t ≠ u → s'.loc t = s.loc t) ∧ s'.flags.length = s.flags.length := by
  cases a with
  | startCreate =>
    simp only [step] at h
    split at h
    · cases h; exact ⟨fun t ht => wf_upd_other _ _ _ _ ht, rfl⟩
    · cases h
  | cas =>
    simp only [step] at h
    split at h
    · split at h
      · cases h; exact ⟨fun t ht => wf_upd_other _ _ _ _ ht, by simp [rmw]⟩
      · cases h; exact ⟨fun t ht => wf_upd_other _ _ _ _ ht, rfl⟩
      · cases h
    · cases h
  | endCreate =>
    simp only [step] at h
    split at h
    · split at h
      · cases h
      · cases h; exact ⟨fun t ht => wf_upd_other _ _ _ _ ht, rfl⟩
    · cases h
  | destroy idx =>
    simp only [step] at h
    split at h
    · split at h
      · split at h
        · cases h; exact ⟨fun _ _ => rfl, by simp [rmw]⟩
        · cases h; exact ⟨fun _ _ => rfl, rfl⟩
      · cases h; exact ⟨fun _ _ => rfl, rfl⟩
    · cases h
  | read idx =>
    simp only [step] at h
    split at h
    · cases h; exact ⟨fun _ _ => rfl, rfl⟩
    · cases h
  | write idx =>
    simp only [step] at h
    split at h
    · cases h; exact ⟨fun _ _ => rfl, rfl⟩
    · cases h
  | startClear =>
    simp only [step] at h
    split at h
    · cases h; exact ⟨fun t ht => wf_upd_other _ _ _ _ ht, rfl⟩
    · cases h
  | clearStep =>
    simp only [step] at h
    split at h
    · split at h
      · split at h
        · cases h; exact ⟨fun t ht => wf_upd_other _ _ _ _ ht, by simp⟩
        · cases h; exact ⟨fun t ht => wf_upd_other _ _ _ _ ht, rfl⟩
      · cases h; exact ⟨fun t ht => wf_upd_other _ _ _ _ ht, rfl⟩
    · cases h
  | look v =>
    simp only [step] at h
    split at h
    · cases h
    · split at h <;> cases h <;> exact ⟨fun _ _ => rfl, rfl⟩
  | sync v =>
    simp only [step] at h
    split at h
    · cases h; exact ⟨fun _ _ => rfl, rfl⟩
    · cases h

theorem step_own {N : Nat} {s s' : St} {t : Nat} {a : Act} {e : List Event} (h : step N s t a = some (s', e)) (ha : Goes a) (hw : Within s.flags.length (s.loc t)) :
    left s.flags.length (s'.loc t) < left s.flags.length (s.loc t) ∧ Within s.flags.length (s'.loc t) := by
  cases a with
  | cas =>
    simp only [step] at h
    split at h
    · next i hl =>
      split at h
      · cases h
        simp only [wf_upd_same, hl, left, Within] at hw ⊢
        exact ⟨by omega, trivial⟩
      · next hf =>
        cases h
        have := (List.getElem?_eq_some_iff.mp hf).1
        simp only [wf_upd_same, hl, left, Within]
        omega
      · cases h
    · cases h
  | endCreate =>
    simp only [step] at h
    split at h
    · next i hl =>
      split at h
      · cases h
      · cases h
        simp only [wf_upd_same, hl, left, Within] at hw ⊢
        exact ⟨by omega, trivial⟩
    · cases h
  | clearStep =>
    simp only [step] at h
    split at h
    · next i w hl =>
      split at h
      · next hi =>
        split at h
        · next hw' =>
          subst hw'
          cases h
          simp only [wf_upd_same, hl, left, Within]
          omega
        · next hw' =>
          cases h
          have : w = false := by simpa using hw'
          subst this
          simp only [wf_upd_same, hl, left, Within]
          exact ⟨by omega, hi⟩
      · next hi =>
        cases h
        simp only [wf_upd_same, hl, Within] at hw ⊢
        cases w with
        | false => simp [left]
        | true => exact absurd hw hi
    · cases h
  | _ => exact ha.elim

/-- How many steps of the schedule are of thread `t`. -/
def stepsOf (t : Nat) : List (Nat × Act) → Nat
  | [] => 0
  | (u, _) :: l => (if u = t then 1 else 0) + stepsOf t l

theorem run_left (N t : Nat) (l : List (Nat × Act)) : ∀ (s s' : St) (es : List Event), run N s l = some (s', es) → (∀ a, (t, a) ∈ l → Goes a) → Within s.flags.length (s.loc t) →
    left s.flags.length (s'.loc t) + stepsOf t l ≤ left s.flags.length (s.loc t) ∧ Within s.flags.length (s'.loc t) ∧ s'.flags.length = s.flags.length := by
  induction l with
  | nil => intro s s' es h _ hw; cases h; exact ⟨by simp [stepsOf], hw, rfl⟩
  | cons x l ih =>
    intro s s' es h hg hw
    obtain ⟨u, a⟩ := x
    simp only [run] at h
    split at h
    · cases h
    · next s1 e1 hs =>
      split at h
      · cases h
      · next s2 e2 hr =>
        cases h
        obtain ⟨k1, k2⟩ := step_other hs
        by_cases hu : u = t
        · subst hu
          obtain ⟨m1, m2⟩ := step_own hs (hg a (by simp)) hw
          obtain ⟨n1, n2, n3⟩ := ih s1 s' e2 hr (fun b hb => hg b (by simp [hb])) (by rw [k2]; exact m2)
          rw [k2] at n1 n2 n3
          refine ⟨?_, n2, n3⟩
          simp only [stepsOf, if_true]
          omega
        · have e := k1 t (fun h => hu h.symm)
          obtain ⟨n1, n2, n3⟩ := ih s1 s' e2 hr (fun b hb => hg b (by simp [hb])) (by rw [k2, e]; exact hw)
          rw [k2] at n1 n2 n3
          rw [e] at n1
          refine ⟨?_, n2, n3⟩
          simp only [stepsOf, if_neg hu]
          omega

/-- **C228**: in a `ThreadSafePool` of `n` entries `create()` makes at most `n` compare-exchanges, and `clear()` `2 * n` assignments, whatever the other threads do between them; the step after them returns. Until then the thread always has a next
step, whatever the state of the flags: it never waits. -/
theorem C228_pool (N t : Nat) (a0 : Act) (ha0 : a0 = .startCreate ∨ a0 = .startClear) (l : List (Nat × Act)) (s s' : St) (es : List Event) (hi : s.loc t = .idle) (h : run N s ((t, a0) :: l) = some (s', es)) (hg : ∀ a, (t, a) ∈ l → Goes a) :
    stepsOf t l ≤ (if a0 = .startCreate then s.flags.length else 2 * s.flags.length) + 1 ∧
    (s'.loc t ≠ .idle → ∃ a r, Goes a ∧ step N s' t a = some r) := by
  simp only [run] at h
  split at h
  · cases h
  · next s1 e1 hs =>
    split at h
    · cases h
    · next s2 e2 hr =>
      cases h
      have hs1 : s1.flags = s.flags ∧ left s.flags.length (s1.loc t) = (if a0 = .startCreate then s.flags.length else 2 * s.flags.length) + 1 ∧ Within s.flags.length (s1.loc t) := by
        rcases ha0 with rfl | rfl
        · simp only [step, hi, if_true] at hs
          cases hs
          exact ⟨rfl, by simp [wf_upd_same, left], by simp [wf_upd_same, Within]⟩
        · simp only [step, hi, if_true] at hs
          cases hs
          exact ⟨rfl, by simp [wf_upd_same, left], by simp [wf_upd_same, Within]⟩
      obtain ⟨f1, f2, f3⟩ := hs1
      obtain ⟨n1, n2, n3⟩ := run_left N t l s1 s' e2 hr hg (by rw [f1]; exact f3)
      rw [f1] at n1 n2 n3
      refine ⟨by omega, fun hne => ?_⟩
      cases hl : s'.loc t with
      | idle => exact absurd hl hne
      | creating i =>
        by_cases hlt : i < s'.flags.length
        · refine ⟨.cas, ?_⟩
          have e := List.getElem?_eq_getElem hlt
          simp only [step, hl, e]
          cases s'.flags[i] <;> exact ⟨_, trivial, rfl⟩
        · refine ⟨.endCreate, ?_⟩
          simp only [step, hl, if_neg hlt]
          exact ⟨_, trivial, rfl⟩
      | clearing i w =>
        refine ⟨.clearStep, ?_⟩
        simp only [step, hl]
        by_cases hlt : i < s'.flags.length
        · rw [if_pos hlt]
          cases w <;> exact ⟨_, trivial, rfl⟩
        · rw [if_neg hlt]
          exact ⟨_, trivial, rfl⟩

/-- two threads in `create()` of a pool of one entry: the second has its answer after two steps -/
example : ∃ s' es, run 2 (init 1) ((0, .startCreate) :: [(1, .startCreate), (1, .cas), (0, .cas), (0, .endCreate)]) = some (s', es) ∧ es = [.created 1 0, .failed 0] ∧
    stepsOf 0 [(1, .startCreate), (1, .cas), (0, .cas), (0, .endCreate)] = 2 := ⟨_, _, rfl, rfl, rfl⟩

end PoolWeak
