import Verif.Lemmas.SpscWeak
import Verif.Spec.HandOver
import Mathlib.Data.List.Induction
/-! Invariants of the hand-over of buffers. -/
namespace SpscWeak
open Spsc (Cfg Ev IdxOk accepted_append taken_append)
open Spsc.Spec
variable {w : Nat} {T : Type}

/-- as long as the FIFO itself has not raced, the consumer knows of every put whose item it got -/
def KInv (tr : List (Ev T)) (s : St w T) : Prop :=
  s.race = false → (∀ (i : Nat) (x : T), (taken tr)[i]? = some (some x) → i < s.cknow) ∧ (∀ t x, s.cpc = .get3 t x → (taken tr).length < s.cknow)

theorem loadHead_mono {acq : Bool} {j : Nat} {s s' : St w T} {h : BitVec w} (hl : loadHead acq j s = some (h, s')) :
    s.cknow ≤ s'.cknow ∧ s'.race = s.race := by
  unfold loadHead at hl
  split at hl
  · split at hl
    · cases hl
    · simp only [Option.some.injEq, Prod.mk.injEq] at hl
      obtain ⟨_, rfl⟩ := hl
      refine ⟨?_, rfl⟩
      show s.cknow ≤ if acq then _ else _
      split <;> omega
  · cases hl

theorem KInv_quiet {tr : List (Ev T)} {s s' : St w T} (h : KInv tr s) {es : List (Ev T)} (hr : s'.race = s.race) (hk : s.cknow ≤ s'.cknow)
    (ht : taken es = [] ∨ taken es = [none]) (h3 : ∀ t x, s'.cpc ≠ .get3 t x) : KInv (tr ++ es) s' := by
  intro hr'
  rw [hr] at hr'
  obtain ⟨a, _⟩ := h hr'
  refine ⟨?_, fun t x hx => absurd hx (h3 t x)⟩
  intro i x hi
  rw [taken_append] at hi
  rcases ht with ht | ht
  · rw [ht, List.append_nil] at hi
    exact Nat.lt_of_lt_of_le (a i x hi) hk
  · rw [ht] at hi
    by_cases hlt : i < (taken tr).length
    · rw [List.getElem?_append_left hlt] at hi
      exact Nat.lt_of_lt_of_le (a i x hi) hk
    · rw [List.getElem?_append_right (by omega)] at hi
      rcases List.getElem?_eq_some_iff.mp hi with ⟨hl, hv⟩
      simp at hl
      simp [hl] at hv

theorem step_KInv (cfg : Cfg w) {acq : Bool} (mvf : T → T) {tr : List (Ev T)} (hidx : IdxOk cfg (accepted tr).length) {s : St w T} (a : Act T)
    (h : Inv cfg.cap tr s) (hk : KInv tr s) : KInv (tr ++ (step cfg acq mvf s a).2) (step cfg acq mvf s a).1 := by
  cases a with
  | put x => simp only [step, callP]; split <;> · rw [List.append_nil]; exact hk
  | numFree => simp only [step, callFree]; split <;> · rw [List.append_nil]; exact hk
  | pStep j =>
    obtain ⟨e1, e2, e3⟩ := stepP_c cfg s j
    have e4 := stepP_race cfg hidx j h
    simp only [step]
    unfold KInv
    rw [e1, e2, e4]
    rcases e3 with e3 | ⟨x, b, e3⟩ | ⟨n, e3⟩ <;> rw [e3]
    · rw [List.append_nil]; exact hk
    · rw [taken_put]; exact hk
    · rw [taken_free]; exact hk
  | cCall op =>
    simp only [step, callC]
    split
    · cases op <;> exact KInv_quiet hk rfl (Nat.le_refl _) (.inl rfl) (by simp)
    · rw [List.append_nil]; exact hk
  | cStep j =>
    simp only [step]
    by_cases h2 : ∃ mv t, s.cpc = .get2 mv t
    · obtain ⟨mv, t, hpc⟩ := h2
      obtain ⟨g1, g2, _, g4⟩ := get2_race cfg (acq := acq) mvf hidx j h hpc
      rw [g4, List.append_nil]
      intro hr
      rw [g1] at hr
      simp only [Bool.or_eq_false_iff, decide_eq_false_iff_not] at hr
      rw [g2]
      exact ⟨(hk hr.1).1, fun _ _ _ => by omega⟩
    · have hc := h.cinv
      unfold stepC
      split
      · rw [List.append_nil]; exact hk
      · split
        · rw [List.append_nil]; exact hk
        · next hl => obtain ⟨l1, l2⟩ := loadHead_mono hl; exact KInv_quiet hk l2 l1 (.inl rfl) (by simp)
      · simp only
        split <;> exact KInv_quiet hk rfl (Nat.le_refl _) (.inl rfl) (by simp)
      · exact KInv_quiet hk rfl (Nat.le_refl _) (.inl rfl) (by simp)
      · split
        · rw [List.append_nil]; exact hk
        · next hl =>
          obtain ⟨l1, l2⟩ := loadHead_mono hl
          split <;> exact KInv_quiet hk l2 l1 (.inl rfl) (by simp)
      · next hpc => exact absurd ⟨_, _, hpc⟩ h2
      · next t x hpc =>
        intro hr
        obtain ⟨k1, k2⟩ := hk hr
        have k3 := k2 t x hpc
        refine ⟨?_, by simp⟩
        intro i y hi
        have e : taken [Ev.getRet (some x)] = [some x] := rfl
        rw [taken_append, e] at hi
        by_cases hlt : i < (taken tr).length
        · rw [List.getElem?_append_left hlt] at hi; exact k1 i y hi
        · have := (List.getElem?_eq_some_iff.mp hi).1
          simp at this
          show i < s.cknow
          omega
      · exact KInv_quiet hk rfl (Nat.le_refl _) (.inl rfl) (by simp)
      · split
        · rw [List.append_nil]; exact hk
        · next hl =>
          obtain ⟨l1, l2⟩ := loadHead_mono hl
          split <;> exact KInv_quiet hk l2 l1 (.inl rfl) (by simp)
      · exact KInv_quiet hk rfl (Nat.le_refl _) (.inr rfl) (by simp)
      · next hpc => rw [hpc] at hc; exact hc.elim
      · next hpc => rw [hpc] at hc; exact hc.elim

theorem step_race_mono (cfg : Cfg w) {acq : Bool} (mvf : T → T) {tr : List (Ev T)} (hidx : IdxOk cfg (accepted tr).length) {s : St w T} (a : Act T)
    (h : Inv cfg.cap tr s) (hr : (step cfg acq mvf s a).1.race = false) : s.race = false := by
  cases a with
  | put x => revert hr; simp only [step, callP]; split <;> exact id
  | numFree => revert hr; simp only [step, callFree]; split <;> exact id
  | pStep j => rw [← stepP_race cfg hidx j h]; exact hr
  | cCall op => revert hr; simp only [step, callC]; split <;> (try cases op) <;> exact id
  | cStep j =>
    revert hr
    simp only [step]
    unfold stepC
    split
    · exact id
    · split
      · exact id
      · next hl => rw [← (loadHead_mono hl).2]; exact id
    · simp only; split <;> exact id
    · exact id
    · split
      · exact id
      · next hl => rw [← (loadHead_mono hl).2]; split <;> exact id
    · split
      · simp only [Bool.or_eq_false_iff]; exact And.left
      · exact id
    · exact id
    · exact id
    · split
      · exact id
      · next hl => rw [← (loadHead_mono hl).2]; split <;> exact id
    · exact id
    · split
      · exact id
      · next hl => rw [← (loadHead_mono hl).2]; exact id
    · exact id

end SpscWeak

namespace HandOver
open Spsc (Cfg Ev IdxOk accepted_append taken_append)
open Spsc.Spec (accepted taken)
open HandOver.Spec
variable {w : Nat} {V : Type}

/-- the buffers after the writes among the events -/
def mem (m : Nat → V) : List (CEv V) → (Nat → V)
  | [] => m
  | .wrote c v :: es => mem (fun d => if d = c then v else m d) es
  | _ :: es => mem m es

theorem calls_append (es fs : List (CEv V)) : calls (es ++ fs) = calls es ++ calls fs := by
  induction es with
  | nil => rfl
  | cons e es ih => cases e <;> simp [calls, ih]

theorem calls_map (es : List (Ev Nat)) : calls (es.map (CEv.fifo (V := V))) = es := by
  induction es with
  | nil => rfl
  | cons e es ih => simp [calls, ih]

theorem mem_append (m : Nat → V) (es fs : List (CEv V)) : mem m (es ++ fs) = mem (mem m es) fs := by
  induction es generalizing m with
  | nil => rfl
  | cons e es ih => cases e <;> simp [mem, ih]

theorem sent_append (m : Nat → V) (es fs : List (CEv V)) : sent m (es ++ fs) = sent m es ++ sent (mem m es) fs := by
  induction es generalizing m with
  | nil => rfl
  | cons e es ih =>
    cases e with
    | wrote c v => simp [sent, mem, ih]
    | read c v => simp [sent, mem, ih]
    | fifo e =>
      cases e with
      | putRet c b => cases b <;> simp [sent, mem, ih]
      | _ => simp [sent, mem, ih]

theorem sent_length (m : Nat → V) (es : List (CEv V)) : (sent m es).length = (numbers es).length := by
  induction es generalizing m with
  | nil => rfl
  | cons e es ih =>
    cases e with
    | wrote c v => simp [sent, numbers, calls, ih]
    | read c v => simp [sent, numbers, calls, ih]
    | fifo e =>
      cases e with
      | putRet c b => cases b <;> simp [sent, numbers, calls, accepted, ih]
      | _ => simp [sent, numbers, calls, accepted, ih]

theorem split_snoc {α : Type} {tr pre post : List α} {e e' : α} (h : tr ++ [e] = pre ++ e' :: post) :
    (pre = tr ∧ e' = e ∧ post = []) ∨ ∃ q, tr = pre ++ e' :: q ∧ post = q ++ [e] := by
  rcases List.eq_nil_or_concat post with rfl | ⟨q, x, rfl⟩
  · left
    have := List.append_inj' h rfl
    simp at this
    exact ⟨this.1.symm, this.2.symm, rfl⟩
  · right
    have h' : tr ++ [e] = (pre ++ e' :: q) ++ [x] := by simpa using h
    have := List.append_inj' h' rfl
    simp at this
    exact ⟨q, this.1, by simp [this.2]⟩

theorem run_snoc (cfg : Cfg w) (acq : Bool) (mvf : Nat → Nat) (s : Sys w V) (as : List (Act V)) (a : Act V) :
    run cfg acq mvf s (as ++ [a]) = ((step cfg acq mvf (run cfg acq mvf s as).1 a).1, (run cfg acq mvf s as).2 ++ (step cfg acq mvf (run cfg acq mvf s as).1 a).2) := by
  induction as generalizing s with
  | nil => simp [run]
  | cons b as ih => simp only [List.cons_append, run, ih]; simp

/-- a step of the FIFO is observed as at most one returned call -/
theorem fifo_ev (cfg : Cfg w) (acq : Bool) (mvf : Nat → Nat) (s : SpscWeak.St w Nat) (a : SpscWeak.Act Nat) :
    (SpscWeak.step cfg acq mvf s a).2 = [] ∨ ∃ e, (SpscWeak.step cfg acq mvf s a).2 = [e] := by
  cases a with
  | put x => simp only [SpscWeak.step, SpscWeak.callP]; split <;> simp
  | numFree => simp only [SpscWeak.step, SpscWeak.callFree]; split <;> simp
  | pStep j =>
    rcases (SpscWeak.stepP_c cfg s j).2.2 with h | ⟨x, b, h⟩ | ⟨n, h⟩
    · exact .inl h
    · exact .inr ⟨_, h⟩
    · exact .inr ⟨_, h⟩
  | cCall op => simp only [SpscWeak.step, SpscWeak.callC]; split <;> (try cases op) <;> simp
  | cStep j =>
    simp only [SpscWeak.step]
    unfold SpscWeak.stepC
    split
    · simp
    · split <;> simp
    · simp only; split <;> simp
    · simp
    · split
      · simp
      · split <;> simp
    · split <;> simp
    · simp
    · simp
    · split
      · simp
      · split <;> simp
    · simp
    · split <;> simp
    · simp

/-- no step of the schedule is a call of `reset` -/
def Fine (a : Act V) : Prop := a ≠ .fifo (.cCall .reset)

structure FInv (cfg : Cfg w) (tr : List (CEv V)) (s : Sys w V) : Prop where
  inv : SpscWeak.Inv cfg.cap (calls tr) s.fifo
  kinv : SpscWeak.KInv (calls tr) s.fifo

theorem step_FInv (cfg : Cfg w) (hcap : cfg.cap < 2 ^ w) {acq : Bool} (mvf : Nat → Nat) {tr : List (CEv V)} (hidx : IdxOk cfg (accepted (calls tr)).length) {s : Sys w V} (a : Act V) (ha : Fine a)
    (h : FInv cfg tr s) : FInv cfg (tr ++ (step cfg acq mvf s a).2) (step cfg acq mvf s a).1 := by
  cases a with
  | fifo a =>
    have ha' : SpscWeak.Allowed a := by rintro rfl; exact ha rfl
    simp only [step]
    constructor
    · rw [calls_append, calls_map]; exact SpscWeak.step_Inv cfg hcap mvf hidx a ha' h.inv
    · rw [calls_append, calls_map]; exact SpscWeak.step_KInv cfg mvf hidx a h.inv h.kinv
  | pWrite c v =>
    simp only [step]
    split
    · constructor
      · rw [calls_append]; simpa [calls] using h.inv
      · rw [calls_append]; simpa [calls] using h.kinv
    · simpa using h
  | cRead c =>
    simp only [step]
    split
    · constructor
      · rw [calls_append]; simpa [calls] using h.inv
      · rw [calls_append]; simpa [calls] using h.kinv
    · simpa using h

theorem init_FInv (cfg : Cfg w) (v0 : V) : FInv cfg [] (init w cfg.cap v0) := by
  constructor
  · exact SpscWeak.init_Inv cfg.cap 0
  · intro _; constructor <;> simp [init, SpscWeak.init, calls, taken]

theorem numbers_snoc_fifo (tr : List (CEv V)) (e : Ev Nat) : numbers (tr ++ [.fifo e]) = numbers tr ++ accepted [e] := by
  unfold numbers; rw [calls_append, accepted_append]; rfl

theorem gone_snoc_fifo (tr : List (CEv V)) (e : Ev Nat) : gone (tr ++ [.fifo e]) = gone tr ++ taken [e] := by
  unfold gone; rw [calls_append, taken_append]; rfl

theorem acc_cases (e : Ev Nat) : accepted [e] = [] ∨ ∃ c, e = .putRet c true ∧ accepted [e] = [c] := by
  cases e with
  | putRet c b => cases b <;> simp [accepted]
  | _ => simp [accepted]

theorem mem_snoc_fifo (m : Nat → V) (tr : List (CEv V)) (e : Ev Nat) : mem m (tr ++ [.fifo e]) = mem m tr := by
  rw [mem_append]; rfl

theorem sent_snoc_other (m : Nat → V) (tr : List (CEv V)) {e : Ev Nat} (h : accepted [e] = []) : sent m (tr ++ [.fifo e]) = sent m tr := by
  rw [sent_append]
  cases e with
  | putRet c b => cases b <;> simp_all [accepted, sent]
  | _ => simp [sent]

theorem sent_snoc_put (m : Nat → V) (tr : List (CEv V)) (c : Nat) : sent m (tr ++ [.fifo (.putRet c true)]) = sent m tr ++ [mem m tr c] := by
  rw [sent_append]; rfl

theorem numbers_wrote (tr : List (CEv V)) (c : Nat) (v : V) : numbers (tr ++ [.wrote c v]) = numbers tr ∧ gone (tr ++ [.wrote c v]) = gone tr := by
  unfold numbers gone; rw [calls_append]; simp [calls]

theorem numbers_read (tr : List (CEv V)) (c : Nat) (v : V) : numbers (tr ++ [.read c v]) = numbers tr ∧ gone (tr ++ [.read c v]) = gone tr := by
  unfold numbers gone; rw [calls_append]; simp [calls]

theorem sent_wrote (m : Nat → V) (tr : List (CEv V)) (c : Nat) (v : V) : sent m (tr ++ [.wrote c v]) = sent m tr := by
  rw [sent_append]; simp [sent]

theorem sent_read (m : Nat → V) (tr : List (CEv V)) (c : Nat) (v : V) : sent m (tr ++ [.read c v]) = sent m tr := by
  rw [sent_append]; simp [sent]

/-! ### Each buffer used once -/

structure OInv (v0 : V) (tr : List (CEv V)) (s : Sys w V) : Prop where
  mem : s.val = mem (fun _ => v0) tr
  wall : ∀ c, s.wEp c ≤ (numbers tr).length + 1
  each : ∀ (i c : Nat), (numbers tr)[i]? = some c → s.wEp c ≤ i + 1 ∧ (sent (fun _ => v0) tr)[i]? = some (s.val c)
  rd : ∀ c, s.rEp c ≠ 0 → c ∈ numbers tr
  norace : s.fifo.race = false → s.race = false

theorem Once.init {tr : List (CEv V)} {e : CEv V} (h : Once (tr ++ [e])) : Once tr := by
  intro pre e' post he
  exact h pre e' (post ++ [e]) (by simp [he])

theorem step_OInv (cfg : Cfg w) {acq : Bool} (mvf : Nat → Nat) {v0 : V} {tr : List (CEv V)} (hidx : IdxOk cfg (accepted (calls tr)).length) {s : Sys w V} (a : Act V)
    (hf : FInv cfg tr s) (h : OInv v0 tr s) (ho : Once (tr ++ (step cfg acq mvf s a).2)) (hA : AllArrive (fun _ => v0) tr) (hr : (step cfg acq mvf s a).1.fifo.race = false) :
    OInv v0 (tr ++ (step cfg acq mvf s a).2) (step cfg acq mvf s a).1 ∧ AllArrive (fun _ => v0) (tr ++ (step cfg acq mvf s a).2) := by
  cases a with
  | fifo a =>
    simp only [step] at ho hr ⊢
    have hr0 := SpscWeak.step_race_mono cfg mvf hidx a hf.inv hr
    rcases fifo_ev cfg acq mvf s.fifo a with he | ⟨e, he⟩
    · rw [he]
      simp only [List.map_nil, List.append_nil]
      exact ⟨{ h with norace := fun _ => h.norace hr0 }, hA⟩
    · rw [he]
      simp only [List.map_cons, List.map_nil]
      refine ⟨?_, ?_⟩
      · rcases acc_cases e with hacc | ⟨c, rfl, hacc⟩
        · refine ⟨?_, ?_, ?_, ?_, fun _ => h.norace hr0⟩
          · rw [mem_snoc_fifo]; exact h.mem
          · rw [numbers_snoc_fifo, hacc, List.append_nil]; exact h.wall
          · rw [numbers_snoc_fifo, hacc, List.append_nil, sent_snoc_other _ _ hacc]; exact h.each
          · rw [numbers_snoc_fifo, hacc, List.append_nil]; exact h.rd
        · refine ⟨?_, ?_, ?_, ?_, fun _ => h.norace hr0⟩
          · rw [mem_snoc_fifo]; exact h.mem
          · intro d
            rw [numbers_snoc_fifo, hacc]
            have := h.wall d
            simp only [List.length_append, List.length_singleton]
            show s.wEp d ≤ _
            omega
          · intro i d hi
            rw [numbers_snoc_fifo, hacc] at hi
            rw [sent_snoc_put]
            by_cases hlt : i < (numbers tr).length
            · rw [List.getElem?_append_left hlt] at hi
              rw [List.getElem?_append_left (by rw [sent_length]; exact hlt)]
              exact h.each i d hi
            · rw [List.getElem?_append_right (by omega)] at hi
              have := (List.getElem?_eq_some_iff.mp hi).1
              simp at this
              have hie : i = (numbers tr).length := by omega
              subst hie
              simp at hi
              subst hi
              refine ⟨h.wall c, ?_⟩
              rw [List.getElem?_append_right (by rw [sent_length]; exact Nat.le_refl _), sent_length]
              simp [h.mem]
          · intro d hd
            rw [numbers_snoc_fifo]
            exact List.mem_append_left _ (h.rd d hd)
      · intro pre c v post hp
        rcases split_snoc hp with ⟨_, h2, _⟩ | ⟨q, h1, _⟩
        · exact absurd h2 (by simp)
        · exact hA pre c v q h1
  | pWrite c v =>
    simp only [step] at ho hr ⊢
    split
    · next hpc =>
      rw [hpc] at ho
      have hc : c ∉ numbers tr := ho tr (.wrote c v) [] (by simp)
      have n := numbers_wrote tr c v
      refine ⟨⟨?_, ?_, ?_, ?_, ?_⟩, ?_⟩
      · rw [mem_append]; simp [HandOver.mem, h.mem]
      · intro d
        rw [n.1]
        show (if d = c then s.fifo.pclk else s.wEp d) ≤ _
        split
        · rw [hf.inv.pclk]; exact Nat.le_refl _
        · exact h.wall d
      · intro i d hi
        rw [n.1] at hi
        have hne : d ≠ c := by rintro rfl; exact hc (List.mem_of_getElem? hi)
        rw [sent_wrote]
        simp only [hne, if_false]
        exact h.each i d hi
      · rw [n.1]; exact h.rd
      · intro hfr
        have : s.rEp c = 0 := by
          by_cases h0 : s.rEp c = 0
          · exact h0
          · exact absurd (h.rd c h0) hc
        show (s.race || decide (s.fifo.pknow < s.rEp c)) = false
        rw [h.norace hfr, this]; simp
      · intro pre d u post hp
        rcases split_snoc hp with ⟨_, h2, _⟩ | ⟨q, h1, _⟩
        · exact absurd h2 (by simp)
        · exact hA pre d u q h1
    · simpa using ⟨h, hA⟩
  | cRead c =>
    simp only [step] at ho hr ⊢
    split
    · next hpc =>
      rw [hpc] at ho hr
      have hc : some c ∈ gone tr := ho tr (.read c (s.val c)) [] (by simp)
      have n := numbers_read tr c (s.val c)
      have ord : ∀ i : Nat, (gone tr)[i]? = some (some c) → (numbers tr)[i]? = some c := fun i hi => hf.inv.order i c hi
      refine ⟨⟨?_, ?_, ?_, ?_, ?_⟩, ?_⟩
      · rw [mem_append]; simp [HandOver.mem, h.mem]
      · rw [n.1]; exact h.wall
      · rw [n.1, sent_read]; exact h.each
      · intro d hd
        rw [n.1]
        by_cases hdc : d = c
        · subst hdc
          obtain ⟨i, hi⟩ := List.getElem?_of_mem hc
          exact List.mem_of_getElem? (ord i hi)
        · simp only [hdc, if_false] at hd; exact h.rd d hd
      · intro hfr
        obtain ⟨i, hi⟩ := List.getElem?_of_mem hc
        have k := (hf.kinv hr).1 i c hi
        have e := (h.each i c (ord i hi)).1
        show (s.race || decide (s.fifo.cknow < s.wEp c)) = false
        rw [h.norace hfr]; simp; omega
      · intro pre d u post hp i hi
        rcases split_snoc hp with ⟨h1, h2, _⟩ | ⟨q, h1, _⟩
        · cases h2
          subst h1
          exact (h.each i c (ord i hi)).2
        · exact hA pre d u q h1 i hi
    · simpa using ⟨h, hA⟩

theorem step_Once {cfg : Cfg w} {acq : Bool} {mvf : Nat → Nat} {s : Sys w V} {a : Act V} {tr : List (CEv V)} (h : Once (tr ++ (step cfg acq mvf s a).2)) : Once tr := by
  intro pre e post he
  exact h pre e (post ++ (step cfg acq mvf s a).2) (by simp [he])

theorem step_hidx {cfg : Cfg w} {tr es : List (CEv V)} (h : IdxOk cfg (numbers (tr ++ es)).length) : IdxOk cfg (numbers tr).length := by
  refine h.mono ?_
  unfold numbers
  rw [calls_append, accepted_append]
  simp

theorem fifo_race_back (cfg : Cfg w) {acq : Bool} (mvf : Nat → Nat) {tr : List (CEv V)} (hidx : IdxOk cfg (accepted (calls tr)).length) {s : Sys w V} (a : Act V)
    (hf : FInv cfg tr s) (hr : (step cfg acq mvf s a).1.fifo.race = false) : s.fifo.race = false := by
  cases a with
  | fifo a => exact SpscWeak.step_race_mono cfg mvf hidx a hf.inv hr
  | pWrite c v => revert hr; simp only [step]; split <;> exact id
  | cRead c => revert hr; simp only [step]; split <;> exact id

theorem run_F (cfg : Cfg w) (hcap : cfg.cap < 2 ^ w) (acq : Bool) (mvf : Nat → Nat) (v0 : V) (as : List (Act V)) (ha : ∀ a ∈ as, Fine a)
    (hidx : IdxOk cfg (numbers (run cfg acq mvf (init w cfg.cap v0) as).2).length) : FInv cfg (run cfg acq mvf (init w cfg.cap v0) as).2 (run cfg acq mvf (init w cfg.cap v0) as).1 := by
  induction as using List.reverseRecOn with
  | nil => exact init_FInv cfg v0
  | append_singleton as a ih =>
    rw [run_snoc] at hidx ⊢
    have h1 := step_hidx hidx
    exact step_FInv cfg hcap mvf h1 a (ha a (by simp)) (ih (fun b hb => ha b (by simp [hb])) h1)

theorem run_O (cfg : Cfg w) (hcap : cfg.cap < 2 ^ w) (acq : Bool) (mvf : Nat → Nat) (v0 : V) (as : List (Act V)) (ha : ∀ a ∈ as, Fine a)
    (hidx : IdxOk cfg (numbers (run cfg acq mvf (init w cfg.cap v0) as).2).length) (ho : Once (run cfg acq mvf (init w cfg.cap v0) as).2)
    (hr : (run cfg acq mvf (init w cfg.cap v0) as).1.fifo.race = false) :
    OInv v0 (run cfg acq mvf (init w cfg.cap v0) as).2 (run cfg acq mvf (init w cfg.cap v0) as).1 ∧ AllArrive (fun _ => v0) (run cfg acq mvf (init w cfg.cap v0) as).2 := by
  induction as using List.reverseRecOn with
  | nil =>
    refine ⟨⟨rfl, by simp [run, init], by simp [run, numbers, calls, accepted], by simp [run, init], fun _ => rfl⟩, ?_⟩
    intro pre c v post hp
    simp [run] at hp
  | append_singleton as a ih =>
    rw [run_snoc] at hidx ho hr ⊢
    have h1 := step_hidx hidx
    have ha' : ∀ b ∈ as, Fine b := fun b hb => ha b (by simp [hb])
    have hf := run_F cfg hcap acq mvf v0 as ha' h1
    have hr0 := fifo_race_back cfg mvf h1 a hf hr
    obtain ⟨h2, h3⟩ := ih ha' h1 (step_Once ho) hr0
    exact step_OInv cfg mvf h1 a hf h2 ho h3 hr

/-! ### Buffers used in turn -/

structure RInv (M : Nat) (v0 : V) (tr : List (CEv V)) (s : Sys w V) : Prop where
  mem : s.val = mem (fun _ => v0) tr
  nums : ∀ (i c : Nat), (numbers tr)[i]? = some c → c = i % M
  wall : ∀ c, s.wEp c ≤ (numbers tr).length + 1
  wr : ∀ i, i ≤ (numbers tr).length → (numbers tr).length < i + M → s.wEp (i % M) ≤ i + 1
  sent : ∀ i, i < (numbers tr).length → (numbers tr).length < i + M → (sent (fun _ => v0) tr)[i]? = some (s.val (i % M))
  rd : ∀ c, s.rEp c = 0 ∨ ∃ i, i % M = c ∧ i < (gone tr).length ∧ s.rEp c = i + 2
  norace : s.fifo.race = false → s.race = false

theorem mod_ne {M i A : Nat} (h1 : i < A) (h2 : A < i + M) : i % M ≠ A % M := by
  intro h
  exact Spsc.mod_ne_of_lt h1 (by omega) h

theorem step_RInv (cfg : Cfg w) {acq : Bool} (mvf : Nat → Nat) {M : Nat} (hM : cfg.cap + 2 ≤ M) {v0 : V} {tr : List (CEv V)} (hidx : IdxOk cfg (accepted (calls tr)).length) {s : Sys w V} (a : Act V)
    (hf : FInv cfg tr s) (h : RInv M v0 tr s) (ho : Ring M (tr ++ (step cfg acq mvf s a).2)) (hA : LastArrives (fun _ => v0) tr) (hr : (step cfg acq mvf s a).1.fifo.race = false) :
    RInv M v0 (tr ++ (step cfg acq mvf s a).2) (step cfg acq mvf s a).1 ∧ LastArrives (fun _ => v0) (tr ++ (step cfg acq mvf s a).2) := by
  have t1 := hf.inv.tvA
  have t2 := hf.inv.tvK
  have t3 := hf.inv.pk
  change (numbers tr).length ≤ _ at t1
  change _ ≤ (gone tr).length at t2
  have t4 : (gone tr).length ≤ (numbers tr).length := Nat.le_trans hf.inv.Khv hf.inv.hvA
  cases a with
  | fifo a =>
    simp only [step] at ho hr ⊢
    have hr0 := SpscWeak.step_race_mono cfg mvf hidx a hf.inv hr
    rcases fifo_ev cfg acq mvf s.fifo a with he | ⟨e, he⟩
    · rw [he]
      simp only [List.map_nil, List.append_nil]
      exact ⟨{ h with norace := fun _ => h.norace hr0 }, hA⟩
    · rw [he] at ho ⊢
      simp only [List.map_cons, List.map_nil] at ho ⊢
      have rd' : ∀ c, s.rEp c = 0 ∨ ∃ i, i % M = c ∧ i < (gone (tr ++ [CEv.fifo e])).length ∧ s.rEp c = i + 2 := by
        intro c
        rcases h.rd c with h0 | ⟨i, a1, a2, a3⟩
        · exact .inl h0
        · exact .inr ⟨i, a1, by rw [gone_snoc_fifo, List.length_append]; omega, a3⟩
      refine ⟨?_, ?_⟩
      · rcases acc_cases e with hacc | ⟨c, rfl, hacc⟩
        · refine ⟨?_, ?_, ?_, ?_, ?_, rd', fun _ => h.norace hr0⟩
          · rw [mem_snoc_fifo]; exact h.mem
          · rw [numbers_snoc_fifo, hacc, List.append_nil]; exact h.nums
          · rw [numbers_snoc_fifo, hacc, List.append_nil]; exact h.wall
          · rw [numbers_snoc_fifo, hacc, List.append_nil]; exact h.wr
          · rw [numbers_snoc_fifo, hacc, List.append_nil, sent_snoc_other _ _ hacc]; exact h.sent
        · have hc : c = (numbers tr).length % M := ho tr (.fifo (.putRet c true)) [] (by simp)
          refine ⟨?_, ?_, ?_, ?_, ?_, rd', fun _ => h.norace hr0⟩
          · rw [mem_snoc_fifo]; exact h.mem
          · intro i d hi
            rw [numbers_snoc_fifo, hacc] at hi
            by_cases hlt : i < (numbers tr).length
            · rw [List.getElem?_append_left hlt] at hi
              exact h.nums i d hi
            · rw [List.getElem?_append_right (by omega)] at hi
              have := (List.getElem?_eq_some_iff.mp hi).1
              simp at this
              have hie : i = (numbers tr).length := by omega
              subst hie
              simp at hi
              rw [← hi]; exact hc
          · intro d
            rw [numbers_snoc_fifo, hacc]
            have := h.wall d
            simp only [List.length_append, List.length_singleton]
            show s.wEp d ≤ _
            omega
          · intro i h1 h2
            rw [numbers_snoc_fifo, hacc] at h1 h2
            simp only [List.length_append, List.length_singleton] at h1 h2
            show s.wEp (i % M) ≤ _
            by_cases hlt : i ≤ (numbers tr).length
            · exact h.wr i hlt (by omega)
            · have := h.wall (i % M); omega
          · intro i h1 h2
            rw [numbers_snoc_fifo, hacc] at h1 h2
            simp only [List.length_append, List.length_singleton] at h1 h2
            rw [sent_snoc_put]
            by_cases hlt : i < (numbers tr).length
            · rw [List.getElem?_append_left (by rw [sent_length]; exact hlt)]
              exact h.sent i hlt (by omega)
            · have hie : i = (numbers tr).length := by omega
              subst hie
              rw [List.getElem?_append_right (by rw [sent_length]; exact Nat.le_refl _), sent_length]
              simp [h.mem, hc]
      · intro pre c v post hp
        rcases split_snoc hp with ⟨_, h2, _⟩ | ⟨q, h1, _⟩
        · exact absurd h2 (by simp)
        · exact hA pre c v q h1
  | pWrite c v =>
    simp only [step] at ho hr ⊢
    split
    · next hpc =>
      rw [hpc] at ho
      have hc : c = (numbers tr).length % M := ho tr (.wrote c v) [] (by simp)
      have n := numbers_wrote tr c v
      refine ⟨⟨?_, ?_, ?_, ?_, ?_, ?_, ?_⟩, ?_⟩
      · rw [mem_append]; simp [HandOver.mem, h.mem]
      · rw [n.1]; exact h.nums
      · intro d
        rw [n.1]
        show (if d = c then s.fifo.pclk else s.wEp d) ≤ _
        split
        · rw [hf.inv.pclk]; exact Nat.le_refl _
        · exact h.wall d
      · intro i h1 h2
        rw [n.1] at h1 h2
        show (if i % M = c then s.fifo.pclk else s.wEp (i % M)) ≤ _
        split
        · next hic =>
          rw [hf.inv.pclk]
          change (numbers tr).length + 1 ≤ _
          by_cases hlt : i < (numbers tr).length
          · exact absurd (hic.trans hc) (mod_ne hlt h2)
          · omega
        · exact h.wr i h1 h2
      · intro i h1 h2
        rw [n.1] at h1 h2
        rw [sent_wrote]
        have hne : i % M ≠ c := by rw [hc]; exact mod_ne h1 h2
        simp only [hne, if_false]
        exact h.sent i h1 h2
      · rw [n.2]; exact h.rd
      · intro hfr
        have : s.rEp c ≤ s.fifo.pknow := by
          rcases h.rd c with h0 | ⟨i, a1, a2, a3⟩
          · omega
          · rw [a3, t3]
            by_cases hlt : (numbers tr).length < i + M
            · exact absurd (a1.trans hc) (mod_ne (by omega) hlt)
            · omega
        show (s.race || decide (s.fifo.pknow < s.rEp c)) = false
        rw [h.norace hfr]; simp; exact this
      · intro pre d u post hp
        rcases split_snoc hp with ⟨_, h2, _⟩ | ⟨q, h1, _⟩
        · exact absurd h2 (by simp)
        · exact hA pre d u q h1
    · simpa using ⟨h, hA⟩
  | cRead c =>
    simp only [step] at ho hr ⊢
    split
    · next hpc =>
      rw [hpc] at ho hr
      have hl : (gone tr).getLast? = some (some c) := ho tr (.read c (s.val c)) [] (by simp)
      have n := numbers_read tr c (s.val c)
      have hpos : 0 < (gone tr).length := by
        rcases hg : gone tr with _ | ⟨x, xs⟩
        · rw [hg] at hl; simp at hl
        · simp
      rw [List.getLast?_eq_getElem?] at hl
      have hnum : (numbers tr)[(gone tr).length - 1]? = some c := hf.inv.order _ c hl
      have hc := h.nums _ c hnum
      refine ⟨⟨?_, ?_, ?_, ?_, ?_, ?_, ?_⟩, ?_⟩
      · rw [mem_append]; simp [HandOver.mem, h.mem]
      · rw [n.1]; exact h.nums
      · rw [n.1]; exact h.wall
      · rw [n.1]; exact h.wr
      · rw [n.1, sent_read]; exact h.sent
      · intro d
        rw [n.2]
        show (if d = c then s.fifo.cclk else s.rEp d) = 0 ∨ ∃ i, i % M = d ∧ i < (gone tr).length ∧ (if d = c then s.fifo.cclk else s.rEp d) = i + 2
        split
        · next hdc =>
          right
          refine ⟨(gone tr).length - 1, by rw [hdc, ← hc], by omega, ?_⟩
          rw [hf.inv.cclk]
          change (gone tr).length + 1 = _
          omega
        · exact h.rd d
      · intro hfr
        have k := (hf.kinv hr).1 _ c hl
        have e := h.wr ((gone tr).length - 1) (by omega) (by omega)
        rw [← hc] at e
        show (s.race || decide (s.fifo.cknow < s.wEp c)) = false
        rw [h.norace hfr]; simp; omega
      · intro pre d u post hp
        rcases split_snoc hp with ⟨h1, h2, _⟩ | ⟨q, h1, _⟩
        · cases h2
          subst h1
          have := h.sent ((gone pre).length - 1) (by omega) (by omega)
          rw [← hc] at this
          exact this
        · exact hA pre d u q h1
    · simpa using ⟨h, hA⟩

theorem run_R (cfg : Cfg w) (hcap : cfg.cap < 2 ^ w) (acq : Bool) (mvf : Nat → Nat) {M : Nat} (hM : cfg.cap + 2 ≤ M) (v0 : V) (as : List (Act V)) (ha : ∀ a ∈ as, Fine a)
    (hidx : IdxOk cfg (numbers (run cfg acq mvf (init w cfg.cap v0) as).2).length) (ho : Ring M (run cfg acq mvf (init w cfg.cap v0) as).2)
    (hr : (run cfg acq mvf (init w cfg.cap v0) as).1.fifo.race = false) :
    RInv M v0 (run cfg acq mvf (init w cfg.cap v0) as).2 (run cfg acq mvf (init w cfg.cap v0) as).1 ∧ LastArrives (fun _ => v0) (run cfg acq mvf (init w cfg.cap v0) as).2 := by
  induction as using List.reverseRecOn with
  | nil =>
    refine ⟨⟨rfl, by simp [run, numbers, calls, accepted], by simp [run, init], by simp [run, init], by simp [run, numbers, calls, accepted], by simp [run, init], fun _ => rfl⟩, ?_⟩
    intro pre c v post hp
    simp [run] at hp
  | append_singleton as a ih =>
    rw [run_snoc] at hidx ho hr ⊢
    have h1 := step_hidx hidx
    have ha' : ∀ b ∈ as, Fine b := fun b hb => ha b (by simp [hb])
    have hf := run_F cfg hcap acq mvf v0 as ha' h1
    have hr0 := fifo_race_back cfg mvf h1 a hf hr
    obtain ⟨h2, h3⟩ := ih ha' h1 (fun pre e post he => ho pre e (post ++ _) (by simp [he]; rfl)) hr0
    exact step_RInv cfg mvf hM h1 a hf h2 ho h3 hr

end HandOver
