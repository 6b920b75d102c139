import Verif.Lemmas.SpscPromise
import Verif.Spec.SpscView
/-!
# Each thread's view of a weak-memory execution as a sequential one: invariants
-/
namespace SpscWeak
open Spsc
open Spsc.Spec
variable {w : Nat} {T : Type}

section play
variable [DecidableEq T]

theorem play_append (cap : Nat) (es fs : List (Ev T)) : ∀ q : List T, play cap q (es ++ fs) = (play cap q es).bind fun r => play cap r fs := by
  induction es with
  | nil => intro q; rfl
  | cons e es ih =>
    intro q
    cases e with
    | putRet x b => cases b <;> · simp only [List.cons_append, play]; split <;> simp [ih]
    | getOrDefaultRet b v => cases b <;> · simp only [List.cons_append, play]; split <;> simp [ih]
    | numFreeCall => exact ih q
    | numFilledCall => exact ih q
    | resetCall => exact ih q
    | _ => simp only [List.cons_append, play]; split <;> simp [ih]

/-- what left with a successful call of the consumer -/
def toOpt : Ev T → Option T
  | .getRet r => r
  | _ => none

theorem play_takes (cap : Nat) (es : List (Ev T)) : ∀ q : List T, (∀ e ∈ es, tookOne e = true) → es.length ≤ q.length →
    (∀ (i : Nat) (x : T), (es.map toOpt)[i]? = some (some x) → q[i]? = some x) → play cap q es = some (q.drop es.length) := by
  induction es with
  | nil => intro q _ _ _; rfl
  | cons e es ih =>
    intro q ht hl ho
    cases q with
    | nil => simp at hl
    | cons y q =>
      have ih' := ih q (fun e h => ht e (by simp [h])) (by simpa using hl) (fun i x h => by simpa using ho (i + 1) x (by simpa using h))
      have te := ht e (by simp)
      cases e with
      | getRet r =>
        cases r with
        | none => cases te
        | some x =>
          have : y = x := by simpa using ho 0 x rfl
          subst this
          simp only [play, List.head?_cons, if_true, List.tail_cons, ih', List.length_cons, List.drop_succ_cons]
      | removeRet b =>
        cases b with
        | false => cases te
        | true => simp [play, ih']
      | _ => cases te

theorem play_puts (cap : Nat) (xs : List T) : ∀ q : List T, q.length + xs.length ≤ cap → play cap q (xs.map (Ev.putRet · true)) = some (q ++ xs) := by
  induction xs with
  | nil => intro q _; simp [play]
  | cons x xs ih =>
    intro q h
    simp only [List.length_cons] at h
    simp only [List.map_cons, play]
    rw [if_pos (by omega), ih _ (by simp; omega)]
    simp

end play

theorem filter_putOk (tr : List (Ev T)) : tr.filter putOk = (accepted tr).map (Ev.putRet · true) := by
  induction tr with
  | nil => rfl
  | cons e tr ih =>
    cases e with
    | putRet x b => cases b <;> simp [putOk, accepted, ih, List.filter_cons]
    | _ => simp [putOk, accepted, ih, List.filter_cons]

theorem filter_took_length {tr : List (Ev T)} (h : taken tr = (tr.filter tookOne).map toOpt) : (tr.filter tookOne).length = (taken tr).length := by
  rw [h, List.length_map]

/-- a sequential history with all the producer's calls and those successful calls of the consumer that the producer has seen -/
structure PView [DecidableEq T] (cap : Nat) (tr : List (Ev T)) (s : St w T) (l : List (Ev T)) : Prop where
  play : play cap [] l = some ((accepted tr).drop s.tv)
  prod : l.filter byProducer = tr.filter byProducer
  took : l.filter tookOne = (tr.filter tookOne).take s.tv
  rest : ∀ e ∈ l, byProducer e = true ∨ tookOne e = true

/-- a sequential history with all the consumer's calls and those successful `put`s that the consumer has seen -/
structure CView [DecidableEq T] (cap : Nat) (tr : List (Ev T)) (s : St w T) (l : List (Ev T)) : Prop where
  play : play cap [] l = some (((accepted tr).take s.hv).drop (taken tr).length)
  cons : l.filter byConsumer = tr.filter byConsumer
  puts : l.filter putOk = ((accepted tr).take s.hv).map (Ev.putRet · true)
  rest : ∀ e ∈ l, byConsumer e = true ∨ putOk e = true

structure VInv [DecidableEq T] (cap : Nat) (tr : List (Ev T)) (s : St w T) : Prop where
  took : taken tr = (tr.filter tookOne).map toOpt
  pview : ∃ l, PView cap tr s l
  cview : ∃ l, CView cap tr s l

variable [DecidableEq T]

theorem init_VInv (cap : Nat) (dflt : T) : VInv cap [] (init w cap dflt) :=
  ⟨rfl, ⟨[], rfl, rfl, rfl, by simp⟩, ⟨[], rfl, rfl, rfl, by simp⟩⟩

/-- the producer sees more of the consumer's calls -/
theorem PView_see {cap : Nat} {tr : List (Ev T)} {s s' : St w T} (h : Inv cap tr s) (ht : taken tr = (tr.filter tookOne).map toOpt) (hv : ∃ l, PView cap tr s l)
    (h1 : s.tv ≤ s'.tv) (h2 : s'.tv ≤ (taken tr).length) : ∃ l, PView cap tr s' l := by
  obtain ⟨l, hl⟩ := hv
  have hlen := filter_took_length ht
  have h3 := h.Khv; have h4 := h.hvA
  obtain ⟨new, hnew⟩ : ∃ new, new = ((tr.filter tookOne).take s'.tv).drop s.tv := ⟨_, rfl⟩
  have hn : new.length = s'.tv - s.tv := by rw [hnew]; simp; omega
  have ha : ∀ e ∈ new, tookOne e = true := by
    intro e he
    rw [hnew] at he
    exact (List.mem_filter.mp (List.mem_of_mem_take (List.mem_of_mem_drop he))).2
  have hp : ∀ e ∈ new, byProducer e = false := by
    intro e he
    have := ha e he
    cases e <;> first | rfl | (simp [tookOne] at this)
  refine ⟨l ++ new, ?_, ?_, ?_, ?_⟩
  · rw [play_append, hl.play, Option.bind_some, play_takes cap new _ ha (by simp; omega), hn, List.drop_drop]
    · congr 2; omega
    · intro i x hi
      have hlt : i < new.length := by
        have := (List.getElem?_eq_some_iff.mp hi).1; simpa using this
      rw [List.getElem?_drop]
      apply h.order
      rw [ht]
      rw [hnew, List.map_drop, List.map_take, List.getElem?_drop, List.getElem?_take_of_lt (by omega)] at hi
      exact hi
  · have e0 : new.filter byProducer = [] := List.filter_eq_nil_iff.mpr (by intro e he; simp [hp e he])
    rw [List.filter_append, hl.prod, e0, List.append_nil]
  · rw [List.filter_append, hl.took, List.filter_eq_self.mpr ha, hnew]
    have : ((tr.filter tookOne).take s'.tv).take s.tv = (tr.filter tookOne).take s.tv := by rw [List.take_take, Nat.min_eq_left h1]
    rw [← this, List.take_append_drop]
  · intro e he
    rcases List.mem_append.mp he with g | g
    · exact hl.rest e g
    · exact .inr (ha e g)

/-- the consumer sees more of the producer's `put`s -/
theorem CView_see {cap : Nat} {tr : List (Ev T)} {s s' : St w T} (h : Inv cap tr s) (hv : ∃ l, CView cap tr s l)
    (h1 : s.hv ≤ s'.hv) (h2 : s'.hv ≤ (accepted tr).length) : ∃ l, CView cap tr s' l := by
  obtain ⟨l, hl⟩ := hv
  have h3 := h.Khv; have h4 := h.hvA; have h5 := h.tvK; have h6 := h.tvA
  obtain ⟨new, hnew⟩ : ∃ new, new = ((accepted tr).take s'.hv).drop s.hv := ⟨_, rfl⟩
  have hj : (accepted tr).take s.hv ++ new = (accepted tr).take s'.hv := by
    have : ((accepted tr).take s'.hv).take s.hv = (accepted tr).take s.hv := by rw [List.take_take, Nat.min_eq_left h1]
    rw [hnew, ← this, List.take_append_drop]
  refine ⟨l ++ new.map (Ev.putRet · true), ?_, ?_, ?_, ?_⟩
  · rw [play_append, hl.play, Option.bind_some, play_puts cap new _ (by rw [hnew]; simp; omega)]
    rw [← hj, List.drop_append_of_le_length (by simp; omega)]
  · have e0 : (new.map (Ev.putRet · true)).filter byConsumer = [] := List.filter_eq_nil_iff.mpr (by simp [byConsumer])
    rw [List.filter_append, hl.cons, e0, List.append_nil]
  · have e0 : (new.map (Ev.putRet · true)).filter putOk = new.map (Ev.putRet · true) := List.filter_eq_self.mpr (by simp [putOk])
    rw [List.filter_append, hl.puts, e0, ← List.map_append, hj]
  · intro e he
    rcases List.mem_append.mp he with g | g
    · exact hl.rest e g
    · obtain ⟨x, _, rfl⟩ := List.mem_map.mp g
      exact .inr rfl

/-- one call of the producer that returned changes nothing in the consumer's view (what it knows is unchanged) -/
theorem CView_prod {cap : Nat} {tr : List (Ev T)} {s s' : St w T} {e : Ev T} (h : Inv cap tr s) (he : byProducer e = true) (hv : ∃ l, CView cap tr s l) (e1 : s'.hv = s.hv) :
    ∃ l, CView cap (tr ++ [e]) s' l := by
  obtain ⟨l, hl⟩ := hv
  have hA := h.hvA
  have t0 : taken [e] = [] := by cases e <;> first | rfl | simp [byProducer] at he
  have c0 : byConsumer e = false := by cases e <;> first | rfl | simp [byProducer] at he
  have ea : (accepted (tr ++ [e])).take s'.hv = (accepted tr).take s.hv := by
    rw [accepted_append, e1, List.take_append_of_le_length hA]
  refine ⟨l, ?_, ?_, ?_, hl.rest⟩
  · rw [ea, taken_append, t0, List.append_nil]; exact hl.play
  · rw [List.filter_append, hl.cons]; simp [c0]
  · rw [ea]; exact hl.puts

/-- one call of the consumer that returned changes nothing in the producer's view -/
theorem PView_cons {cap : Nat} {tr : List (Ev T)} {s s' : St w T} {e : Ev T} (h : Inv cap tr s) (ht : taken tr = (tr.filter tookOne).map toOpt) (he : byConsumer e = true)
    (hv : ∃ l, PView cap tr s l) (e1 : s'.tv = s.tv) : ∃ l, PView cap (tr ++ [e]) s' l := by
  obtain ⟨l, hl⟩ := hv
  have hK := h.tvK
  have hlen := filter_took_length ht
  have a0 : accepted [e] = [] := by cases e <;> first | rfl | simp [byConsumer] at he
  have c0 : byProducer e = false := by cases e <;> first | rfl | simp [byConsumer] at he
  refine ⟨l, ?_, ?_, ?_, hl.rest⟩
  · rw [accepted_append, a0, List.append_nil, e1]; exact hl.play
  · rw [List.filter_append, hl.prod]; simp [c0]
  · rw [List.filter_append, e1, List.take_append_of_le_length (by omega)]; exact hl.took

theorem took_snoc {tr : List (Ev T)} {e : Ev T} (ht : taken tr = (tr.filter tookOne).map toOpt) (he : taken [e] = ([e].filter tookOne).map toOpt) :
    taken (tr ++ [e]) = ((tr ++ [e]).filter tookOne).map toOpt := by
  rw [taken_append, List.filter_append, List.map_append, ht, he]

/-- a call of the producer returned -/
theorem VInv_prod {cap : Nat} {tr : List (Ev T)} {s s' : St w T} {e : Ev T} (h : Inv cap tr s) (v : VInv cap tr s) (he : byProducer e = true) (e1 : s'.hv = s.hv)
    (h1 : s.tv ≤ s'.tv) (h2 : s'.tv ≤ (taken tr).length)
    (hp : play cap ((accepted tr).drop s'.tv) [e] = some ((accepted (tr ++ [e])).drop s'.tv)) : VInv cap (tr ++ [e]) s' := by
  have tk : tookOne e = false := by cases e <;> first | rfl | simp [byProducer] at he
  refine ⟨took_snoc v.took (by cases e <;> first | rfl | simp [byProducer] at he), ?_, CView_prod h he v.cview e1⟩
  obtain ⟨l, hl⟩ := PView_see (s' := s') h v.took v.pview h1 h2
  refine ⟨l ++ [e], ?_, ?_, ?_, ?_⟩
  · rw [play_append, hl.play, Option.bind_some, hp]
  · rw [List.filter_append, List.filter_append, hl.prod]
  · rw [List.filter_append, List.filter_append, hl.took]; simp [tk]
  · intro e' he'
    rcases List.mem_append.mp he' with g | g
    · exact hl.rest e' g
    · rw [List.mem_singleton.mp g]; exact .inl he

/-- a call of the consumer returned -/
theorem VInv_cons {cap : Nat} {tr : List (Ev T)} {s s' : St w T} {e : Ev T} (h : Inv cap tr s) (v : VInv cap tr s) (he : byConsumer e = true) (e1 : s'.tv = s.tv)
    (h1 : s.hv ≤ s'.hv) (h2 : s'.hv ≤ (accepted tr).length)
    (hp : play cap (((accepted tr).take s'.hv).drop (taken tr).length) [e] = some (((accepted tr).take s'.hv).drop (taken (tr ++ [e])).length)) : VInv cap (tr ++ [e]) s' := by
  have po : putOk e = false := by cases e <;> first | rfl | simp [byConsumer] at he
  have a0 : accepted [e] = [] := by cases e <;> first | rfl | simp [byConsumer] at he
  have t0 : taken [e] = ([e].filter tookOne).map toOpt := by
    cases e with
    | getRet r => cases r <;> rfl
    | removeRet b => cases b <;> rfl
    | numFilledRet n => rfl
    | _ => simp [byConsumer] at he
  refine ⟨took_snoc v.took t0, PView_cons h v.took he v.pview e1, ?_⟩
  obtain ⟨l, hl⟩ := CView_see (s' := s') h v.cview h1 h2
  refine ⟨l ++ [e], ?_, ?_, ?_, ?_⟩
  · rw [play_append, hl.play, Option.bind_some, hp, accepted_append, a0, List.append_nil]
  · rw [List.filter_append, List.filter_append, hl.cons]
  · rw [List.filter_append, accepted_append, a0, List.append_nil, hl.puts]; simp [po]
  · intro e' he'
    rcases List.mem_append.mp he' with g | g
    · exact hl.rest e' g
    · rw [List.mem_singleton.mp g]; exact .inl he

/-- no call returned -/
theorem VInv_quiet {cap : Nat} {tr : List (Ev T)} {s s' : St w T} (h : Inv cap tr s) (v : VInv cap tr s)
    (h1 : s.tv ≤ s'.tv) (h2 : s'.tv ≤ (taken tr).length) (h3 : s.hv ≤ s'.hv) (h4 : s'.hv ≤ (accepted tr).length) : VInv cap (tr ++ []) s' := by
  rw [List.append_nil]
  exact ⟨v.took, PView_see h v.took v.pview h1 h2, CView_see h v.cview h3 h4⟩

theorem stepP_VInv (cfg : Cfg w) (hcap : cfg.cap < 2 ^ w) {tr : List (Ev T)} {s : St w T} (j : Nat) (h : Inv cfg.cap tr s) (v : VInv cfg.cap tr s) :
    VInv cfg.cap (tr ++ (stepP cfg j s).2) (stepP cfg j s).1 := by
  have hp := h.pinv
  have h1 := h.tvK; have h2 := h.tvA; have h3 := h.Khv; have h4 := h.hvA
  unfold stepP
  split
  · simpa using v
  · exact VInv_quiet h v (Nat.le_refl _) h1 (Nat.le_refl _) h4
  · next x h' hpc =>
    rw [hpc] at hp
    have hp' : h' = _ := hp
    split
    · next hj =>
      split
      · simpa using v
      · next m hm =>
        obtain ⟨hjK, rfl⟩ := h.tm.get hm
        simp only
        split
        · next he =>
          rw [hp', ofNat_sub (by omega)] at he
          have e := congrArg BitVec.toNat he
          rw [BitVec.toNat_ofNat, BitVec.toNat_ofNat, Nat.mod_eq_of_lt hcap, Nat.mod_eq_of_lt (by omega)] at e
          have ea : accepted (tr ++ [.putRet x false]) = accepted tr := by simp [accepted]
          refine VInv_prod (e := .putRet x false) h v rfl rfl hj hjK ?_
          simp only [play]
          rw [if_pos (by simp only [List.length_drop]; omega), ea]
        · exact VInv_quiet h v hj hjK (Nat.le_refl _) h4
    · simpa using v
  · split
    · exact VInv_quiet h v (Nat.le_refl _) h1 (Nat.le_refl _) h4
    · exact VInv_quiet h v (Nat.le_refl _) h1 (Nat.le_refl _) h4
  · next x h' hpc =>
    rw [hpc] at hp
    have hlt := hp.2.1
    refine VInv_prod (e := .putRet x true) h v rfl rfl (Nat.le_refl _) h1 ?_
    have ea : accepted (tr ++ [.putRet x true]) = accepted tr ++ [x] := by simp [accepted]
    simp only [play]
    rw [if_pos (by simp only [List.length_drop]; omega), ea, List.drop_append_of_le_length (by omega)]
  · exact VInv_quiet h v (Nat.le_refl _) h1 (Nat.le_refl _) h4
  · next h' hpc =>
    rw [hpc] at hp
    have hp' : h' = _ := hp
    split
    · next hj =>
      split
      · simpa using v
      · next m hm =>
        obtain ⟨hjK, rfl⟩ := h.tm.get hm
        have e := free_val (w := w) (A := (accepted tr).length) (j := j) hcap (by omega) (by omega)
        simp only
        rw [hp', e]
        have ea : ∀ n, accepted (tr ++ [.numFreeRet n]) = accepted tr := by simp [accepted]
        refine VInv_prod (e := .numFreeRet _) h v rfl rfl hj hjK ?_
        simp only [play]
        rw [if_pos (by simp only [List.length_drop]; omega), ea]
    · simpa using v

theorem stepC_VInv (cfg : Cfg w) (hcap : cfg.cap < 2 ^ w) {acq : Bool} (mvf : T → T) {tr : List (Ev T)} {s : St w T} (j : Nat) (h : Inv cfg.cap tr s)
    (q : QInv cfg.cap tr s) (v : VInv cfg.cap tr s) : VInv cfg.cap (tr ++ (stepC cfg acq mvf j s).2) (stepC cfg acq mvf j s).1 := by
  have h1 := h.tvK; have h2 := h.tvA; have h3 := h.Khv; have h4 := h.hvA; have h5 := h.ck
  have hc := h.cinv
  have eq0 : ∀ {i : Nat}, (taken tr).length ≤ i → i ≤ (accepted tr).length → BitVec.ofNat w (taken tr).length = BitVec.ofNat w i → i = (taken tr).length := by
    intro i l1 l2 he
    have e : (BitVec.ofNat w i - BitVec.ofNat w (taken tr).length).toNat = 0 := by rw [he]; simp
    rw [ofNat_sub l1, BitVec.toNat_ofNat, Nat.mod_eq_of_lt (by omega)] at e
    omega
  have nil0 : ∀ {i : Nat}, i = (taken tr).length → ((accepted tr).take i).drop (taken tr).length = [] := by
    rintro i rfl; simp
  unfold stepC
  split
  · simpa using v
  · next o hpc =>
    split
    · simpa using v
    · next hl =>
      obtain ⟨g1, g2, rfl, rfl⟩ := loadHead_spec h.hm hl
      exact VInv_quiet h v (Nat.le_refl _) h1 g1 g2
  · next o hd hpc =>
    have e := chk_n hcap h hpc
    have ek := q.chk o hd hpc
    simp only
    split
    all_goals
      refine VInv_cons (e := .numFilledRet _) h v rfl rfl (Nat.le_refl _) h4 ?_
      have : taken (tr ++ [Ev.numFilledRet (hd - own s.tmsgs).toNat]) = taken tr := by simp [taken]
      rw [this]
      simp only [play]
      rw [if_pos (by simp only [List.length_drop, List.length_take]; omega)]
  · exact VInv_quiet h v (Nat.le_refl _) h1 (Nat.le_refl _) h4
  · next mv ck t hpc =>
    rw [hpc] at hc
    have hc' : t = _ := hc
    split
    · simpa using v
    · next hl =>
      obtain ⟨g1, g2, rfl, rfl⟩ := loadHead_spec h.hm hl
      split
      · next he =>
        rw [hc'] at he
        have := eq0 (by omega) g2 he
        refine VInv_cons (e := .getRet none) h v rfl rfl g1 g2 ?_
        have e : taken (tr ++ [Ev.getRet none]) = taken tr := by simp [taken]
        rw [e]
        simp only
        rw [nil0 this]
        rfl
      · exact VInv_quiet h v (Nat.le_refl _) h1 g1 g2
  · split
    · exact VInv_quiet h v (Nat.le_refl _) h1 (Nat.le_refl _) h4
    · exact VInv_quiet h v (Nat.le_refl _) h1 (Nat.le_refl _) h4
  · next t x hpc =>
    rw [hpc] at hc
    obtain ⟨_, c2, c3⟩ := hc
    have e : (taken (tr ++ [Ev.getRet (some x)])).length = (taken tr).length + 1 := by simp [taken]
    refine VInv_cons (e := .getRet (some x)) h v rfl rfl (Nat.le_refl _) h4 ?_
    simp only [play]
    rw [if_pos (by rw [List.head?_drop, List.getElem?_take_of_lt c2]; exact c3), List.tail_drop, e]
  · exact VInv_quiet h v (Nat.le_refl _) h1 (Nat.le_refl _) h4
  · next t hpc =>
    rw [hpc] at hc
    have hc' : t = _ := hc
    split
    · simpa using v
    · next hl =>
      obtain ⟨g1, g2, rfl, rfl⟩ := loadHead_spec h.hm hl
      split
      · exact VInv_quiet h v (Nat.le_refl _) h1 g1 g2
      · next he =>
        rw [hc', Decidable.not_not] at he
        have := eq0 (by omega) g2 he
        refine VInv_cons (e := .removeRet false) h v rfl rfl g1 g2 ?_
        have e : taken (tr ++ [Ev.removeRet false]) = taken tr := by simp [taken]
        rw [e]
        simp only
        rw [nil0 this]
        simp [play]
  · next t hpc =>
    rw [hpc] at hc
    have c2 := hc.2
    have e : (taken (tr ++ [Ev.removeRet true])).length = (taken tr).length + 1 := by simp [taken]
    refine VInv_cons (e := .removeRet true) h v rfl rfl (Nat.le_refl _) h4 ?_
    simp only [play]
    rw [if_pos (by
      rw [eq_comm, decide_eq_true_iff]
      intro g
      have := congrArg List.length g
      simp only [List.length_drop, List.length_take, List.length_nil] at this
      omega), List.tail_drop, e]
  · next hpc => rw [hpc] at hc; exact hc.elim
  · next hpc => rw [hpc] at hc; exact hc.elim

theorem step_VInv (cfg : Cfg w) (hcap : cfg.cap < 2 ^ w) {acq : Bool} (mvf : T → T) {tr : List (Ev T)} {s : St w T} (a : Act T)
    (h : Inv cfg.cap tr s) (q : QInv cfg.cap tr s) (v : VInv cfg.cap tr s) : VInv cfg.cap (tr ++ (step cfg acq mvf s a).2) (step cfg acq mvf s a).1 := by
  cases a with
  | put x => simp only [step, callP]; split <;> exact VInv_quiet h v (Nat.le_refl _) h.tvK (Nat.le_refl _) h.hvA
  | numFree => simp only [step, callFree]; split <;> exact VInv_quiet h v (Nat.le_refl _) h.tvK (Nat.le_refl _) h.hvA
  | pStep j => exact stepP_VInv cfg hcap j h v
  | cStep j => exact stepC_VInv cfg hcap mvf j h q v
  | cCall op =>
    simp only [step, callC]
    split
    · cases op <;> exact VInv_quiet h v (Nat.le_refl _) h.tvK (Nat.le_refl _) h.hvA
    · simpa using v

theorem run_VInv (cfg : Cfg w) (hcap : cfg.cap < 2 ^ w) {acq : Bool} (mvf : T → T) (as : List (Act T)) :
    ∀ {tr : List (Ev T)} {s : St w T}, IdxOk cfg (accepted (tr ++ (run cfg acq mvf s as).2)).length → (∀ a ∈ as, Allowed a) →
    Inv cfg.cap tr s → QInv cfg.cap tr s → VInv cfg.cap tr s → VInv cfg.cap (tr ++ (run cfg acq mvf s as).2) (run cfg acq mvf s as).1 := by
  induction as with
  | nil => intro tr s _ _ _ _ h; simpa [run] using h
  | cons a as ih =>
    intro tr s hidx ha h hg hv
    simp only [run] at hidx ⊢
    rw [← List.append_assoc] at hidx ⊢
    have hi := hidx.mono (n := (accepted tr).length) (by rw [accepted_append, accepted_append]; simp only [List.length_append]; omega)
    exact ih hidx (fun b hb => ha b (by simp [hb])) (step_Inv cfg hcap mvf hi a (ha a (by simp)) h) (step_QInv cfg hcap mvf a h hg) (step_VInv cfg hcap mvf a h hg hv)

end SpscWeak
