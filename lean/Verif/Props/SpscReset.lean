import Verif.Lemmas.SpscReset
/-! # Property C06, producer side: exactly when the producer may reset -/

namespace Spsc
open Spec
variable {T : Type}

section
variable {w k : Nat} (hk : k < w) (dflt : T) (mv : T → T) {d : Nat} (hd : d ≤ 2 ^ k) (as : List (Act T))
  (hc : CalmResets (fixedCfg w k) dflt mv (init w (2 ^ k) dflt d) as = true)
include hk hd hc

/-- **C06** (partial): the producer may reset any number of times if, whenever such a reset stores, the FIFO is empty or the consumer has not begun a call: every item that leaves is the oldest one, nothing is accessed out of bounds, the capacity is kept, and the
results of `put`, `get`, `get_or_default` and `remove_first` are right. Missing: resets at the other moments, which break the FIFO (below). -/
theorem C06_calm_resets_partial :
    InOrder (List.replicate d dflt) (run (fixedCfg w k) dflt mv (init w (2 ^ k) dflt d) as).2 ∧
    (run (fixedCfg w k) dflt mv (init w (2 ^ k) dflt d) as).1.ub = false ∧
    (content (List.replicate d dflt) (run (fixedCfg w k) dflt mv (init w (2 ^ k) dflt d) as).2).length ≤ 2 ^ k ∧
    (∀ es1 es2 x ok, (run (fixedCfg w k) dflt mv (init w (2 ^ k) dflt d) as).2 = es1 ++ .putRet x ok :: es2 →
      ok = decide ((content (List.replicate d dflt) es1).length < 2 ^ k)) ∧
    (∀ es1 es2 r, (run (fixedCfg w k) dflt mv (init w (2 ^ k) dflt d) as).2 = es1 ++ .getRet r :: es2 → r = (content (List.replicate d dflt) es1).head?) ∧
    (∀ es1 es2 took v, (run (fixedCfg w k) dflt mv (init w (2 ^ k) dflt d) as).2 = es1 ++ .getOrDefaultRet took v :: es2 →
      took = !(content (List.replicate d dflt) es1).isEmpty ∧ v = (content (List.replicate d dflt) es1).head?.getD dflt) ∧
    (∀ es1 es2 took, (run (fixedCfg w k) dflt mv (init w (2 ^ k) dflt d) as).2 = es1 ++ .removeRet took :: es2 → took = !(content (List.replicate d dflt) es1).isEmpty) := by
  obtain ⟨⟨bs, hn, e1, e2⟩, _⟩ := sim_run (fixedCfg w k) dflt mv as (init w (2 ^ k) dflt d) (by intro h hh; cases hh) hc
  have hi : calm (init w (2 ^ k) dflt d) = init w (2 ^ k) dflt d := rfl
  rw [hi] at e1 e2
  obtain ⟨o1, o2⟩ := C01_fifo_order hk dflt mv hd bs hn
  have tr : ∀ {e : Ev T}, core [e] = [e] → ∀ es1 es2, (run (fixedCfg w k) dflt mv (init w (2 ^ k) dflt d) as).2 = es1 ++ e :: es2 →
      ∃ p q, (run (fixedCfg w k) dflt mv (init w (2 ^ k) dflt d) bs).2 = p ++ e :: q ∧ content (List.replicate d dflt) p = content (List.replicate d dflt) es1 := by
    intro e he es1 es2 h
    have h2 : core (run (fixedCfg w k) dflt mv (init w (2 ^ k) dflt d) bs).2 = core es1 ++ e :: core es2 := by
      rw [e2, h, core_append]
      have := core_append [e] es2
      rw [he] at this
      rw [show e :: es2 = [e] ++ es2 from rfl, this]
      rfl
    obtain ⟨p, q, h3, h4, _⟩ := core_split he _ _ _ h2
    exact ⟨p, q, h3, content_core h4⟩
  refine ⟨?_, ?_, ?_, ?_, ?_, ?_, ?_⟩
  · have ha := core_accepted (run (fixedCfg w k) dflt mv (init w (2 ^ k) dflt d) as).2
    have ht := core_taken (run (fixedCfg w k) dflt mv (init w (2 ^ k) dflt d) as).2
    rw [← e2, core_accepted] at ha
    rw [← e2, core_taken] at ht
    unfold InOrder at o1 ⊢
    rw [← ha, ← ht]
    exact o1
  · rw [e1] at o2
    exact o2
  · rw [← content_core e2]
    exact C02_never_overfull hk dflt mv hd bs hn
  · intro es1 es2 x ok h
    obtain ⟨p, q, h3, h4⟩ := tr rfl es1 es2 h
    obtain ⟨g1, g2⟩ := C02_put_result hk dflt mv hd bs hn h3
    rw [h4] at g1 g2
    cases ok
    · rw [g1 rfl]; simp
    · simpa using g2 rfl
  · intro es1 es2 r h
    obtain ⟨p, q, h3, h4⟩ := tr rfl es1 es2 h
    rw [← h4]
    exact C03_get_result hk dflt mv hd bs hn h3
  · intro es1 es2 took v h
    obtain ⟨p, q, h3, h4⟩ := tr rfl es1 es2 h
    rw [← h4]
    exact C03_get_or_default hk dflt mv hd bs hn h3
  · intro es1 es2 took h
    obtain ⟨p, q, h3, h4⟩ := tr rfl es1 es2 h
    rw [← h4]
    exact C03_remove_first hk dflt mv hd bs hn h3

/-- What the memory is like after such a schedule. -/
theorem calm_Inv : ∃ tr : List (Ev T), core tr = core (run (fixedCfg w k) dflt mv (init w (2 ^ k) dflt d) as).2 ∧
    Inv (2 ^ k) (List.replicate d dflt) tr (calm (run (fixedCfg w k) dflt mv (init w (2 ^ k) dflt d) as).1) ∧
    ResetOk (run (fixedCfg w k) dflt mv (init w (2 ^ k) dflt d) as).1 := by
  obtain ⟨⟨bs, hn, e1, e2⟩, hr⟩ := sim_run (fixedCfg w k) dflt mv as (init w (2 ^ k) dflt d) (by intro h hh; cases hh) hc
  have hi : calm (init w (2 ^ k) dflt d) = init w (2 ^ k) dflt d := rfl
  rw [hi] at e1 e2
  have h : Inv (2 ^ k) (List.replicate d dflt) ([] ++ (run (fixedCfg w k) dflt mv (init w (2 ^ k) dflt d) bs).2) (run (fixedCfg w k) dflt mv (init w (2 ^ k) dflt d) bs).1 :=
    run_Inv (fixedCfg w k) (fixed_cap_lt hk) dflt mv (tr := []) bs hn (fixed_IdxOk hk _) (init_Inv dflt d hd)
  rw [e1] at h
  exact ⟨_, e2, h, hr⟩

/-- **C06**: such a reset empties the FIFO: nothing stored before it comes out afterwards. -/
theorem C06_calm_reset_empties (h : BitVec w) (hp : (run (fixedCfg w k) dflt mv (init w (2 ^ k) dflt d) as).1.ppc = .reset1 h) (b : Bool)
    (hq : (run (fixedCfg w k) dflt mv (init w (2 ^ k) dflt d) as).1.tail = (run (fixedCfg w k) dflt mv (init w (2 ^ k) dflt d) as).1.head ∨
      notBegun (run (fixedCfg w k) dflt mv (init w (2 ^ k) dflt d) as).1.cpc = true) :
    content (List.replicate d dflt) (run (fixedCfg w k) dflt mv (init w (2 ^ k) dflt d) (as ++ [.pStep b])).2 = [] := by
  obtain ⟨tr, h1, h2, h3⟩ := calm_Inv hk dflt mv hd as hc
  rw [run_append]
  obtain ⟨s, hs⟩ : ∃ s, (run (fixedCfg w k) dflt mv (init w (2 ^ k) dflt d) as).1 = s := ⟨_, rfl⟩
  rw [hs] at hp hq h2 h3 ⊢
  have hh := h3 h hp
  have hst : step (fixedCfg w k) dflt mv s (.pStep b) = ({ s with tail := h, ppc := .idle }, [.resetRet (h - s.tail).toNat]) := by simp [step, stepP, hp]
  simp only [run, hst]
  have hcap := fixed_cap_lt hk
  have e1 : (calm s).head = s.head := rfl
  have e2 : (calm s).tail = s.tail := rfl
  have g1 := h2.head
  have g2 := h2.tail
  have g3 := h2.ka
  have g4 := h2.ak
  rw [e1] at g1
  rw [e2] at g2
  have hn : (h - s.tail).toNat = (List.replicate d dflt ++ accepted tr).length - (taken tr).length := by
    rw [hh, g1, g2, ofNat_sub g3, BitVec.toNat_ofNat, Nat.mod_eq_of_lt]
    exact Nat.lt_of_le_of_lt g4 hcap
  have ha := core_accepted (run (fixedCfg w k) dflt mv (init w (2 ^ k) dflt d) as).2
  have ht := core_taken (run (fixedCfg w k) dflt mv (init w (2 ^ k) dflt d) as).2
  rw [← h1, core_accepted] at ha
  rw [← h1, core_taken] at ht
  unfold content
  rw [List.drop_eq_nil_iff]
  simp only [accepted_append, taken_append, ← ha, ← ht, hn, List.append_nil, accepted, taken, List.length_append, List.length_replicate] at g3 ⊢
  omega

/-- **C06, violated** at every other moment: if a `reset()` of the producer stores while the FIFO is not empty and the consumer is in a `get` or `remove_first` and has loaded, then that call, run to its end, takes an item the reset dropped: more items leave than
went in. -/
theorem C06_other_moments_violated (hk0 : 0 < 2 ^ k) (h : BitVec w) (hp : (run (fixedCfg w k) dflt mv (init w (2 ^ k) dflt d) as).1.ppc = .reset1 h)
    (hne : (run (fixedCfg w k) dflt mv (init w (2 ^ k) dflt d) as).1.tail ≠ (run (fixedCfg w k) dflt mv (init w (2 ^ k) dflt d) as).1.head)
    (hcons : (∃ kind t, (run (fixedCfg w k) dflt mv (init w (2 ^ k) dflt d) as).1.cpc = .get1 kind t) ∨
      (∃ kind t, (run (fixedCfg w k) dflt mv (init w (2 ^ k) dflt d) as).1.cpc = .get2 kind t) ∨
      (∃ kind t x, (run (fixedCfg w k) dflt mv (init w (2 ^ k) dflt d) as).1.cpc = .get3 kind t x) ∨
      (∃ t, (run (fixedCfg w k) dflt mv (init w (2 ^ k) dflt d) as).1.cpc = .rem1 t) ∨
      (∃ t, (run (fixedCfg w k) dflt mv (init w (2 ^ k) dflt d) as).1.cpc = .rem2 t)) (b : Bool) :
    ¬ InOrder (List.replicate d dflt) (run (fixedCfg w k) dflt mv (init w (2 ^ k) dflt d) (as ++ [.pStep b, .cStep b, .cStep b, .cStep b])).2 := by
  obtain ⟨tr, h1, h2, h3⟩ := calm_Inv hk dflt mv hd as hc
  rw [run_append]
  obtain ⟨s, hs⟩ : ∃ s, (run (fixedCfg w k) dflt mv (init w (2 ^ k) dflt d) as).1 = s := ⟨_, rfl⟩
  rw [hs] at hp hne hcons h2 h3 ⊢
  have hh := h3 h hp
  have hcap := fixed_cap_lt hk
  have g1 : s.head = _ := h2.head
  have g2 : s.tail = _ := h2.tail
  have g3 := h2.ka
  have g4 := h2.ak
  have g5 : s.buf.length = 2 ^ k := h2.buflen
  have hn : (h - s.tail).toNat = (List.replicate d dflt ++ accepted tr).length - (taken tr).length := by
    rw [hh, g1, g2, ofNat_sub g3, BitVec.toNat_ofNat, Nat.mod_eq_of_lt]
    exact Nat.lt_of_le_of_lt g4 hcap
  have ha := core_accepted (run (fixedCfg w k) dflt mv (init w (2 ^ k) dflt d) as).2
  have ht := core_taken (run (fixedCfg w k) dflt mv (init w (2 ^ k) dflt d) as).2
  rw [← h1, core_accepted] at ha
  rw [← h1, core_taken] at ht
  have fin : ∀ es : List (Ev T), accepted es = [] → (taken es).length = (h - s.tail).toNat + 1 →
      ¬ InOrder (List.replicate d dflt) ((run (fixedCfg w k) dflt mv (init w (2 ^ k) dflt d) as).2 ++ es) := by
    intro es he1 he2 hio
    have := hio.1
    rw [accepted_append, taken_append, he1, List.append_nil, ← ha, ← ht, List.length_append, he2, hn] at this
    omega
  have hidx : ∀ t : BitVec w, ∃ y, s.buf[(fixedCfg w k).idx t]? = some y := by
    intro t
    have : (fixedCfg w k).idx t < s.buf.length := by
      rw [g5]
      have := fixed_idx hk t.toNat
      rw [BitVec.ofNat_toNat, BitVec.setWidth_eq] at this
      rw [this]
      exact Nat.mod_lt _ hk0
    exact ⟨_, List.getElem?_eq_getElem this⟩
  obtain ⟨hd', tl, buf, ppc, cpc, ub⟩ := s
  simp only at hp hne hcons hh hidx fin
  subst hp
  have hinv := h2.cinv
  rcases hcons with ⟨kind, t, rfl⟩ | ⟨kind, t, rfl⟩ | ⟨kind, t, x, rfl⟩ | ⟨t, rfl⟩ | ⟨t, rfl⟩
  · have ht0 : t = tl := by
      have : t = _ := hinv
      rw [this]; exact g2.symm
    obtain ⟨y, hy⟩ := hidx t
    apply fin
    · simp only [run, step, stepP, stepC, ht0 ▸ hne, if_false, hy]
      cases kind <;> rfl
    · simp only [run, step, stepP, stepC, ht0 ▸ hne, if_false, hy]
      cases kind <;> simp [taken]
  · obtain ⟨y, hy⟩ := hidx t
    apply fin
    · simp only [run, step, stepP, stepC, hy]
      cases kind <;> rfl
    · simp only [run, step, stepP, stepC, hy]
      cases kind <;> simp [taken]
  · apply fin
    · simp only [run, step, stepP, stepC]
      cases kind <;> rfl
    · simp only [run, step, stepP, stepC]
      cases kind <;> simp [taken]
  · have ht0 : t = tl := by
      have : t = _ := hinv
      rw [this]; exact g2.symm
    apply fin
    · simp only [run, step, stepP, stepC, ne_eq, ht0 ▸ hne, not_false_eq_true, if_true]
      rfl
    · simp only [run, step, stepP, stepC, ne_eq, ht0 ▸ hne, not_false_eq_true, if_true]
      simp [taken]
  · apply fin
    · simp only [run, step, stepP, stepC]
      rfl
    · simp only [run, step, stepP, stepC]
      simp [taken]

end

/-- two puts, a producer reset while the consumer has called `get` but not begun, and an interleaved one that finds the FIFO empty -/
def calmSample : List (Act Nat) :=
  putActs 1 ++ putActs 2 ++ [.pCall .reset, .pStep true, .cCall .get, .pStep true] ++ putActs 3 ++ [.cStep true, .cStep true, .cStep true, .cStep true, .pCall .reset, .pStep true, .cCall .get, .cStep true, .pStep true, .cStep true]

example : (run (fixedCfg 8 1) 0 id (init 8 2 0 0) calmSample).2 = [.putRet 1 true, .putRet 2 true, .resetCall, .resetRet 2, .putRet 3 true, .getRet (some 3), .resetCall, .resetRet 0, .getRet none] := by decide
example := C06_calm_resets_partial (w := 8) (k := 1) (by decide) 0 id (d := 0) (by decide) calmSample (by decide)
example := C06_calm_reset_empties (w := 8) (k := 1) (by decide) 0 id (d := 0) (by decide) (putActs 1 ++ putActs 2 ++ [.pCall .reset, .pStep true, .cCall .get]) (by decide) 2 (by decide) true (.inr (by decide))
example := C06_other_moments_violated (w := 8) (k := 1) (by decide) 0 id (d := 0) (by decide) (putActs 1 ++ putActs 2 ++ [.pCall .reset, .pStep true, .cCall .get, .cStep true, .cStep true]) (by decide) (by decide) 2 (by decide) (by decide) (.inr (.inl ⟨.get, 0, by decide⟩)) true

end Spsc
