import Verif.Spec.SpscIncl
/-! # C05, C233: the interleaved executions are weak-memory executions -/
namespace SpscIncl
open Spsc (Cfg Ev)

variable {T : Type} {w : Nat}

inductive PR : Spsc.PPc w T → SpscWeak.PPc w T → Prop
  | idle : PR .idle .idle
  | put0 (x) : PR (.put0 x) (.put0 x)
  | put1 (x h) : PR (.put1 x h) (.put1 x h)
  | put2 (x h) : PR (.put2 x h) (.put2 x h)
  | put3 (x h) : PR (.put3 x h) (.put3 x h)
  | free0 : PR (.free0 false) .free0
  | free1 (h) : PR (.freeH false h) (.free1 h)

inductive CR : Spsc.CPc w T → SpscWeak.CPc w T → Prop
  | idle : CR .idle .idle
  | get0 (ck) : CR (.get0 .get) (.get0 false ck)
  | mov0 (ck) : CR (.get0 .move) (.get0 true ck)
  | get1 (ck t) : CR (.get1 .get t) (.get1 false ck t)
  | mov1 (ck t) : CR (.get1 .move t) (.get1 true ck t)
  | get2 (t) : CR (.get2 .get t) (.get2 false t)
  | mov2 (t) : CR (.get2 .move t) (.get2 true t)
  | get3 (t x) : CR (.get3 .get t x) (.get3 t x)
  | mov3 (t x) : CR (.get3 .move t x) (.get3 t x)
  | rem0 : CR .rem0 .rem0
  | rem1 (t) : CR (.rem1 t) (.rem1 t)
  | rem2 (t) : CR (.rem2 t) (.rem2 t)
  | fill0 : CR (.fill0 false) (.chk0 true)
  | fillH (h) : CR (.fillH false h) (.chk1 true h)
  | reset0 : CR .reset0 .reset0
  | reset1 (h) : CR (.reset1 h) (.reset1 h)

/-- the last message is the value -/
structure Last (ms : List (SpscWeak.Msg w)) (v : BitVec w) (seen : Nat) : Prop where
  get : ∃ m, ms[ms.length - 1]? = some m ∧ m.val = v
  le : seen ≤ ms.length - 1

theorem Last.own {ms : List (SpscWeak.Msg w)} {v : BitVec w} {n : Nat} (h : Last ms v n) : SpscWeak.own ms = v := by
  obtain ⟨m, h1, h2⟩ := h.get
  unfold SpscWeak.own
  rw [List.getLast?_eq_getElem?, h1]
  exact h2

theorem Last.push {ms : List (SpscWeak.Msg w)} {v : BitVec w} {n : Nat} (h : Last ms v n) (u : BitVec w) (c : Nat) :
    Last (ms ++ [⟨u, c⟩]) u n := by
  have hl := h.le
  refine ⟨⟨⟨u, c⟩, ?_, rfl⟩, ?_⟩
  · simp
  · simp; omega

theorem Last.seen {ms : List (SpscWeak.Msg w)} {v : BitVec w} {n : Nat} (h : Last ms v n) : Last ms v (ms.length - 1) :=
  ⟨h.get, Nat.le_refl _⟩

structure Rel (s : Spsc.St w T) (u : SpscWeak.St w T) : Prop where
  h : Last u.hmsgs s.head u.hv
  t : Last u.tmsgs s.tail u.tv
  b : u.buf = s.buf
  we : u.wEp.length = s.buf.length
  re : u.rEp.length = s.buf.length
  p : PR s.ppc u.ppc
  c : CR s.cpc u.cpc

theorem stepP_sim (cfg : Cfg w) (s : Spsc.St w T) (u : SpscWeak.St w T) (h : Rel s u) :
    Rel (Spsc.stepP cfg true s).1 (SpscWeak.stepP cfg (u.tmsgs.length - 1) u).1 ∧
    (SpscWeak.stepP cfg (u.tmsgs.length - 1) u).2 = returns (Spsc.stepP cfg true s).2 := by
  obtain ⟨hh, ht, hb, hwe, hre, hp, hc⟩ := h
  obtain ⟨head, tail, buf, ppc, cpc, ub⟩ := s
  obtain ⟨m, hm, hv⟩ := ht.get
  have hle := ht.le
  have hs := ht.seen
  dsimp only at *
  generalize hu : u.ppc = q at hp
  cases hp with
  | idle => simp only [Spsc.stepP, SpscWeak.stepP, hu]; exact ⟨⟨hh, ht, hb, hwe, hre, by rw [hu]; exact .idle, hc⟩, rfl⟩
  | put0 x =>
    simp only [Spsc.stepP, SpscWeak.stepP, hu, hh.own]
    exact ⟨⟨hh, ht, hb, hwe, hre, .put1 _ _, hc⟩, rfl⟩
  | put1 x v =>
    simp only [Spsc.stepP, SpscWeak.stepP, hu, if_pos hle, hm, hv]
    split
    · exact ⟨⟨hh, hs, hb, hwe, hre, .idle, hc⟩, rfl⟩
    · exact ⟨⟨hh, hs, hb, hwe, hre, .put2 _ _, hc⟩, rfl⟩
  | put2 x v =>
    simp only [Spsc.stepP, SpscWeak.stepP, hu]
    by_cases hi : cfg.idx v < buf.length
    · rw [if_pos hi, List.getElem?_eq_getElem (by omega)]
      exact ⟨⟨hh, ht, by simp [hb], by simpa using hwe, by simpa using hre, .put3 _ _, hc⟩, rfl⟩
    · rw [if_neg hi, List.getElem?_eq_none (by omega)]
      exact ⟨⟨hh, ht, hb, hwe, hre, by simp only [hu]; exact .put2 _ _, hc⟩, rfl⟩
  | put3 x v =>
    simp only [Spsc.stepP, SpscWeak.stepP, hu]
    exact ⟨⟨hh.push _ _, ht, hb, hwe, hre, .idle, hc⟩, rfl⟩
  | free0 =>
    simp only [Spsc.stepP, SpscWeak.stepP, hu, hh.own, if_true]
    exact ⟨⟨hh, ht, hb, hwe, hre, .free1 _, hc⟩, rfl⟩
  | free1 v =>
    simp only [Spsc.stepP, SpscWeak.stepP, hu, if_pos hle, hm, hv]
    exact ⟨⟨hh, hs, hb, hwe, hre, .idle, hc⟩, rfl⟩

theorem stepC_sim (cfg : Cfg w) (acq : Bool) (dflt : T) (mv : T → T) (s : Spsc.St w T) (u : SpscWeak.St w T) (h : Rel s u) :
    Rel (Spsc.stepC cfg dflt mv true s).1 (SpscWeak.stepC cfg acq mv (u.hmsgs.length - 1) u).1 ∧
    (SpscWeak.stepC cfg acq mv (u.hmsgs.length - 1) u).2 = returns (Spsc.stepC cfg dflt mv true s).2 := by
  obtain ⟨hh, ht, hb, hwe, hre, hp, hc⟩ := h
  obtain ⟨head, tail, buf, ppc, cpc, ub⟩ := s
  obtain ⟨m, hm, hv⟩ := hh.get
  have hle := hh.le
  have hs := hh.seen
  have hl : ∀ a, SpscWeak.loadHead a (u.hmsgs.length - 1) u =
      some (head, { u with hv := u.hmsgs.length - 1, cknow := if a then max u.cknow m.clk else u.cknow }) := by
    intro a
    unfold SpscWeak.loadHead
    rw [if_pos hle, hm]
    simp only [hv]
  dsimp only at *
  generalize hu : u.cpc = q at hc
  cases hc with
  | idle => simp only [Spsc.stepC, SpscWeak.stepC, hu]; exact ⟨⟨hh, ht, hb, hwe, hre, hp, by rw [hu]; exact .idle⟩, rfl⟩
  | get0 ck =>
    simp only [Spsc.stepC, SpscWeak.stepC, hu, ht.own]
    exact ⟨⟨hh, ht, hb, hwe, hre, hp, .get1 _ _⟩, rfl⟩
  | mov0 ck =>
    simp only [Spsc.stepC, SpscWeak.stepC, hu, ht.own]
    exact ⟨⟨hh, ht, hb, hwe, hre, hp, .mov1 _ _⟩, rfl⟩
  | get1 ck t =>
    simp only [Spsc.stepC, SpscWeak.stepC, hu, hl]
    split
    · exact ⟨⟨hs, ht, hb, hwe, hre, hp, .idle⟩, rfl⟩
    · exact ⟨⟨hs, ht, hb, hwe, hre, hp, .get2 _⟩, rfl⟩
  | mov1 ck t =>
    simp only [Spsc.stepC, SpscWeak.stepC, hu, hl]
    split
    · exact ⟨⟨hs, ht, hb, hwe, hre, hp, .idle⟩, rfl⟩
    · exact ⟨⟨hs, ht, hb, hwe, hre, hp, .mov2 _⟩, rfl⟩
  | get2 t =>
    simp only [Spsc.stepC, SpscWeak.stepC, hu, hb]
    by_cases hi : cfg.idx t < buf.length
    · rw [List.getElem?_eq_getElem hi, List.getElem?_eq_getElem (by omega)]
      exact ⟨⟨hh, ht, by simp, hwe, by simpa using hre, hp, .get3 _ _⟩, rfl⟩
    · rw [List.getElem?_eq_none (by omega), List.getElem?_eq_none (by omega)]
      exact ⟨⟨hh, ht, rfl, hwe, hre, hp, .get2 _⟩, rfl⟩
  | mov2 t =>
    simp only [Spsc.stepC, SpscWeak.stepC, hu, hb]
    by_cases hi : cfg.idx t < buf.length
    · rw [List.getElem?_eq_getElem hi, List.getElem?_eq_getElem (by omega)]
      exact ⟨⟨hh, ht, by simp, by simpa using hwe, by simpa using hre, hp, .mov3 _ _⟩, rfl⟩
    · rw [List.getElem?_eq_none (by omega), List.getElem?_eq_none (by omega)]
      exact ⟨⟨hh, ht, rfl, hwe, hre, hp, .mov2 _⟩, rfl⟩
  | get3 t x =>
    simp only [Spsc.stepC, SpscWeak.stepC, hu]
    exact ⟨⟨hh, ht.push _ _, hb, hwe, hre, hp, .idle⟩, rfl⟩
  | mov3 t x =>
    simp only [Spsc.stepC, SpscWeak.stepC, hu]
    exact ⟨⟨hh, ht.push _ _, hb, hwe, hre, hp, .idle⟩, rfl⟩
  | rem0 =>
    simp only [Spsc.stepC, SpscWeak.stepC, hu, ht.own]
    exact ⟨⟨hh, ht, hb, hwe, hre, hp, .rem1 _⟩, rfl⟩
  | rem1 t =>
    simp only [Spsc.stepC, SpscWeak.stepC, hu, hl]
    split
    · exact ⟨⟨hs, ht, hb, hwe, hre, hp, .rem2 _⟩, rfl⟩
    · exact ⟨⟨hs, ht, hb, hwe, hre, hp, .idle⟩, rfl⟩
  | rem2 t =>
    simp only [Spsc.stepC, SpscWeak.stepC, hu]
    exact ⟨⟨hh, ht.push _ _, hb, hwe, hre, hp, .idle⟩, rfl⟩
  | fill0 =>
    simp only [Spsc.stepC, SpscWeak.stepC, hu, hl, if_true]
    exact ⟨⟨hs, ht, hb, hwe, hre, hp, .fillH _⟩, rfl⟩
  | fillH v =>
    simp only [Spsc.stepC, SpscWeak.stepC, hu, ht.own, true_or, if_true]
    exact ⟨⟨hh, ht, hb, hwe, hre, hp, .idle⟩, rfl⟩
  | reset0 =>
    simp only [Spsc.stepC, SpscWeak.stepC, hu, hl]
    exact ⟨⟨hs, ht, hb, hwe, hre, hp, .reset1 _⟩, rfl⟩
  | reset1 v =>
    simp only [Spsc.stepC, SpscWeak.stepC, hu, ht.own]
    exact ⟨⟨hh, ht.push _ _, hb, hwe, hre, hp, .idle⟩, rfl⟩

theorem callP_sim (s : Spsc.St w T) (u : SpscWeak.St w T) (h : Rel s u) (op : Spsc.POp T) (a : SpscWeak.Act T)
    (hop : (∃ x, op = .put x ∧ a = .put x) ∨ (op = .numFree ∧ a = .numFree)) (cfg : Cfg w) (acq : Bool) (mv : T → T) :
    Rel (Spsc.callP s op).1 (SpscWeak.step cfg acq mv u a).1 ∧ (SpscWeak.step cfg acq mv u a).2 = returns (Spsc.callP s op).2 := by
  obtain ⟨hh, ht, hb, hwe, hre, hp, hc⟩ := h
  obtain ⟨head, tail, buf, ppc, cpc, ub⟩ := s
  dsimp only at *
  generalize hu : u.ppc = q at hp
  have hp' := hp
  cases hp <;> rcases hop with ⟨x, rfl, rfl⟩ | ⟨rfl, rfl⟩ <;>
    simp only [Spsc.callP, SpscWeak.step, SpscWeak.callP, SpscWeak.callFree, hu] <;>
    first
    | exact ⟨⟨hh, ht, hb, hwe, hre, .put0 _, hc⟩, rfl⟩
    | exact ⟨⟨hh, ht, hb, hwe, hre, .free0, hc⟩, rfl⟩
    | exact ⟨⟨hh, ht, hb, hwe, hre, hu ▸ hp', hc⟩, rfl⟩

/-- the consumer's calls in the two models -/
def cop : Spsc.COp → Option SpscWeak.COp
  | .get => some .get
  | .getMove => some .getMove
  | .removeFirst => some .removeFirst
  | .numFilled => some .numFilled
  | .reset => some .reset
  | _ => none

theorem callC_sim (s : Spsc.St w T) (u : SpscWeak.St w T) (h : Rel s u) (op : Spsc.COp) (a : SpscWeak.COp) (hop : cop op = some a) :
    Rel (Spsc.callC s op).1 (SpscWeak.callC u a).1 ∧ (SpscWeak.callC u a).2 = returns (Spsc.callC s op).2 := by
  obtain ⟨hh, ht, hb, hwe, hre, hp, hc⟩ := h
  obtain ⟨head, tail, buf, ppc, cpc, ub⟩ := s
  dsimp only at *
  generalize hu : u.cpc = q at hc
  have hc' := hc
  by_cases hi : cpc = .idle
  · subst hi
    cases hc
    cases op <;> simp only [cop, Option.some.injEq, reduceCtorEq] at hop <;> subst hop <;>
      simp only [Spsc.callC, SpscWeak.callC, hu]
    · exact ⟨⟨hh, ht, hb, hwe, hre, hp, .get0 _⟩, rfl⟩
    · exact ⟨⟨hh, ht, hb, hwe, hre, hp, .mov0 _⟩, rfl⟩
    · exact ⟨⟨hh, ht, hb, hwe, hre, hp, .rem0⟩, rfl⟩
    · exact ⟨⟨hh, ht, hb, hwe, hre, hp, .fill0⟩, rfl⟩
    · exact ⟨⟨hh, ht, hb, hwe, hre, hp, .reset0⟩, rfl⟩
  · cases hc <;> first
      | exact absurd rfl hi
      | (simp only [Spsc.callC, SpscWeak.callC, hu]
         exact ⟨⟨hh, ht, hb, hwe, hre, hp, hu ▸ hc'⟩, rfl⟩)

theorem returns_append (a b : List (Ev T)) : returns (a ++ b) = returns a ++ returns b := by
  induction a with
  | nil => rfl
  | cons e a ih => cases e <;> simp [returns, ih]

theorem run_sim (cfg : Cfg w) (acq : Bool) (dflt : T) (mv : T → T) (as : List (Spsc.Act T)) : (∀ a ∈ as, Common a) →
    ∀ (s : Spsc.St w T) (u : SpscWeak.St w T), Rel s u →
    ∃ as' : List (SpscWeak.Act T), as'.length = as.length ∧ (.cCall .reset ∈ as' → .cCall .reset ∈ as) ∧
      (SpscWeak.run cfg acq mv u as').2 = returns (Spsc.run cfg dflt mv s as).2 := by
  induction as with
  | nil => exact fun _ s u _ => ⟨[], rfl, by simp, rfl⟩
  | cons a as ih =>
    intro ha s u hr
    have hstep : ∃ a' : SpscWeak.Act T, (a' = .cCall .reset → a = .cCall .reset) ∧
        Rel (Spsc.step cfg dflt mv s a).1 (SpscWeak.step cfg acq mv u a').1 ∧
        (SpscWeak.step cfg acq mv u a').2 = returns (Spsc.step cfg dflt mv s a).2 := by
      have hca := ha a (List.mem_cons_self ..)
      cases a with
      | pCall op =>
        cases op with
        | put x => exact ⟨.put x, nofun, callP_sim s u hr _ _ (.inl ⟨x, rfl, rfl⟩) cfg acq mv⟩
        | numFree => exact ⟨.numFree, nofun, callP_sim s u hr _ _ (.inr ⟨rfl, rfl⟩) cfg acq mv⟩
        | full => exact absurd hca id
        | reset => exact absurd hca id
      | pStep b =>
        have hb : b = true := hca
        subst hb
        exact ⟨.pStep (u.tmsgs.length - 1), nofun, stepP_sim cfg s u hr⟩
      | cCall op =>
        cases op with
        | get => exact ⟨.cCall .get, nofun, callC_sim s u hr _ _ rfl⟩
        | getMove => exact ⟨.cCall .getMove, nofun, callC_sim s u hr _ _ rfl⟩
        | removeFirst => exact ⟨.cCall .removeFirst, nofun, callC_sim s u hr _ _ rfl⟩
        | numFilled => exact ⟨.cCall .numFilled, nofun, callC_sim s u hr _ _ rfl⟩
        | reset => exact ⟨.cCall .reset, fun _ => rfl, callC_sim s u hr _ _ rfl⟩
        | getOrDefault => exact absurd hca id
        | empty => exact absurd hca id
      | cStep b =>
        have hb : b = true := hca
        subst hb
        exact ⟨.cStep (u.hmsgs.length - 1), nofun, stepC_sim cfg acq dflt mv s u hr⟩
    obtain ⟨a', h0, h1, h2⟩ := hstep
    obtain ⟨as', i0, i1, i2⟩ := ih (fun b hb => ha b (List.mem_cons_of_mem _ hb)) _ _ h1
    refine ⟨a' :: as', by simp [i0], ?_, ?_⟩
    · intro hm
      rcases List.mem_cons.1 hm with e | e
      · exact List.mem_cons.2 (.inl (h0 e.symm).symm)
      · exact List.mem_cons_of_mem _ (i1 e)
    · show (SpscWeak.step cfg acq mv u a').2 ++ (SpscWeak.run cfg acq mv _ as').2 = returns ((Spsc.step cfg dflt mv s a).2 ++ _)
      rw [returns_append, h2, i2]

/-- **C05, C233: the weak-memory model has all the interleavings.** Whatever the FIFO returns in some interleaved execution of the two threads (any
number of calls; both headers; whichever order `head_` is loaded with), it also returns in an execution under the C++ memory model, with a step for each
step and a `reset()` only where there was one. So the theorems about all weak-memory executions hold of the interleaved ones too, and an interleaving
that breaks a promise breaks it under the C++ memory model. -/
theorem C05_includes_interleavings (cfg : Cfg w) (cap : Nat) (acq : Bool) (dflt : T) (mv : T → T) (as : List (Spsc.Act T))
    (ha : ∀ a ∈ as, Common a) :
    ∃ as' : List (SpscWeak.Act T), as'.length = as.length ∧ (.cCall .reset ∈ as' → .cCall .reset ∈ as) ∧
      (SpscWeak.run cfg acq mv (SpscWeak.init w cap dflt) as').2 = returns (Spsc.run cfg dflt mv (Spsc.init w cap dflt 0) as).2 := by
  refine run_sim cfg acq dflt mv as ha _ _ ⟨⟨⟨⟨0#w, 0⟩, rfl, rfl⟩, Nat.le_refl _⟩, ⟨⟨⟨0#w, 0⟩, rfl, rfl⟩, Nat.le_refl _⟩, rfl, ?_, ?_, .idle, .idle⟩
  · simp [SpscWeak.init, Spsc.init]
  · simp [SpscWeak.init, Spsc.init]

/-- an item put and taken, with the two threads interleaved -/
example : let as : List (Spsc.Act Nat) := [.pCall (.put 5), .cCall .get, .pStep true, .pStep true, .cStep true, .pStep true, .pStep true, .cStep true, .cStep true, .cStep true]
    (∀ a ∈ as, Common a) ∧ returns (Spsc.run (Spsc.fixedCfg 8 1) 0 id (Spsc.init 8 2 0 0) as).2 = [.putRet 5 true, .getRet (some 5)] := by
  refine ⟨?_, by decide⟩
  intro a ha
  simp only [List.mem_cons, List.not_mem_nil, or_false] at ha
  rcases ha with rfl | rfl | rfl | rfl | rfl | rfl | rfl | rfl | rfl | rfl <;> first | trivial | rfl

end SpscIncl
