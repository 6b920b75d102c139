import Verif.Spec.DoubleBuf
/-! # Properties C75 to C77: DoubleBufferStream -/

namespace DoubleBuf
open Spec
variable {T : Type}

/-- Reachable states. -/
def Inv (size : Nat) (s : DoubleBuf T) : Prop := s.b0.length ≤ size ∧ s.b1.length ≤ size ∧ (s.idx = none → s.b0 = [] ∧ s.b1 = [])

theorem push_all (size : Nat) : ∀ (w l : List T), l.length + w.length ≤ size → w.foldl (pushBack size) l = l ++ w := by
  intro w
  induction w with
  | nil => intro l _; simp
  | cons x w ih =>
    intro l h
    rw [List.length_cons] at h
    rw [List.foldl_cons, pushBack, if_pos (by omega), ih (l ++ [x]) (by rw [List.length_append]; simp; omega)]
    simp

theorem buf_set_same (s : DoubleBuf T) (i : Bool) (l : List T) : (s.setBuf i l).buf i = l := by cases i <;> rfl
theorem buf_set_other (s : DoubleBuf T) (i : Bool) (l : List T) : (s.setBuf i l).buf (!i) = s.buf (!i) := by cases i <;> rfl
theorem buf_set_other' (s : DoubleBuf T) (i : Bool) (l : List T) : (s.setBuf (!i) l).buf i = s.buf i := by cases i <;> rfl

/-- What is queued: the contents of the buffer that is not being transmitted. -/
def queued (s : DoubleBuf T) : List T := match s.idx with | none => [] | some i => s.buf (!i)

/-- What is being transmitted. -/
def active (s : DoubleBuf T) : Option (List T) := s.idx.map s.buf

theorem transmit_spec (size : Nat) (s : DoubleBuf T) (w : List T) (res : Bool) (hs : Inv size s) :
    (w.length + (queued s).length ≤ size →
      (s.idx = none → transmit size s w res = (⟨w, [], some false⟩, some w, res)) ∧
      (∀ i, s.idx = some i → transmit size s w res = (s.setBuf (!i) (s.buf (!i) ++ w), none, true))) ∧
    (¬ w.length + (queued s).length ≤ size → transmit size s w res = (s, none, false)) := by
  obtain ⟨b0, b1, idx⟩ := s
  obtain ⟨h0, h1, h2⟩ := hs
  simp only at h0 h1 h2
  cases idx with
  | none =>
    obtain ⟨rfl, rfl⟩ := h2 rfl
    simp only [queued, List.length_nil, Nat.add_zero, transmit, Option.getD_none, Bool.not_true, buf, Nat.sub_zero]
    constructor
    · intro h
      refine ⟨fun _ => ?_, fun i hi => by cases hi⟩
      rw [if_pos h, push_all size w [] (by simpa using h)]
      simp [setBuf, startTx, buf]
    · intro h
      rw [if_neg h]
  | some i =>
    simp only [queued, transmit, Option.getD_some]
    have hb : (buf ⟨b0, b1, some i⟩ (!i)).length ≤ size := by cases i <;> simpa [buf]
    constructor
    · intro h
      refine ⟨fun h => (by cases h), fun j hj => ?_⟩
      cases hj
      rw [if_pos (by omega), push_all size w _ (by omega)]
      cases i <;> simp [setBuf, buf]
    · intro h
      rw [if_neg (by omega)]

theorem done_spec (s : DoubleBuf T) (res : Bool) (size : Nat) (hs : Inv size s) :
    (s.idx = none → done s res = (s, none)) ∧
    (∀ i, s.idx = some i → queued s = [] → done s res = ({}, none)) ∧
    (∀ i, s.idx = some i → queued s ≠ [] → done s res = ({ s.setBuf i [] with idx := some (!i) }, some (queued s))) := by
  obtain ⟨b0, b1, idx⟩ := s
  refine ⟨?_, ?_, ?_⟩
  · intro h; simp only at h; subst h; rfl
  · intro i h hq
    simp only at h; subst h
    cases i <;> simp_all [queued, done, setBuf, buf]
  · intro i h hq
    simp only at h; subst h
    cases i <;> simp_all [queued, done, setBuf, buf, startTx]

theorem step_inv (size : Nat) (s : DoubleBuf T) (o : Op T) (hs : Inv size s) : Inv size (step size s o).2 := by
  cases o with
  | transmit w res =>
    have t := transmit_spec size s w res hs
    simp only [step]
    by_cases h : w.length + (queued s).length ≤ size
    · cases hi : s.idx with
      | none =>
        rw [(t.1 h).1 hi]
        simp only [queued, hi, List.length_nil] at h
        exact ⟨by simpa using h, by simp, by simp⟩
      | some i =>
        rw [(t.1 h).2 i hi]
        simp only [queued, hi] at h
        obtain ⟨h0, h1, h2⟩ := hs
        cases i <;> simp_all [Inv, setBuf, buf] <;> omega
    · rw [t.2 h]; exact hs
  | done res =>
    obtain ⟨d1, d2, d3⟩ := done_spec s res size hs
    simp only [step]
    cases hi : s.idx with
    | none => rw [d1 hi]; exact hs
    | some i =>
      by_cases hq : queued s = []
      · rw [d2 i hi hq]; exact ⟨by simp, by simp, by simp⟩
      · rw [d3 i hi hq]
        obtain ⟨h0, h1, h2⟩ := hs
        cases i <;> simp_all [Inv, setBuf]

theorem run_inv (size : Nat) : ∀ (ops : List (Op T)) (s : DoubleBuf T), Inv size s → Inv size (run size s ops).2 := by
  intro ops
  induction ops with
  | nil => intro s h; exact h
  | cons o l ih => intro s h; exact ih _ (step_inv size s o h)

theorem init_inv (size : Nat) : Inv size ({} : DoubleBuf T) := ⟨by simp, by simp, by simp⟩

theorem step_data (size : Nat) (s : DoubleBuf T) (o : Op T) (hs : Inv size s) (e : Ev T) (s' : DoubleBuf T) (h : step size s o = (e, s')) :
    e.handed.getD [] ++ queued s' = queued s ++ (if e.ret || e.handed.isSome then e.word.getD [] else []) ∧
    active s' = (if e.handed.isSome then e.handed else if e.word.isNone then none else active s) := by
  cases o with
  | transmit w res =>
    have t := transmit_spec size s w res hs
    simp only [step] at h
    by_cases hf : w.length + (queued s).length ≤ size
    · cases hi : s.idx with
      | none =>
        rw [(t.1 hf).1 hi] at h
        cases h
        simp [queued, active, buf, hi]
      | some i =>
        rw [(t.1 hf).2 i hi] at h
        cases h
        have e1 : (s.setBuf (!i) (s.buf (!i) ++ w)).idx = some i := by cases i <;> simpa [setBuf] using hi
        simp [queued, active, hi, e1, buf_set_same, buf_set_other']
    · rw [t.2 hf] at h
      cases h
      simp
  | done res =>
    obtain ⟨d1, d2, d3⟩ := done_spec s res size hs
    simp only [step] at h
    cases hi : s.idx with
    | none =>
      rw [d1 hi] at h
      cases h
      simp [active, hi]
    | some i =>
      by_cases hq : queued s = []
      · rw [d2 i hi hq] at h
        cases h
        simp [queued, active, hq] 
        simpa [queued] using hq
      · rw [d3 i hi hq] at h
        cases h
        have e1 : queued s = s.buf (!i) := by simp [queued, hi]
        cases i <;> simp_all [queued, active, setBuf, buf]

theorem run_data (size : Nat) : ∀ (ops : List (Op T)) (s : DoubleBuf T), Inv size s →
    sent (run size s ops).1 ++ queued (run size s ops).2 = queued s ++ accepted (run size s ops).1 ∧
    active (run size s ops).2 = inFlight (active s) (run size s ops).1 := by
  intro ops
  induction ops with
  | nil => intro s _; simp [run, sent, accepted, inFlight]
  | cons o l ih =>
    intro s hs
    obtain ⟨e, s', h⟩ : ∃ e s', step size s o = (e, s') := ⟨_, _, rfl⟩
    obtain ⟨h1, h2⟩ := step_data size s o hs e s' h
    have hinv : Inv size s' := by have := step_inv size s o hs; rwa [h] at this
    obtain ⟨i1, i2⟩ := ih s' hinv
    simp only [run, h, sent, accepted, List.map_cons, List.flatten_cons, inFlight] at i1 i2 ⊢
    refine ⟨?_, by rw [i2, h2]⟩
    rw [List.append_assoc, i1, ← List.append_assoc, h1, List.append_assoc]

/-- **C75**: after any history of calls, with any answers of the transmit function: everything handed to the transmit function, followed by what is
queued, is the accepted words in order. Nothing is sent twice, reordered, or lost. -/
theorem C75_fifo (size : Nat) (ops : List (Op T)) :
    sent (run size {} ops).1 ++ queued (run size {} ops).2 = accepted (run size {} ops).1 ∧
    sent (run size {} ops).1 <+: accepted (run size {} ops).1 := by
  have := (run_data size ops {} (init_inv size)).1
  have h0 : queued ({} : DoubleBuf T) = [] := rfl
  rw [h0, List.nil_append] at this
  exact ⟨this, ⟨_, this⟩⟩

/-- **C75**: in an idle stream a word that fits is handed over at once; otherwise words are queued and the next callback hands over all that is queued;
with nothing queued the stream becomes idle. -/
theorem C75_progress (size : Nat) (ops : List (Op T)) (s : DoubleBuf T) (hs : s = (run size {} ops).2) :
    (s.idx = none → ∀ w res, w.length ≤ size → (step size s (.transmit w res)).1 = ⟨some w, res, some w, res⟩) ∧
    (s.idx ≠ none → ∀ res, (step size s (.done res)).1.handed = (if queued s = [] then none else some (queued s)) ∧
      ((step size s (.done res)).2.idx = none ↔ queued s = [])) := by
  have hinv : Inv size s := by rw [hs]; exact run_inv size ops {} (init_inv size)
  constructor
  · intro hi w res hw
    have t := ((transmit_spec size s w res hinv).1 (by simpa [queued, hi] using hw)).1 hi
    simp only [step, t]
  · intro hi res
    obtain ⟨i, hi⟩ := Option.ne_none_iff_exists'.mp hi
    obtain ⟨d1, d2, d3⟩ := done_spec s res size hinv
    by_cases hq : queued s = []
    · rw [if_pos hq]; simp only [step, d2 i hi hq, hq, true_and]
    · rw [if_neg hq]; simp only [step, d3 i hi hq, hq, true_and]; simp

example := C75_progress 4 [.transmit [1, 2] true, .transmit [3] true, .done true] _ rfl

/-- **C76**: at every moment the buffer being transmitted holds exactly the span last handed to the transmit function (and the stream is idle iff
the last transmission was followed by its callback): no call modifies it before the callback. -/
theorem C76_in_flight (size : Nat) (ops : List (Op T)) : active (run size {} ops).2 = inFlight none (run size {} ops).1 :=
  (run_data size ops {} (init_inv size)).2

/-- **C76**: a word is accepted exactly if it fits in the free space of the queue; otherwise it is rejected as a whole: nothing changes, nothing is handed
over. -/
theorem C76_all_or_nothing (size : Nat) (ops : List (Op T)) (s : DoubleBuf T) (hs : s = (run size {} ops).2) (w : List T) (res : Bool) :
    (w.length + (queued s).length ≤ size →
      (step size s (.transmit w res)).1.handed.getD [] ++ queued (step size s (.transmit w res)).2 = queued s ++ w ∧
      ((step size s (.transmit w res)).1.ret = true ∨ (step size s (.transmit w res)).1.handed = some w)) ∧
    (¬ w.length + (queued s).length ≤ size → (step size s (.transmit w res)) = (⟨some w, false, none, res⟩, s)) := by
  have hinv : Inv size s := by rw [hs]; exact run_inv size ops {} (init_inv size)
  obtain ⟨t1, t2⟩ := transmit_spec size s w res hinv
  constructor
  · intro h
    have d := (step_data size s (.transmit w res) hinv _ _ rfl).1
    have hr : (step size s (.transmit w res)).1.ret = true ∨ (step size s (.transmit w res)).1.handed = some w := by
      cases hi : s.idx with
      | none => right; simp only [step, (t1 h).1 hi]
      | some i => left; simp only [step, (t1 h).2 i hi]
    refine ⟨?_, hr⟩
    refine d.trans ?_
    have : ((step size s (.transmit w res)).1.ret || (step size s (.transmit w res)).1.handed.isSome) = true := by
      rcases hr with hr | hr <;> simp [hr]
    simp only [step] at this ⊢
    rw [if_pos this]; rfl
  · intro h
    simp only [step, t2 h]

example := C76_all_or_nothing 4 [.transmit [1, 2] true, .transmit [3] true] _ rfl [4, 5] true

/-- **C77** (partial): if the transmit function always succeeds, transmit() returns true exactly for the accepted words: then the word is handed over
in that call or waits in the queue, which the next callback hands over (C75_progress). Missing: failing transmit functions. -/
theorem C77_result_partial (size : Nat) (ops : List (Op T)) (s : DoubleBuf T) (hs : s = (run size {} ops).2) (w : List T) :
    ((step size s (.transmit w true)).1.ret = true ↔ w.length + (queued s).length ≤ size) ∧
    ((step size s (.transmit w true)).1.ret = true →
      (step size s (.transmit w true)).1.handed = some w ∨ ∃ q, queued (step size s (.transmit w true)).2 = q ++ w) ∧
    ((step size s (.transmit w true)).1.ret = false → (step size s (.transmit w true)).2 = s) := by
  have hinv : Inv size s := by rw [hs]; exact run_inv size ops {} (init_inv size)
  obtain ⟨t1, t2⟩ := transmit_spec size s w true hinv
  by_cases h : w.length + (queued s).length ≤ size
  · cases hi : s.idx with
    | none => simp only [step, (t1 h).1 hi, h]; simp
    | some i =>
      have e1 : (s.setBuf (!i) (s.buf (!i) ++ w)).idx = some i := by cases i <;> simpa [setBuf] using hi
      simp only [step, (t1 h).2 i hi, h]
      refine ⟨by simp, fun _ => Or.inr ⟨queued s, ?_⟩, by simp⟩
      simp [queued, hi, e1, buf_set_same]
  · simp only [step, t2 h, h]; simp

theorem stuck_run (size : Nat) : ∀ (ops : List (Op T)) (s : DoubleBuf T), Inv size s → s.idx ≠ none → (∀ o ∈ ops, ∃ w res, o = .transmit w res) →
    (run size s ops).2.idx ≠ none ∧ sent (run size s ops).1 = [] := by
  intro ops
  induction ops with
  | nil => intro s _ h _; exact ⟨h, rfl⟩
  | cons o l ih =>
    intro s hs hi ho
    obtain ⟨w, res, rfl⟩ := ho o (by simp)
    obtain ⟨i, hi⟩ := Option.ne_none_iff_exists'.mp hi
    obtain ⟨t1, t2⟩ := transmit_spec size s w res hs
    have hs' := step_inv size s (.transmit w res) hs
    have hstep : (step size s (.transmit w res)).2.idx ≠ none ∧ (step size s (.transmit w res)).1.handed = none := by
      by_cases h : w.length + (queued s).length ≤ size
      · have e1 : (s.setBuf (!i) (s.buf (!i) ++ w)).idx = some i := by cases i <;> simpa [setBuf] using hi
        simp only [step, (t1 h).2 i hi, e1]; simp
      · simp only [step, t2 h, hi]; simp
    obtain ⟨i1, i2⟩ := ih _ hs' hstep.1 (fun o h => ho o (by simp [h]))
    refine ⟨i1, ?_⟩
    simp only [run, sent, List.map_cons, List.flatten_cons, hstep.2, Option.getD_none, List.nil_append]
    exact i2

/-- **C77, violated**: if the transmit function fails in transmit() on an idle stream (and the hardware, having started nothing, never calls back),
transmit() keeps returning true for words that fit the queue, and none of them is ever handed over, whatever is called. -/
theorem C77_failed_start_violated (size : Nat) (w : List T) (hw : w.length ≤ size) (ops : List (Op T)) (hops : ∀ o ∈ ops, ∃ w res, o = .transmit w res) :
    (step size {} (.transmit w false)).1 = ⟨some w, false, some w, false⟩ ∧
    sent (run size (step size {} (.transmit w false)).2 ops).1 = [] ∧
    ∀ w', w'.length ≤ size → (step size (step size {} (.transmit w false)).2 (.transmit w' true)).1 = ⟨some w', true, none, true⟩ := by
  have hinv := init_inv (T := T) size
  have e : step size ({} : DoubleBuf T) (.transmit w false) = (⟨some w, false, some w, false⟩, ⟨w, [], some false⟩) := by
    have := ((transmit_spec size {} w false hinv).1 (by simpa [queued] using hw)).1 rfl
    simp only [step, this]
  have hinv' := step_inv size {} (.transmit w false) hinv
  rw [e] at hinv' ⊢
  refine ⟨rfl, (stuck_run size ops _ hinv' (by simp) hops).2, ?_⟩
  intro w' hw'
  have := ((transmit_spec size ⟨w, [], some false⟩ w' true hinv').1 (by simpa [queued, buf] using hw')).2 false rfl
  simp only [step, this]

/-- Queue behind a running transmission, then two callbacks: everything is sent, in order. -/
example : (run 4 {} [.transmit [1, 2] true, .transmit [3] true, .transmit [4, 5, 6] true, .transmit [7, 8, 9, 10] true, .done true, .transmit [11] true,
      .done true, .done true]).1.map (fun e => (e.ret, e.handed)) =
    [(true, some [1, 2]), (true, none), (true, none), (false, none), (true, some [3, 4, 5, 6]), (true, none), (true, some [11]), (true, none)] := by
  decide

/-- The failure, concretely: word [2] is reported as accepted, and is not sent. -/
example : ((run 4 {} [.transmit [1] false, .transmit [2] true, .transmit [3] true]).1.map (fun e => (e.ret, e.handed))) =
    [(false, some [1]), (true, none), (true, none)] := by decide

end DoubleBuf
