import Verif.Model.DoubleBufIsr
import Verif.Props.DoubleBuf
/-! # Property C190: DoubleBufferStream with its callback in an interrupt -/
namespace DoubleBufIsr
variable {T : Type}

/-- The moments at which the interrupt is harmless: `transmit()` has not chosen its buffer yet, or has pushed the whole word, or the buffer it has chosen is still empty. -/
def Harmless (st : St T) : Prop :=
  match st.pc with
  | .chosen i _ => st.s.buf i = []
  | .pushing i rest => rest = [] ∨ st.s.buf i = []
  | _ => True

/-- A schedule in which every interrupt comes at a harmless moment. -/
def HarmlessRun (size : Nat) (st : St T) : List (Act T) → Prop
  | [] => True
  | a :: l => (∀ res, a = .isr res → Harmless st) ∧ HarmlessRun size (step size st a) l

/-- What was taken and is neither pushed nor handed over. -/
def rest (st : St T) : List T := match st.pc with | .pushing _ r => r | _ => []

/-- What is in the buffers and not handed over. -/
def waiting (st : St T) : List T :=
  match st.pc with
  | .starting i => st.s.buf i
  | .handing i => st.s.buf i
  | .pushing i _ => if st.s.idx = none then st.s.buf i else DoubleBuf.queued st.s
  | _ => DoubleBuf.queued st.s

/-- What holds at each point of `transmit()`. -/
def AtPc (size : Nat) (st : St T) : Prop :=
  match st.pc with
  | .idle => st.s.idx = none → st.s.b0 = [] ∧ st.s.b1 = []
  | .chosen i _ => (st.s.idx = none → st.s.b0 = [] ∧ st.s.b1 = []) ∧ st.s.idx ≠ some i
  | .pushing i r => (st.s.idx = none → st.s.buf (!i) = []) ∧ (st.s.idx = some i → r = []) ∧ (st.s.idx ≠ some i → (st.s.buf i).length + r.length ≤ size)
  | .starting i => st.s.idx = none ∧ st.s.buf (!i) = []
  | .handing i => st.s.idx = some i ∧ st.s.buf (!i) = [] ∧ st.flight = none

structure Inv (size : Nat) (st : St T) : Prop where
  room0 : st.s.b0.length ≤ size
  room1 : st.s.b1.length ≤ size
  flight : ∀ sp, st.flight = some sp → ∃ i, st.s.idx = some i ∧ st.s.buf i = sp
  at_ : AtPc size st
  data : st.sent ++ (waiting st ++ rest st) = st.acc

theorem begin_inv {size : Nat} {st : St T} (h : Inv size st) (hpc : st.pc = .idle) (w : List T) : Inv size (begin_ st w) := by
  obtain ⟨⟨b0, b1, idx⟩, pc, flight, sent, acc⟩ := st
  obtain ⟨h1, h2, h3, h4, h5⟩ := h
  simp only at hpc
  subst hpc
  refine ⟨h1, h2, h3, ⟨h4, ?_⟩, h5⟩
  rcases idx with _ | _ | _ <;> simp [begin_]

theorem thread_inv {size : Nat} {st : St T} (h : Inv size st) (res : Bool) : Inv size (thread size st res) := by
  obtain ⟨⟨b0, b1, idx⟩, pc, flight, sent, acc⟩ := st
  obtain ⟨h1, h2, h3, h4, h5⟩ := h
  simp only at h1 h2
  cases pc with
  | idle => exact ⟨h1, h2, h3, h4, h5⟩
  | chosen i w =>
    simp only [AtPc] at h4
    obtain ⟨h4, h6⟩ := h4
    simp only [thread]
    by_cases hw : size - (DoubleBuf.buf ⟨b0, b1, idx⟩ i).length ≥ w.length
    · rw [if_pos hw]
      have hb : (DoubleBuf.buf ⟨b0, b1, idx⟩ i).length ≤ size := by cases i <;> simpa [DoubleBuf.buf]
      refine ⟨h1, h2, h3, ⟨?_, fun h => absurd h h6, fun _ => ?_⟩, ?_⟩
      · intro hi
        obtain ⟨e0, e1⟩ := h4 hi
        cases i <;> simp [DoubleBuf.buf, e0, e1]
      · show (DoubleBuf.buf ⟨b0, b1, idx⟩ i).length + w.length ≤ size
        omega
      · simp only [waiting, rest, List.append_nil, DoubleBuf.queued] at h5 ⊢
        rw [← h5]
        rcases idx with _ | j
        · obtain ⟨e0, e1⟩ := h4 rfl
          subst e0 e1
          cases i <;> simp [DoubleBuf.buf]
        · simp
    · rw [if_neg hw]
      exact ⟨h1, h2, h3, h4, h5⟩
  | pushing i r =>
    simp only [AtPc] at h4
    obtain ⟨h4, h6, h7⟩ := h4
    cases r with
    | nil =>
      simp only [thread]
      rcases idx with _ | j
      · refine ⟨h1, h2, h3, ⟨rfl, h4 rfl⟩, ?_⟩
        simpa [waiting, rest] using h5
      · refine ⟨h1, h2, h3, ?_, ?_⟩
        · intro h; cases h
        · simpa [waiting, rest] using h5
    | cons x r =>
      have hne : idx ≠ some i := fun h => by have := h6 h; cases this
      have hlen := h7 hne
      simp only [List.length_cons] at hlen
      simp only [thread, DoubleBuf.pushBack, if_pos (show (DoubleBuf.buf ⟨b0, b1, idx⟩ i).length < size by omega)]
      have hidx : idx = none ∨ idx = some (!i) := by
        rcases idx with _ | j
        · exact Or.inl rfl
        · right; cases i <;> cases j <;> simp_all
      refine ⟨?_, ?_, ?_, ⟨?_, ?_, ?_⟩, ?_⟩
      · cases i <;> simp_all [DoubleBuf.setBuf, DoubleBuf.buf]; omega
      · cases i <;> simp_all [DoubleBuf.setBuf, DoubleBuf.buf]; omega
      · intro sp hsp
        obtain ⟨j, g1, g2⟩ := h3 sp hsp
        simp only at g1
        have : j = !i := by rcases hidx with h | h <;> rw [h] at g1 <;> cases g1; rfl
        subst this
        refine ⟨!i, by cases i <;> exact g1, ?_⟩
        rw [← g2]; cases i <;> rfl
      · intro h
        have : idx = none := by cases i <;> exact h
        rw [← h4 this]
        cases i <;> rfl
      · intro h
        exact absurd (show idx = some i by cases i <;> exact h) hne
      · intro _
        show (DoubleBuf.buf (DoubleBuf.setBuf _ i _) i).length + r.length ≤ size
        rw [DoubleBuf.buf_set_same, List.length_append, List.length_singleton]; omega
      · rw [← h5]
        rcases hidx with h | h
        · subst h
          cases i <;> simp [waiting, rest, DoubleBuf.setBuf, DoubleBuf.buf]
        · subst h
          cases i <;> simp [waiting, rest, DoubleBuf.setBuf, DoubleBuf.buf, DoubleBuf.queued]
  | starting i =>
    simp only [AtPc] at h4
    obtain ⟨h4, h6⟩ := h4
    subst h4
    have hf : flight = none := by
      cases flight with
      | none => rfl
      | some sp => obtain ⟨j, g, _⟩ := h3 sp rfl; cases g
    subst hf
    refine ⟨h1, h2, ?_, ⟨rfl, ?_, rfl⟩, ?_⟩
    · intro sp h; cases h
    · rw [← h6]; cases i <;> rfl
    · refine Eq.trans ?_ h5; cases i <;> rfl
  | handing i =>
    simp only [AtPc] at h4
    obtain ⟨h4, h6, h7⟩ := h4
    subst h4
    simp only [thread]
    refine ⟨h1, h2, ?_, ?_, ?_⟩
    · intro sp h
      simp only at h
      split at h
      · cases h; exact ⟨i, rfl, rfl⟩
      · cases h
    · intro h; cases h
    · rw [← h5]
      simp [waiting, rest, DoubleBuf.queued, h6]

theorem isr_inv {size : Nat} {st : St T} (h : Inv size st) (hs : Harmless st) (res : Bool) : Inv size (isr st res) := by
  obtain ⟨⟨b0, b1, idx⟩, pc, flight, sent, acc⟩ := st
  obtain ⟨h1, h2, h3, h4, h5⟩ := h
  simp only at h1 h2
  cases flight with
  | none => exact ⟨h1, h2, h3, h4, h5⟩
  | some sp =>
    obtain ⟨j, g1, g2⟩ := h3 sp rfl
    simp only at g1
    subst g1
    have key : ∀ q, q = DoubleBuf.buf ⟨b0, b1, some j⟩ (!j) →
        (q = [] → DoubleBuf.done ⟨b0, b1, some j⟩ res = (⟨[], [], none⟩, none)) ∧
        (q ≠ [] → DoubleBuf.done ⟨b0, b1, some j⟩ res = ({ DoubleBuf.setBuf ⟨b0, b1, some j⟩ j [] with idx := some (!j) }, some q)) := by
      intro q hq
      cases j <;> simp only [DoubleBuf.buf, Bool.not_false, Bool.not_true] at hq <;> subst hq <;>
        simp [DoubleBuf.done, DoubleBuf.setBuf, DoubleBuf.buf, DoubleBuf.startTx] <;> intro h <;> simp [h]
    obtain ⟨q, hq⟩ : ∃ q, q = DoubleBuf.buf ⟨b0, b1, some j⟩ (!j) := ⟨_, rfl⟩
    obtain ⟨k1, k2⟩ := key q hq
    by_cases hq0 : q = []
    · have e := k1 hq0
      simp only [isr, e, Option.getD_none, List.append_nil]
      refine ⟨by simp, by simp, by intro sp h; simp at h, ?_, ?_⟩
      · cases pc with
        | idle => intro _; exact ⟨rfl, rfl⟩
        | chosen i w => exact ⟨fun _ => ⟨rfl, rfl⟩, by simp⟩
        | pushing i r =>
          simp only [AtPc] at h4 ⊢
          refine ⟨fun _ => by cases i <;> rfl, fun h => by (cases h), fun _ => ?_⟩
          have hb : DoubleBuf.buf (⟨[], [], none⟩ : DoubleBuf T) i = [] := by cases i <;> rfl
          rw [hb]
          by_cases hji : j = i
          · subst hji; rw [h4.2.1 rfl]; simp
          · have := h4.2.2 (by simpa using hji)
            simp only [List.length_nil]; omega
        | starting i => simp [AtPc] at h4
        | handing i => simp [AtPc] at h4
      · rw [← h5]
        cases pc with
        | idle => simp [waiting, rest, DoubleBuf.queued, ← hq, hq0]
        | chosen i w => simp [waiting, rest, DoubleBuf.queued, ← hq, hq0]
        | pushing i r =>
          have hb : DoubleBuf.buf (⟨[], [], none⟩ : DoubleBuf T) i = [] := by cases i <;> rfl
          simp [waiting, rest, DoubleBuf.queued, ← hq, hq0, hb]
        | starting i => simp [AtPc] at h4
        | handing i => simp [AtPc] at h4
    · have e := k2 hq0
      simp only [isr, e, Option.getD_some]
      have hb : ∀ x, DoubleBuf.buf ({ DoubleBuf.setBuf ⟨b0, b1, some j⟩ j [] with idx := x } : DoubleBuf T) (!j) = q := by
        intro x; rw [hq]; cases j <;> rfl
      have hb' : ∀ x, DoubleBuf.buf ({ DoubleBuf.setBuf ⟨b0, b1, some j⟩ j [] with idx := x } : DoubleBuf T) j = [] := by
        intro x; cases j <;> rfl
      refine ⟨?_, ?_, ?_, ?_, ?_⟩
      · cases j <;> simp [DoubleBuf.setBuf, h1]
      · cases j <;> simp [DoubleBuf.setBuf, h2]
      · intro sp' h
        simp only at h
        split at h
        · cases h; exact ⟨!j, rfl, hb _⟩
        · cases h
      · cases pc with
        | idle => intro h; cases h
        | chosen i w =>
          exfalso
          simp only [AtPc, Harmless] at h4 hs
          have : i = !j := by cases i <;> cases j <;> simp_all
          subst this
          rw [hq] at hq0; exact hq0 hs
        | pushing i r =>
          simp only [AtPc, Harmless] at h4 hs
          refine ⟨fun h => by (cases h), ?_, ?_⟩
          · intro h
            have hij : i = !j := by simpa using h.symm
            subst hij
            rcases hs with hs | hs
            · exact hs
            · rw [hq] at hq0; exact absurd hs hq0
          · intro h
            have hij : i = j := by cases i <;> cases j <;> simp_all
            subst hij
            rw [hb', h4.2.1 rfl]; simp
        | starting i => simp [AtPc] at h4
        | handing i => simp [AtPc] at h4
      · rw [← h5]
        cases pc with
        | idle => simp [waiting, rest, DoubleBuf.queued, ← hq, hb']
        | chosen i w => simp [waiting, rest, DoubleBuf.queued, ← hq, hb']
        | pushing i r => simp [waiting, rest, DoubleBuf.queued, ← hq, hb']
        | starting i => simp [AtPc] at h4
        | handing i => simp [AtPc] at h4

theorem run_inv (size : Nat) : ∀ (acts : List (Act T)) (st : St T), Inv size st → HarmlessRun size st acts → Inv size (run size st acts) := by
  intro acts
  induction acts with
  | nil => intro st h _; exact h
  | cons a acts ih =>
    intro st h hr
    rw [run]
    refine ih _ ?_ hr.2
    cases a with
    | begin_ w =>
      simp only [step]
      split
      · exact begin_inv h ‹_› w
      · exact h
    | thread res => exact thread_inv h res
    | isr res => exact isr_inv h (hr.1 res rfl) res

theorem init_inv (size : Nat) : Inv size ({} : St T) := ⟨by simp, by simp, by (intro sp h; cases h), fun _ => ⟨rfl, rfl⟩, rfl⟩

/-- **C190** (partial): under every schedule in which the interrupt comes only at harmless moments: what was handed to the transmit function is a prefix of the accepted words in order (all of them but what is in the queue, when no call is in
progress), and the buffer in transmission holds exactly the span that was handed over. Missing: the other moments, below. -/
theorem C190_harmless_partial (size : Nat) (acts : List (Act T)) (h : HarmlessRun size {} acts) :
    (run size {} acts).sent <+: (run size {} acts).acc ∧
    ((run size {} acts).pc = .idle → (run size {} acts).sent ++ DoubleBuf.queued (run size {} acts).s = (run size {} acts).acc) ∧
    (∀ sp, (run size {} acts).flight = some sp → DoubleBuf.active (run size {} acts).s = some sp) := by
  have hi := run_inv size acts {} (init_inv size) h
  refine ⟨⟨_, hi.data⟩, ?_, ?_⟩
  · intro hpc
    have := hi.data
    simpa [waiting, rest, hpc] using this
  · intro sp hsp
    obtain ⟨i, g1, g2⟩ := hi.flight sp hsp
    rw [DoubleBuf.active, g1, ← g2]; rfl

theorem pushes (size : Nat) (i : Bool) : ∀ (r : List T) (st : St T), st.pc = .pushing i r → (st.s.buf i).length + r.length ≤ size →
    run size st (List.replicate r.length (.thread true)) = { st with s := st.s.setBuf i (st.s.buf i ++ r), pc := .pushing i [] } := by
  intro r
  induction r with
  | nil =>
    intro st h _
    obtain ⟨⟨b0, b1, idx⟩, pc, flight, sent, acc⟩ := st
    simp only at h
    subst h
    cases i <;> simp [run, DoubleBuf.setBuf, DoubleBuf.buf]
  | cons x r ih =>
    intro st h hl
    simp only [List.length_cons] at hl
    rw [List.length_cons, List.replicate_succ, run]
    have e : step size st (.thread true) = { st with s := st.s.setBuf i (st.s.buf i ++ [x]), pc := .pushing i r } := by
      simp only [step, thread, h, DoubleBuf.pushBack, if_pos (show (st.s.buf i).length < size by omega)]
    rw [e, ih _ rfl (by simp only [DoubleBuf.buf_set_same, List.length_append, List.length_singleton]; omega)]
    simp only [DoubleBuf.buf_set_same, List.append_assoc, List.singleton_append]
    congr 1
    cases i <;> simp [DoubleBuf.setBuf]

/-- **C190** (violated at every other moment): if the interrupt comes while `transmit()` still has elements `r` to push and its buffer is not empty, that buffer goes into transmission; the elements are then pushed into the buffer in transmission,
`transmit()` returns, and the next interrupt clears them: they were accepted, and are neither sent nor in any buffer. -/
theorem C190_other_moments_violated (size : Nat) (st : St T) (i : Bool) (r : List T) (hpc : st.pc = .pushing i r) (hidx : st.s.idx = some (!i)) (hf : st.flight.isSome) (hr : r ≠ [])
    (hb : st.s.buf i ≠ []) (hl : (st.s.buf i).length + r.length ≤ size) :
    ¬ Harmless st ∧
    (run size st (.isr true :: List.replicate r.length (.thread true))).flight = some (st.s.buf i) ∧
    DoubleBuf.active (run size st (.isr true :: List.replicate r.length (.thread true))).s = some (st.s.buf i ++ r) ∧
    run size st (.isr true :: List.replicate r.length (.thread true) ++ [.thread true, .isr true]) =
      ⟨⟨[], [], none⟩, .idle, none, st.sent ++ st.s.buf i, st.acc⟩ := by
  obtain ⟨⟨b0, b1, idx⟩, pc, flight, sent, acc⟩ := st
  simp only at hpc hidx hf
  subst hpc hidx
  obtain ⟨sp, rfl⟩ := Option.isSome_iff_exists.mp hf
  obtain ⟨q, hq⟩ : ∃ q, q = DoubleBuf.buf ⟨b0, b1, some (!i)⟩ i := ⟨_, rfl⟩
  rw [← hq] at hb hl
  have hi : step size ⟨⟨b0, b1, some (!i)⟩, .pushing i r, some sp, sent, acc⟩ (.isr true) =
      ⟨{ DoubleBuf.setBuf ⟨[], [], some i⟩ i q with idx := some i }, .pushing i r, some q, sent ++ q, acc⟩ := by
    cases i <;> simp only [DoubleBuf.buf, Bool.not_false, Bool.not_true] at hq <;> subst hq <;>
      simp [step, isr, DoubleBuf.done, DoubleBuf.setBuf, DoubleBuf.buf, DoubleBuf.startTx, hb]
  have hp := pushes size i r ⟨{ DoubleBuf.setBuf ⟨[], [], some i⟩ i q with idx := some i }, .pushing i r, some q, sent ++ q, acc⟩ rfl (by
    have : DoubleBuf.buf ({ DoubleBuf.setBuf ⟨[], [], some i⟩ i q with idx := some i } : DoubleBuf T) i = q := by cases i <;> rfl
    rw [this]; exact hl)
  have hqb : DoubleBuf.buf ({ DoubleBuf.setBuf ⟨[], [], some i⟩ i q with idx := some i } : DoubleBuf T) i = q := by cases i <;> rfl
  simp only [hqb] at hp
  have run_append : ∀ (l l' : List (Act T)) (st : St T), run size st (l ++ l') = run size (run size st l) l' := by
    intro l
    induction l with
    | nil => intro l' st; rfl
    | cons a l ih => intro l' st; exact ih l' _
  refine ⟨?_, ?_, ?_, ?_⟩
  · rintro (h | h)
    · exact hr h
    · rw [← hq] at h; exact hb h
  · rw [run, hi, hp, ← hq]
  · rw [run, hi, hp, ← hq]
    simp only [DoubleBuf.active]
    cases i <;> simp [DoubleBuf.setBuf, DoubleBuf.buf]
  · rw [run_append]
    rw [show run size _ (.isr true :: _) = run size (step size ⟨⟨b0, b1, some (!i)⟩, .pushing i r, some sp, sent, acc⟩ (.isr true)) (List.replicate r.length (.thread true)) from rfl, hi, hp, ← hq]
    cases i <;> simp [run, step, thread, isr, DoubleBuf.setBuf, DoubleBuf.buf, DoubleBuf.done]

/-- Schedules that meet the hypotheses: the interrupt comes after the buffer was chosen but is still empty, and after the whole word was pushed. -/
example : HarmlessRun 4 {} [.begin_ [1], .thread true, .thread true, .thread true, .thread true, .thread true, .begin_ [2, 3], .isr true, .thread true, .thread true, .thread true, .thread true, .thread true, .thread true,
    .begin_ [4], .thread true, .thread true, .isr true, .thread true] := by
  simp [HarmlessRun, Harmless, step, begin_, thread, isr, DoubleBuf.done, DoubleBuf.buf, DoubleBuf.setBuf, DoubleBuf.pushBack, DoubleBuf.startTx]
example : run 4 {} [.begin_ [1], .thread true, .thread true, .thread true, .thread true, .thread true, .begin_ [2, 3], .isr true, .thread true, .thread true, .thread true, .thread true, .thread true, .thread true,
    .begin_ [4], .thread true, .thread true, .isr true, .thread true] = ⟨⟨[4], [], some false⟩, .idle, some [4], [1, 2, 3, 4], [1, 2, 3, 4]⟩ := by decide
/-- A reachable state for the violation: [1] is in transmission, 2 is pushed and 3 is not. -/
example : (run 4 {} [.begin_ [1], .thread true, .thread true, .thread true, .thread true, .thread true, .begin_ [2, 3], .thread true, .thread true] : St Nat) =
    ⟨⟨[1], [2], some false⟩, .pushing true [3], some [1], [1], [1, 2, 3]⟩ := by decide

end DoubleBufIsr
