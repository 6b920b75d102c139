import Verif.Spec.EdgeIsr
/-! # Property C214: an edge detector updated by an interrupt -/

namespace EdgeIsr
open Spec

/-- The latest two states after some updates. -/
theorem intrs_cons (e : EdgeState) (b : Bool) (bs : List Bool) : intrs e ((b :: bs).map .update) = intrs ⟨b, e.state⟩ (bs.map .update) := rfl

/-- If the state was `x` and is `y ≠ x` after some updates, one of them changed it. -/
theorem crossing (bs : List Bool) : ∀ (e : EdgeState) (y : Bool), (intrs e (bs.map .update)).state = y → e.state ≠ y → ∃ m ∈ moments e.last e.state bs, m = (!y, y) := by
  induction bs with
  | nil => intro e y h hne; exact absurd h hne
  | cons b bs ih =>
    intro e y h hne
    rw [intrs_cons] at h
    by_cases hb : b = y
    · refine ⟨(e.state, b), ?_, ?_⟩
      · unfold moments
        cases bs <;> simp [moments]
      · rw [hb]
        cases hy : y <;> cases hs : e.state <;> simp_all
    · obtain ⟨m, hm, he⟩ := ih ⟨b, e.state⟩ y h hb
      exact ⟨m, by unfold moments; exact List.mem_cons_of_mem _ hm, he⟩

theorem first_mem (p c : Bool) (bs : List Bool) : (p, c) ∈ moments p c bs := by cases bs <;> simp [moments]

theorem last_mem (bs : List Bool) : ∀ (e : EdgeState), ((intrs e (bs.map .update)).last, (intrs e (bs.map .update)).state) ∈ moments e.last e.state bs := by
  induction bs with
  | nil => intro e; simp [intrs, moments]
  | cons b bs ih =>
    intro e
    rw [intrs_cons]
    unfold moments
    exact List.mem_cons_of_mem _ (ih ⟨b, e.state⟩)

/-- **C214**: without an interrupt in between every query answers what it asks. -/
theorem C214_quiet (q : Query) (e : EdgeState) : call q e [] = truth q e.last e.state := by
  obtain ⟨s, l⟩ := e
  rcases q with (_ | _) | _ | _ | _ | _ <;> cases s <;> cases l <;> rfl

/-- **C214**: `went_high()` and `went_low()`: whatever updates come during the call, the answer is the right one for some moment of the call. -/
theorem C214_edges (q : Query) (hq : q = .wentHigh ∨ q = .wentLow) (e : EdgeState) (bs : List Bool) :
    ∃ m ∈ moments e.last e.state bs, truth q m.1 m.2 = call q e (bs.map .update) := by
  have hf := first_mem e.last e.state bs
  have hl := last_mem bs e
  obtain ⟨f, hfe⟩ : ∃ f, intrs e (bs.map .update) = f := ⟨_, rfl⟩
  rw [hfe] at hl
  rcases hq with rfl | rfl
  · unfold call
    simp only [hfe]
    cases hel : e.last
    · rw [hel] at hl
      cases hfs : f.state
      · rw [hfs] at hl; exact ⟨_, hl, by simp [truth]⟩
      · cases hes : e.state
        · obtain ⟨m, hm, he⟩ := crossing bs e true (by rw [hfe]; exact hfs) (by simp [hes])
          rw [hel, hes] at hm
          exact ⟨m, hm, by rw [he]; rfl⟩
        · rw [hel, hes] at hf
          exact ⟨_, hf, rfl⟩
    · rw [hel] at hf
      exact ⟨_, hf, by simp [truth]⟩
  · unfold call
    simp only [hfe]
    cases hel : e.last
    · rw [hel] at hf
      exact ⟨_, hf, by simp [truth]⟩
    · rw [hel] at hl
      cases hfs : f.state
      · cases hes : e.state
        · rw [hel, hes] at hf
          exact ⟨_, hf, rfl⟩
        · obtain ⟨m, hm, he⟩ := crossing bs e false (by rw [hfe]; exact hfs) (by simp [hes])
          rw [hel, hes] at hm
          exact ⟨m, hm, by rw [he]; rfl⟩
      · rw [hfs] at hl; exact ⟨_, hl, by simp [truth]⟩

/-- two updates during went_high(): the pulse is seen although it is over when the call returns -/
example : call .wentHigh ⟨false, false⟩ ([true, true].map .update) = true ∧ moments false false [true, true] = [(false, false), (false, true), (true, true)] := by decide

/-- **C214** (partial): "yes" from `changed()` and "no" from `staying_high()` and `staying_low()` are right for some moment of the call. Missing: the other answers, below. -/
theorem C214_others_partial (q : Query) (e : EdgeState) (bs : List Bool) (r : Bool) (hr : r = call q e (bs.map .update))
    (h : (∃ sf, q = .changed sf ∧ r = true) ∨ ((q = .stayingHigh ∨ q = .stayingLow) ∧ r = false)) :
    ∃ m ∈ moments e.last e.state bs, truth q m.1 m.2 = r := by
  have hf := first_mem e.last e.state bs
  have hl := last_mem bs e
  obtain ⟨f, hfe⟩ : ∃ f, intrs e (bs.map .update) = f := ⟨_, rfl⟩
  rw [hfe] at hl
  rcases h with ⟨sf, rfl, rfl⟩ | ⟨rfl | rfl, rfl⟩
  · by_cases hfirst : e.last = e.state
    · by_cases hlast : f.last = f.state
      · cases sf
        · have h2 : e.state ≠ f.state := by
            rw [← hfirst]
            unfold call at hr
            simpa [hfe] using hr
          obtain ⟨m, hm, he⟩ := crossing bs e f.state (by rw [hfe]) h2
          exact ⟨m, hm, by rw [he]; cases f.state <;> rfl⟩
        · have h2 : e.state ≠ f.state := by
            rw [← hlast]
            unfold call at hr
            have : f.last ≠ e.state := by simpa [hfe] using hr
            exact fun h => this h.symm
          obtain ⟨m, hm, he⟩ := crossing bs e f.state (by rw [hfe]) h2
          exact ⟨m, hm, by rw [he]; cases f.state <;> rfl⟩
      · exact ⟨_, hl, by simp [truth, hlast]⟩
    · exact ⟨_, hf, by simp [truth, hfirst]⟩
  · unfold call at hr
    simp only [hfe] at hr
    cases hel : e.last
    · rw [hel] at hf; exact ⟨_, hf, by simp [truth]⟩
    · rw [hel] at hr
      rw [hel] at hl
      have : f.state = false := by simpa using hr.symm
      exact ⟨_, hl, by simp [truth, this]⟩
  · unfold call at hr
    simp only [hfe] at hr
    cases hel : e.last
    · rw [hel] at hr
      rw [hel] at hl
      have : f.state = true := by simpa using hr
      exact ⟨_, hl, by simp [truth, this]⟩
    · rw [hel] at hf; exact ⟨_, hf, by simp [truth]⟩

example := C214_others_partial (.changed true) ⟨false, false⟩ [true, true, false] true (by decide) (.inl ⟨true, rfl, rfl⟩)

/-- **C214**, exactly when "no" from `changed()` is wrong at every moment of the call: if the state changed before the call and with each update during it, and the number of these is odd; for both orders of the loads. -/
theorem C214_changed_exact (sf : Bool) (e : EdgeState) (bs : List Bool) :
    (call (.changed sf) e (bs.map .update) = false ∧ ∀ m ∈ moments e.last e.state bs, truth (.changed sf) m.1 m.2 = true) ↔
    (bs.length % 2 = 1 ∧ ∀ m ∈ moments e.last e.state bs, m.1 ≠ m.2) := by
  have alt : ∀ (bs : List Bool) (e : EdgeState), (∀ m ∈ moments e.last e.state bs, m.1 ≠ m.2) →
      (intrs e (bs.map .update)).state = (if bs.length % 2 = 0 then e.state else e.last) ∧ (intrs e (bs.map .update)).last = (if bs.length % 2 = 0 then e.last else e.state) := by
    intro bs
    induction bs with
    | nil => intro e _; exact ⟨rfl, rfl⟩
    | cons b bs ih =>
      intro e h
      have h0 : e.last ≠ e.state := h _ (first_mem e.last e.state (b :: bs))
      have h1 : ∀ m ∈ moments e.state b bs, m.1 ≠ m.2 := fun m hm => h m (by unfold moments; exact List.mem_cons_of_mem _ hm)
      have h2 : e.state ≠ b := h1 _ (first_mem e.state b bs)
      have hb : b = e.last := by cases b <;> cases hs : e.state <;> cases hl : e.last <;> simp_all
      obtain ⟨g1, g2⟩ := ih ⟨b, e.state⟩ h1
      rw [intrs_cons, g1, g2, List.length_cons, hb]
      simp only
      rcases Nat.mod_two_eq_zero_or_one bs.length with hz | hz
      · have : (bs.length + 1) % 2 = 1 := by omega
        rw [hz, this]
        exact ⟨rfl, rfl⟩
      · have : (bs.length + 1) % 2 = 0 := by omega
        rw [hz, this]
        exact ⟨rfl, rfl⟩
  have ht : (∀ m ∈ moments e.last e.state bs, truth (.changed sf) m.1 m.2 = true) ↔ ∀ m ∈ moments e.last e.state bs, m.1 ≠ m.2 := by
    constructor <;> intro h m hm <;> have := h m hm <;> simpa [truth] using this
  rw [ht]
  constructor
  · rintro ⟨hc, hm⟩
    refine ⟨?_, hm⟩
    obtain ⟨g1, g2⟩ := alt bs e hm
    have h0 : e.last ≠ e.state := hm _ (first_mem e.last e.state bs)
    rcases Nat.mod_two_eq_zero_or_one bs.length with hz | hz
    · exfalso
      rw [hz] at g1 g2
      cases sf
      · unfold call at hc
        simp only [g1, if_true] at hc
        exact h0 (by simpa using hc)
      · unfold call at hc
        simp only [g2, if_true] at hc
        exact h0 (by simpa using hc)
    · exact hz
  · rintro ⟨hz, hm⟩
    refine ⟨?_, hm⟩
    obtain ⟨g1, g2⟩ := alt bs e hm
    rw [hz] at g1 g2
    cases sf
    · unfold call; simp [g1]
    · unfold call; simp [g2]

/-- **C214, violated** by `changed()`: the input toggles at every update; one update during the call, and the answer is "no change", for both orders of the loads. -/
theorem C214_changed_violated : ∀ sf, call (.changed sf) ⟨true, false⟩ [.update false] = false ∧ ∀ m ∈ moments false true [false], truth (.changed sf) m.1 m.2 = true := by decide

/-- **C214, violated** by `staying_high()` and `staying_low()`: the input toggles at every update; one update during the call, and the answer is that it stays. -/
theorem C214_staying_violated :
    (call .stayingHigh ⟨false, true⟩ [.update true] = true ∧ ∀ m ∈ moments true false [true], truth .stayingHigh m.1 m.2 = false) ∧
    (call .stayingLow ⟨true, false⟩ [.update false] = true ∧ ∀ m ∈ moments false true [false], truth .stayingLow m.1 m.2 = false) := by decide

/-- **C214**, exactly when "yes" from `staying_high()` is wrong at every moment: the input was high just before its latest state at the start, is high at the end, and never was high twice in a row; likewise for `staying_low()`. -/
theorem C214_staying_exact (e : EdgeState) (bs : List Bool) :
    ((call .stayingHigh e (bs.map .update) = true ∧ ∀ m ∈ moments e.last e.state bs, truth .stayingHigh m.1 m.2 = false) ↔
      (e.last = true ∧ (bs.getLast?.getD e.state) = true ∧ (true, true) ∉ moments e.last e.state bs)) ∧
    ((call .stayingLow e (bs.map .update) = true ∧ ∀ m ∈ moments e.last e.state bs, truth .stayingLow m.1 m.2 = false) ↔
      (e.last = false ∧ (bs.getLast?.getD e.state) = false ∧ (false, false) ∉ moments e.last e.state bs)) := by
  have fin : ∀ (bs : List Bool) (e : EdgeState), (intrs e (bs.map .update)).state = bs.getLast?.getD e.state := by
    intro bs
    induction bs with
    | nil => intro e; rfl
    | cons b bs ih =>
      intro e
      rw [intrs_cons, ih ⟨b, e.state⟩]
      cases bs <;> simp [List.getLast?_cons]
  have h1 : (∀ m ∈ moments e.last e.state bs, truth .stayingHigh m.1 m.2 = false) ↔ (true, true) ∉ moments e.last e.state bs := by
    constructor
    · intro h hm; have := h _ hm; simp [truth] at this
    · rintro h ⟨a, b⟩ hm
      cases a <;> cases b <;> first | rfl | exact absurd hm h
  have h2 : (∀ m ∈ moments e.last e.state bs, truth .stayingLow m.1 m.2 = false) ↔ (false, false) ∉ moments e.last e.state bs := by
    constructor
    · intro h hm; have := h _ hm; simp [truth] at this
    · rintro h ⟨a, b⟩ hm
      cases a <;> cases b <;> first | rfl | exact absurd hm h
  rw [h1, h2, ← fin bs e]
  clear h1 h2 fin
  unfold call
  cases e.last <;> simp

/-- **C214, violated** by `reset()` in an interrupt: `went_low()` answers "yes" although the input has been high all the time. -/
theorem C214_reset_violated : call .wentLow ⟨true, true⟩ [.reset] = true := by decide

end EdgeIsr
