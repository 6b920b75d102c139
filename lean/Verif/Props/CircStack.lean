import Verif.Spec.Stack
/-! # Property C18 and C120: CircularStack -/
namespace CircStack
variable {T : Type}

structure Rel (M : Nat) (s : St T) (q : List T) : Prop where
  len : s.data.length = M
  bot : s.bottom < M
  top : s.top = (s.bottom + q.length) % M
  qlen : q.length ≤ M
  full : s.full = decide (q.length = M)
  el : ∀ i : Nat, i < q.length → s.data[(s.bottom + i) % M]? = q[i]?

theorem Rel.size {M : Nat} {s : St T} {q : List T} (h : Rel M s q) : size M s = q.length := by
  have hq := h.qlen; have ht := h.bot; have hh := h.top
  unfold CircStack.size
  rw [h.full]
  by_cases hc : q.length = M
  · simp [hc]
  · simp only [hc, decide_false, Bool.false_eq_true, if_false]
    by_cases hw : s.bottom + q.length < M
    · rw [Nat.mod_eq_of_lt hw] at hh
      rw [if_pos (by omega)]; omega
    · rw [Nat.mod_eq_sub_mod (by omega), Nat.mod_eq_of_lt (by omega)] at hh
      rw [if_neg (by omega)]; omega

theorem Rel.empty {M : Nat} {s : St T} {q : List T} (h : Rel M s q) : empty s = decide (q.length = 0) := by
  have hq := h.qlen; have ht := h.bot; have hh := h.top
  unfold CircStack.empty
  rw [h.full]
  by_cases hc : q.length = M
  · simp [hc]; omega
  · simp only [hc, decide_false, Bool.false_eq_true, if_false]
    by_cases hw : s.bottom + q.length < M
    · rw [Nat.mod_eq_of_lt hw] at hh
      split <;> (symm; first | exact decide_eq_true (by omega) | exact decide_eq_false (by omega))
    · rw [Nat.mod_eq_sub_mod (by omega), Nat.mod_eq_of_lt (by omega)] at hh
      split <;> (symm; first | exact decide_eq_true (by omega) | exact decide_eq_false (by omega))

theorem Rel.push {M : Nat} {s : St T} {q : List T} (dflt : T) (h : Rel M s q) (x : T) :
    ∃ s', pushBack M s x = .ok s' ∧ Rel M s' (Spec.step M dflt q (.push x)).1 := by
  have hq := h.qlen; have hb := h.bot; have ht := h.top; have hl := h.len; have hf := h.full; have he := h.el
  have hN : 0 < M := by omega
  have htl : s.top < M := by rw [ht]; exact Nat.mod_lt _ hN
  unfold pushBack
  rw [arrSet_lt (by omega)]
  simp only [R.bind_ok, R.pure_eq]
  refine ⟨_, rfl, ?_⟩
  have hnext : (if s.top + 1 ≥ M then 0 else s.top + 1) = (s.top + 1) % M := by
    split
    · rw [show s.top + 1 = M by omega]; simp
    · rw [Nat.mod_eq_of_lt (by omega)]
  rw [hnext]
  by_cases hc : q.length = M
  · have hf' : s.full = true := by rw [hf]; simp [hc]
    have h0 : s.top = s.bottom := by rw [ht, hc]; simp [Nat.mod_eq_of_lt hb]
    simp only [hf', if_true, Spec.step, hc]
    have hql : (q.drop 1).length = M - 1 := by simp [hc]
    constructor
    · simpa using hl
    · exact Nat.mod_lt _ hN
    · simp only [List.length_append, hql, List.length_singleton]
      rw [show M - 1 + 1 = M by omega]; simp
    · simp; omega
    · simp; omega
    · intro i hi
      simp only [List.length_append, hql, List.length_singleton] at hi
      simp only [mod_add_mod', Nat.add_assoc]
      by_cases hi2 : i = M - 1
      · subst hi2
        rw [List.getElem?_append_right (by omega), hql, show s.top + (1 + (M - 1)) = s.top + M by omega,
          Nat.add_mod_right, Nat.mod_eq_of_lt htl, List.getElem?_set_self (by omega)]
        simp
      · rw [List.getElem?_append_left (by omega), List.getElem?_drop, ← he (1 + i) (by omega), h0,
          List.getElem?_set_ne]
        intro e
        have : (s.bottom + 0) % M = (s.bottom + (1 + i)) % M := by rw [← e]; simp [Nat.mod_eq_of_lt hb]
        have := mod_add_inj hN (by omega) this
        omega
  · have hf' : s.full = false := by rw [hf]; simp [hc]
    simp only [hf', Bool.false_eq_true, if_false, Spec.step, hc]
    constructor
    · simpa using hl
    · exact hb
    · simp [ht, Nat.add_assoc]
    · simp; omega
    · simp only [List.length_append, List.length_singleton, ht, mod_add_mod', Nat.add_assoc]
      by_cases h1 : q.length + 1 = M
      · simp [h1, Nat.mod_eq_of_lt hb]
      · simp only [h1, decide_false]
        rw [if_neg]
        intro e
        have : (s.bottom + 0) % M = (s.bottom + (q.length + 1)) % M := by rw [e]; simp [Nat.mod_eq_of_lt hb]
        have := mod_add_inj hN (by omega) this
        omega
    · intro i hi
      simp only [List.length_append, List.length_singleton] at hi
      by_cases hi2 : i = q.length
      · subst hi2
        rw [← ht, List.getElem?_set_self (by omega), List.getElem?_append_right (by omega)]
        simp
      · rw [List.getElem?_append_left (by omega), ← he i (by omega), List.getElem?_set_ne]
        intro e
        rw [ht] at e
        have := mod_add_inj (by omega) (by omega) e
        omega

theorem Rel.prev {M : Nat} {s : St T} {q : List T} (h : Rel M s q) (hne : 0 < q.length) :
    (if s.top = 0 then M - 1 else s.top - 1) = (s.bottom + (q.length - 1)) % M := by
  have hq := h.qlen; have hb := h.bot; have ht := h.top
  by_cases hw : s.bottom + q.length < M
  · rw [Nat.mod_eq_of_lt hw] at ht
    rw [if_neg (by omega), Nat.mod_eq_of_lt (by omega)]; omega
  · rw [Nat.mod_eq_sub_mod (by omega), Nat.mod_eq_of_lt (by omega)] at ht
    split
    · rw [Nat.mod_eq_of_lt (by omega)]; omega
    · rw [Nat.mod_eq_sub_mod (by omega), Nat.mod_eq_of_lt (by omega)]; omega

theorem Rel.popped {M : Nat} {s : St T} {q : List T} (h : Rel M s q) (hne : 0 < q.length) :
    Rel M { s with top := (s.bottom + (q.length - 1)) % M, full := false } q.dropLast := by
  have hq := h.qlen; have hb := h.bot
  constructor
  · exact h.len
  · exact hb
  · simp
  · simp; omega
  · simp; omega
  · intro i hi
    simp at hi
    rw [h.el i (by omega), List.getElem?_dropLast, if_pos (by omega)]

theorem Rel.step {M : Nat} {s : St T} {q : List T} (dflt : T) (h : Rel M s q) (op : Op T) :
    ∃ s', step M dflt s op = .ok (s', (Spec.step M dflt q op).2) ∧ Rel M s' (Spec.step M dflt q op).1 := by
  have hlast : 0 < q.length → s.data[(s.bottom + (q.length - 1)) % M]? = q.getLast? := by
    intro hq
    rw [h.el _ (by omega), List.getLast?_eq_getElem?]
  have hex : 0 < q.length → ∃ x, q.getLast? = some x := by
    intro hq
    rw [List.getLast?_eq_getElem?, List.getElem?_eq_getElem (by omega)]
    exact ⟨_, rfl⟩
  cases op with
  | push x =>
    obtain ⟨s', h1, h2⟩ := h.push dflt x
    exact ⟨s', by simp [CircStack.step, h1, Spec.step], h2⟩
  | pop =>
    simp only [CircStack.step, popBack, h.size]
    by_cases hq : q.length = 0
    · have : q = [] := by simpa using hq
      subst this
      exact ⟨s, by simp [Spec.step], h⟩
    · obtain ⟨x, hx⟩ := hex (by omega)
      rw [if_neg hq, h.prev (by omega)]
      refine ⟨_, ?_, h.popped (by omega)⟩
      rw [arrGet_some (a := x) (by rw [hlast (by omega), hx])]
      simp [Spec.step, hx]
  | popOrZero =>
    simp only [CircStack.step, popBackOrZero, h.size]
    by_cases hq : q.length = 0
    · have : q = [] := by simpa using hq
      subst this
      exact ⟨s, by simp [Spec.step], h⟩
    · obtain ⟨x, hx⟩ := hex (by omega)
      rw [if_neg hq, h.prev (by omega)]
      refine ⟨_, ?_, h.popped (by omega)⟩
      rw [arrGet_some (a := x) (by rw [hlast (by omega), hx])]
      simp [Spec.step, hx]
  | back =>
    simp only [CircStack.step, back, h.size]
    by_cases hq : q.length = 0
    · have : q = [] := by simpa using hq
      subst this
      exact ⟨s, by simp [Spec.step], h⟩
    · obtain ⟨x, hx⟩ := hex (by omega)
      rw [if_neg hq, h.prev (by omega)]
      refine ⟨s, ?_, h⟩
      rw [arrGet_some (a := x) (by rw [hlast (by omega), hx])]
      simp [Spec.step, hx]
  | clear =>
    have := h.bot
    refine ⟨_, rfl, ?_⟩
    exact { len := h.len, bot := by simp only [clear]; omega, top := by simp [clear, Spec.step], qlen := Nat.zero_le _,
            full := (decide_eq_false (by simp only [Spec.step, List.length_nil]; omega)).symm, el := by intro i hi; simp [Spec.step] at hi }
  | size => exact ⟨s, by simp [CircStack.step, h.size, Spec.step], h⟩
  | empty => exact ⟨s, by simp [CircStack.step, h.empty, Spec.step], h⟩

theorem Rel.run {M : Nat} (dflt : T) (ops : List (Op T)) : ∀ {s : St T} {q : List T}, Rel M s q →
    ∃ s', run M dflt s ops = .ok (s', (Spec.run M dflt q ops).2) ∧ Rel M s' (Spec.run M dflt q ops).1 := by
  induction ops with
  | nil => intro s q h; exact ⟨s, by simp [CircStack.run, Spec.run], h⟩
  | cons op ops ih =>
    intro s q h
    obtain ⟨s1, h1, h2⟩ := h.step dflt op
    obtain ⟨s2, h3, h4⟩ := ih h2
    exact ⟨s2, by simp [CircStack.run, h1, h3, Spec.run], by simpa [Spec.run] using h4⟩

/-- **C18**: from construction (whatever the uninitialised array holds), any sequence of calls returns exactly what the
bounded list stack returns, without out-of-bounds access. -/
theorem C18_is_bounded_stack (M : Nat) (hM : 0 < M) (dflt : T) (garbage : List T) (hg : garbage.length = M)
    (ops : List (Op T)) :
    ∃ s, run M dflt (init garbage) ops = .ok (s, (Spec.run M dflt [] ops).2) := by
  have : Rel M (init garbage) ([] : List T) := by
    constructor <;> simp [init, hg] <;> omega
  obtain ⟨s, h, _⟩ := this.run dflt ops
  exact ⟨s, h⟩

example : (run 2 0 (init [77, 88]) [.push 1, .push 2, .push 3, .size, .back, .pop, .pop, .pop, .popOrZero, .empty]).bind
    (fun p => .ok p.2) =
    .ok [.num 2, .opt (some 3), .opt (some 3), .opt (some 2), .opt none, .val 0, .bool true] := by decide

/-- **C120 is violated**: a CircularStack constructed from values reports itself empty and hands none of them out,
however many values it was given (fewer than would fit or exactly as many). -/
theorem C120_ctor_from_values_violated (M : Nat) (hM : 0 < M) (dflt : T) (ts : List T) (ht : ts.length ≤ M) :
    (run M dflt (ofValues M dflt ts) [.size, .empty, .back, .pop]).bind (fun p => .ok p.2) =
      .ok [.num 0, .bool true, .opt none, .opt none] := by
  have : Rel M (ofValues M dflt ts) ([] : List T) := by
    constructor <;> simp [ofValues] <;> omega
  obtain ⟨s, h, _⟩ := this.run dflt [.size, .empty, .back, .pop]
  rw [h]
  simp [Spec.run, Spec.step]

example : (3 : Nat) ≤ 4 ∧ (ofValues 4 0 [5, 6, 7]).data = [5, 6, 7, 0] := by decide

end CircStack
