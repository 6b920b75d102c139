import Verif.Props.CircBufIsr
/-! # C266: get() of a circular buffer does not wait for the interrupt that fills it -/
namespace CircBufIsr
variable {T : Type}

/-- the steps left in a call of `get()` -/
def left (s : St T) : Nat :=
  match s.pc with
  | .idle => 0
  | .half => 7
  | .cmp _ => 6
  | .read => 5
  | .index _ => 4
  | .got _ => 3
  | .cleared _ => 2
  | .inc _ _ => 1

theorem left_put {N : Nat} {s s' : St T} {x : T} {es : List (Event T)} (h : step N s (.put x) = .ok (s', es)) : left s' = left s := by
  simp only [step] at h
  cases hp : CircBuf.put N s.b x with
  | ub => rw [hp] at h; cases h
  | ok b =>
    rw [hp, R.bind_ok, R.pure_eq] at h
    simp only [R.ok.injEq, Prod.mk.injEq] at h
    rw [← h.1]
    rfl

theorem left_cont {N : Nat} {s s' : St T} {es : List (Event T)} (h : step N s .cont = .ok (s', es)) : left s' ≤ left s - 1 := by
  obtain ⟨b, pc⟩ := s
  cases pc with
  | cmp hd =>
    by_cases e : hd = b.tail
    · simp only [step, e, if_true, R.pure_eq, R.ok.injEq, Prod.mk.injEq] at h; rw [← h.1]; simp [left]
    · simp only [step, e, if_false, R.pure_eq, R.ok.injEq, Prod.mk.injEq] at h; rw [← h.1]; simp [left]
  | index t =>
    simp only [step] at h
    cases hp : arrGet b.buf t with
    | ub => rw [hp] at h; cases h
    | ok v =>
      rw [hp, R.bind_ok, R.pure_eq] at h
      simp only [R.ok.injEq, Prod.mk.injEq] at h
      rw [← h.1]
      simp [left]
  | _ =>
    simp only [step, R.pure_eq, R.ok.injEq, Prod.mk.injEq] at h
    rw [← h.1]
    simp [left]

theorem run_append_ok {N : Nat} (l1 l2 : List (Act T)) : ∀ (s s1 s2 : St T) (e1 e2 : List (Event T)), run N s l1 = .ok (s1, e1) → run N s1 l2 = .ok (s2, e2) →
    run N s (l1 ++ l2) = .ok (s2, e1 ++ e2) := by
  induction l1 with
  | nil =>
    intro s s1 s2 e1 e2 h1 h2
    simp only [run, R.pure_eq, R.ok.injEq, Prod.mk.injEq] at h1
    obtain ⟨rfl, rfl⟩ := h1
    exact h2
  | cons a l ih =>
    intro s s1 s2 e1 e2 h1 h2
    simp only [run, List.cons_append] at h1 ⊢
    cases hs : step N s a with
    | ub => rw [hs] at h1; cases h1
    | ok r =>
      obtain ⟨s', e⟩ := r
      rw [hs, R.bind_ok] at h1
      rw [R.bind_ok]
      simp only at h1 ⊢
      cases hr : run N s' l with
      | ub => rw [hr] at h1; cases h1
      | ok r =>
        obtain ⟨s'', e'⟩ := r
        rw [hr, R.bind_ok, R.pure_eq] at h1
        simp only [R.ok.injEq, Prod.mk.injEq] at h1
        obtain ⟨rfl, rfl⟩ := h1
        rw [ih s' s'' s2 e' e2 hr h2, R.bind_ok, R.pure_eq]
        simp

theorem puts_left {k : Nat} (b : List T) : ∀ s : St T, Safe (2 ^ k) s →
    ∃ s' es, run (2 ^ k) s (b.map .put) = .ok (s', es) ∧ Safe (2 ^ k) s' ∧ left s' = left s := by
  induction b with
  | nil => intro s h; exact ⟨s, [], rfl, h, rfl⟩
  | cons x b ih =>
    intro s h
    obtain ⟨s1, e1, h1, h2⟩ := safe_step h (.put x)
    obtain ⟨s2, e2, h3, h4, h5⟩ := ih s1 h2
    exact ⟨s2, e1 ++ e2, by simp only [List.map_cons, run, h1, h3, R.bind_ok, R.pure_eq], h4, by rw [h5, left_put h1]⟩

/-- **C266**: after any schedule, with any items put before each step, a call of `get()` of a CircularBuffer or CircularBufferOpt has returned after at
most seven steps of its own. -/
theorem C266_circular (k : Nat) (dflt : T) (sched : List (Act T)) (s : St T) (es : List (Event T)) (h : run (2 ^ k) (init (2 ^ k) dflt) sched = .ok (s, es))
    (bs : List (List T)) (h7 : 7 ≤ bs.length) :
    ∃ s' es', run (2 ^ k) s (bs.flatMap fun b => b.map .put ++ [.cont]) = .ok (s', es') ∧ s'.pc = .idle := by
  have hN := Nat.two_pow_pos k
  have hs : ∀ (l : List (Act T)) (s0 : St T) (e : List (Event T)), Safe (2 ^ k) s0 → run (2 ^ k) s0 l = .ok (s, e) → Safe (2 ^ k) s := by
    intro l
    induction l with
    | nil =>
      intro s0 e h0 hr
      simp only [run, R.pure_eq, R.ok.injEq, Prod.mk.injEq] at hr
      exact hr.1 ▸ h0
    | cons a l ih =>
      intro s0 e h0 hr
      obtain ⟨s1, e1, h1, h2⟩ := safe_step h0 a
      simp only [run, h1, R.bind_ok] at hr
      cases hr' : run (2 ^ k) s1 l with
      | ub => rw [hr'] at hr; cases hr
      | ok r =>
        obtain ⟨s2, e2⟩ := r
        rw [hr', R.bind_ok, R.pure_eq] at hr
        simp only [R.ok.injEq, Prod.mk.injEq] at hr
        exact ih s1 e2 h2 (by rw [hr', hr.1])
  have h0 := hs sched _ es ⟨by simp [init, CircBuf.init], hN, hN, by simp [init]⟩ h
  have key : ∀ (bs : List (List T)) (s : St T), Safe (2 ^ k) s → left s ≤ bs.length →
      ∃ s' es', run (2 ^ k) s (bs.flatMap fun b => b.map .put ++ [.cont]) = .ok (s', es') ∧ left s' = 0 := by
    intro bs
    induction bs with
    | nil => intro s _ hl; exact ⟨s, [], rfl, by simpa using hl⟩
    | cons b bs ih =>
      intro s h0 hl
      obtain ⟨s1, e1, h1, h2, h3⟩ := puts_left b s h0
      obtain ⟨s2, e2, h4, h5⟩ := safe_step h2 .cont
      have h6 := left_cont h4
      obtain ⟨s3, e3, h7, h8⟩ := ih s2 h5 (by simp only [List.length_cons] at hl; omega)
      refine ⟨s3, e1 ++ (e2 ++ e3), ?_, h8⟩
      rw [List.flatMap_cons, List.append_assoc]
      refine run_append_ok _ _ s s1 s3 e1 (e2 ++ e3) h1 ?_
      simp only [List.singleton_append, run, h4, h7, R.bind_ok, R.pure_eq]
  have hl : left s ≤ 7 := by unfold left; split <;> omega
  obtain ⟨s', es', h1, h2⟩ := key bs s h0 (by omega)
  refine ⟨s', es', h1, ?_⟩
  obtain ⟨b, pc⟩ := s'
  cases pc <;> simp [left] at h2
  rfl

/-- a call on a buffer with one item, with items put in before several of its steps: it returns that item with the seventh step -/
example : ∃ b, run 4 (init 4 0) ([.put 1, .get] ++ ([[2], [], [3], [], [], [], []] : List (List Nat)).flatMap fun b => b.map .put ++ [.cont]) =
    .ok (⟨b, .idle⟩, [.put 1, .call, .put 2, .look, .put 3, .answer (some 1)]) := ⟨_, rfl⟩

end CircBufIsr
