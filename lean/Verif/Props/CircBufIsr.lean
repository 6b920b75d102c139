import Verif.Spec.CircBufIsr
import Verif.Lemmas.CircBuf
/-! # Property C184: a circular buffer filled by an interrupt -/

namespace CircBufIsr
open CircBuf Spec
variable {T : Type}

/-- Indices stay inside the buffer. -/
def Safe (N : Nat) (s : St T) : Prop :=
  s.b.buf.length = N ∧ s.b.head < N ∧ s.b.tail < N ∧ ∀ t, s.pc = .index t → t < N

theorem mask_lt (k i : Nat) : i &&& (2 ^ k - 1) < 2 ^ k := by
  rw [and_mask]; exact Nat.mod_lt _ (Nat.two_pow_pos k)

theorem safe_step {k : Nat} {s : St T} (h : Safe (2 ^ k) s) (a : Act T) :
    ∃ s' es, step (2 ^ k) s a = .ok (s', es) ∧ Safe (2 ^ k) s' := by
  obtain ⟨h1, h2, h3, h4⟩ := h
  cases a with
  | put x =>
    have hs : arrSet s.b.buf s.b.head x = .ok (s.b.buf.set s.b.head x) := arrSet_lt (by omega)
    obtain ⟨b', hp, q1, q2, q3⟩ : ∃ b', put (2 ^ k) s.b x = .ok b' ∧ b'.buf.length = 2 ^ k ∧ b'.head < 2 ^ k ∧ b'.tail < 2 ^ k := by
      simp only [CircBuf.put, hs, R.bind_ok, R.pure_eq]
      refine ⟨_, rfl, ?_, ?_, ?_⟩
      · by_cases hf : s.b.full = true <;> simp [hf, incHead, incTail, h1]
      · by_cases hf : s.b.full = true <;> simp [hf, incHead, incTail, Nat.mod_lt _ (Nat.two_pow_pos k)]
      · by_cases hf : s.b.full = true <;> simp [hf, incHead, incTail, Nat.mod_lt _ (Nat.two_pow_pos k), h3]
    exact ⟨⟨b', s.pc⟩, [.put x], by simp only [step, hp, R.bind_ok, R.pure_eq], q1, q2, q3, h4⟩
  | get =>
    obtain ⟨b, pc⟩ := s
    cases pc with
    | idle =>
      refine ⟨_, _, rfl, h1, h2, h3, ?_⟩
      intro t ht
      by_cases hf : b.full = true <;> simp [hf] at ht
    | _ => exact ⟨_, _, rfl, h1, h2, h3, h4⟩
  | cont =>
    obtain ⟨b, pc⟩ := s
    cases pc with
    | idle => exact ⟨_, _, rfl, h1, h2, h3, h4⟩
    | half => exact ⟨_, _, rfl, h1, h2, h3, by simp⟩
    | cmp hd =>
      by_cases e : hd = b.tail
      · exact ⟨⟨b, .idle⟩, _, by simp only [step, e, if_true]; rfl, h1, h2, h3, by simp⟩
      · exact ⟨⟨b, .read⟩, _, by simp only [step, e, if_false]; rfl, h1, h2, h3, by simp⟩
    | read => exact ⟨_, _, rfl, h1, h2, h3, by simp [h3]⟩
    | index t =>
      have ht := h4 t rfl
      have hg : ∃ v, arrGet b.buf t = .ok v := by
        have : t < b.buf.length := by simp only at h1; omega
        exact ⟨b.buf[t], arrGet_lt this⟩
      obtain ⟨v, hv⟩ := hg
      exact ⟨⟨b, .got v⟩, [], by simp only [step, hv, R.bind_ok, R.pure_eq], h1, h2, h3, by simp⟩
    | got v => exact ⟨_, _, rfl, h1, h2, h3, by simp⟩
    | cleared v => exact ⟨_, _, rfl, h1, h2, h3, by simp⟩
    | inc v t => exact ⟨_, _, rfl, h1, h2, mask_lt _ _, by simp⟩

/-- What holds between the buffer and the queue at each point of `get()`. -/
def Inv (N : Nat) (s : St T) (a : Abs T) : Prop :=
  match s.pc with
  | .idle => Rel N s.b a.q ∧ a.inside = false
  | .half => Rel N s.b a.q ∧ a.inside = true ∧ a.q.length < N
  | .cmp h => Rel N s.b a.q ∧ a.inside = true ∧ a.q.length < N ∧ ∃ j, j ≤ a.q.length ∧ h = (s.b.tail + j) % N ∧ a.none = decide (j = 0)
  | .read => Rel N s.b a.q ∧ a.inside = true ∧ a.q ≠ []
  | .index t => Rel N s.b a.q ∧ a.inside = true ∧ a.q ≠ [] ∧ t = s.b.tail
  | .got v => Rel N s.b a.q ∧ a.inside = true ∧ a.q.head? = some v
  | .cleared v => Rel N { s.b with full := decide (a.q.length = N) } a.q ∧ s.b.full = false ∧ a.inside = true ∧ a.q.head? = some v
  | .inc v t => Rel N { s.b with full := decide (a.q.length = N) } a.q ∧ s.b.full = false ∧ a.inside = true ∧ a.q.head? = some v ∧ t = s.b.tail

/-- `put` with two free places leaves `tail_` and a cleared `full_` alone. -/
theorem put_room {k : Nat} {b : CircBuf.St T} {q : List T} (h : Rel (2 ^ k) b q) (x : T) (hr : q.length + 2 ≤ 2 ^ k) :
    ∃ b', put (2 ^ k) b x = .ok b' ∧ Rel (2 ^ k) b' (q ++ [x]) ∧ b'.tail = b.tail ∧ b'.full = false := by
  obtain ⟨b', hp, hrel⟩ := h.put x
  have hne : q.length ≠ 2 ^ k := by omega
  simp only [_root_.Spec.qstep, hne, if_false] at hrel
  have hf := h.full
  simp only [hne, decide_false] at hf
  refine ⟨b', hp, hrel, ?_, ?_⟩
  · have hs : arrSet b.buf b.head x = .ok (b.buf.set b.head x) :=
      arrSet_lt (by rw [h.len, h.head]; exact Nat.mod_lt _ (Nat.two_pow_pos k))
    simp only [CircBuf.put, hs, R.bind_ok, R.pure_eq, hf] at hp
    cases hp
    rfl
  · have := hrel.full
    simpa [show ¬ q.length + 1 = 2 ^ k by omega] using this

theorem inv_put {k : Nat} {s : St T} {a : Abs T} (x : T) (h : Inv (2 ^ k) s a) (hr : a.inside = true → a.q.length + 2 ≤ 2 ^ k) :
    ∃ b', put (2 ^ k) s.b x = .ok b' ∧ Inv (2 ^ k) { s with b := b' } (next (2 ^ k) a (.put x)) := by
  obtain ⟨b, pc⟩ := s
  obtain ⟨q, ins, nn⟩ := a
  cases pc with
  | idle =>
    obtain ⟨h1, h2⟩ := h
    obtain ⟨b', hp, hrel⟩ := h1.put x
    exact ⟨b', hp, hrel, h2⟩
  | half =>
    obtain ⟨h1, h2, h3⟩ := h
    have hr := hr h2
    simp only at hr
    obtain ⟨b', hp, hrel, ht, hf⟩ := put_room h1 x hr
    exact ⟨b', hp, by simp only [Inv, next, show ¬ q.length = 2 ^ k by omega, if_false]; exact ⟨hrel, h2, by simp; omega⟩⟩
  | cmp hd =>
    obtain ⟨h1, h2, h3, j, hj, e, e2⟩ := h
    have hr := hr h2
    simp only at hr hj
    obtain ⟨b', hp, hrel, ht, hf⟩ := put_room h1 x hr
    refine ⟨b', hp, ?_⟩
    simp only [Inv, next, show ¬ q.length = 2 ^ k by omega, if_false]
    exact ⟨hrel, h2, by simp; omega, j, by simp; omega, by rw [ht]; exact e, e2⟩
  | read =>
    obtain ⟨h1, h2, h3⟩ := h
    have hr := hr h2
    simp only at hr
    obtain ⟨b', hp, hrel, ht, hf⟩ := put_room h1 x hr
    exact ⟨b', hp, by simp only [Inv, next, show ¬ q.length = 2 ^ k by omega, if_false]; exact ⟨hrel, h2, by simp⟩⟩
  | index t =>
    obtain ⟨h1, h2, h3, h4⟩ := h
    have hr := hr h2
    simp only at hr
    obtain ⟨b', hp, hrel, ht, hf⟩ := put_room h1 x hr
    exact ⟨b', hp, by simp only [Inv, next, show ¬ q.length = 2 ^ k by omega, if_false]; exact ⟨hrel, h2, by simp, by rw [ht]; exact h4⟩⟩
  | got v =>
    obtain ⟨h1, h2, h3⟩ := h
    have hr := hr h2
    simp only at hr h3
    obtain ⟨b', hp, hrel, ht, hf⟩ := put_room h1 x hr
    exact ⟨b', hp, by simp only [Inv, next, show ¬ q.length = 2 ^ k by omega, if_false]; exact ⟨hrel, h2, by simp [h3]⟩⟩
  | cleared v =>
    obtain ⟨h1, hc, h2, h3⟩ := h
    have hr := hr h2
    simp only at hr hc h1 h3
    have e : ({ b with full := decide (q.length = 2 ^ k) } : CircBuf.St T) = b := by
      rw [show decide (q.length = 2 ^ k) = b.full by rw [hc]; simp; omega]
    rw [e] at h1
    obtain ⟨b', hp, hrel, ht, hf⟩ := put_room h1 x hr
    have e' : ({ b' with full := decide ((q ++ [x]).length = 2 ^ k) } : CircBuf.St T) = b' := by
      rw [show decide ((q ++ [x]).length = 2 ^ k) = b'.full by rw [hf]; simp; omega]
    refine ⟨b', hp, ?_⟩
    simp only [Inv, next, show ¬ q.length = 2 ^ k by omega, if_false]
    rw [e']
    exact ⟨hrel, hf, h2, by simp [h3]⟩
  | inc v t =>
    obtain ⟨h1, hc, h2, h3, h4⟩ := h
    have hr := hr h2
    simp only at hr hc h1 h3
    have e : ({ b with full := decide (q.length = 2 ^ k) } : CircBuf.St T) = b := by
      rw [show decide (q.length = 2 ^ k) = b.full by rw [hc]; simp; omega]
    rw [e] at h1
    obtain ⟨b', hp, hrel, ht, hf⟩ := put_room h1 x hr
    have e' : ({ b' with full := decide ((q ++ [x]).length = 2 ^ k) } : CircBuf.St T) = b' := by
      rw [show decide ((q ++ [x]).length = 2 ^ k) = b'.full by rw [hf]; simp; omega]
    refine ⟨b', hp, ?_⟩
    simp only [Inv, next, show ¬ q.length = 2 ^ k by omega, if_false]
    rw [e']
    exact ⟨hrel, hf, h2, by simp [h3], by rw [ht]; exact h4⟩

theorem inv_main {k : Nat} {s : St T} {a : Abs T} (h : Inv (2 ^ k) s a) (act : Act T) (ha : ∀ x, act ≠ .put x) :
    ∃ s' es, step (2 ^ k) s act = .ok (s', es) ∧ (∀ x, Event.put x ∉ es) ∧ AllRight (2 ^ k) a es ∧ Inv (2 ^ k) s' (final (2 ^ k) a es) := by
  obtain ⟨b, pc⟩ := s
  obtain ⟨q, ins, nn⟩ := a
  cases act with
  | put x => exact absurd rfl (ha x)
  | get =>
    cases pc with
    | idle =>
      obtain ⟨h1, h2⟩ := h
      refine ⟨_, _, rfl, by simp, ⟨trivial, trivial⟩, ?_⟩
      have hf := h1.full
      simp only at hf h1
      have hN := Nat.two_pow_pos k
      by_cases e : q.length = 2 ^ k
      · rw [if_pos (by rw [hf]; simp [e])]
        exact ⟨h1, rfl, by intro c; simp only [final, next] at c; subst c; simp at e; omega⟩
      · rw [if_neg (by rw [hf]; simp [e])]
        refine ⟨h1, rfl, ?_⟩
        have := h1.qlen
        simp only [final, next]; omega
    | _ => exact ⟨_, _, rfl, by simp, trivial, h⟩
  | cont =>
    cases pc with
    | idle => exact ⟨_, _, rfl, by simp, trivial, h⟩
    | half =>
      obtain ⟨h1, h2, h3⟩ := h
      refine ⟨_, _, rfl, by simp, ⟨trivial, trivial⟩, h1, h2, h3, q.length, Nat.le_refl _, h1.head, ?_⟩
      simp only [final, next]
      cases q <;> simp
    | cmp hd =>
      obtain ⟨h1, h2, h3, j, hj, e, e2⟩ := h
      have ht := h1.tail
      simp only at e e2 hj h3 ht
      have key : hd = b.tail ↔ j = 0 := by
        constructor
        · intro c
          rw [c] at e
          rcases Nat.lt_or_ge (b.tail + j) (2 ^ k) with l | l
          · rw [Nat.mod_eq_of_lt l] at e; omega
          · rw [Nat.mod_eq_sub_mod l, Nat.mod_eq_of_lt (by omega)] at e; omega
        · intro c; subst c; rw [e, Nat.add_zero, Nat.mod_eq_of_lt ht]
      by_cases c : hd = b.tail
      · exact ⟨⟨b, .idle⟩, [.answer none], by simp only [step, c, if_true]; rfl, by simp, ⟨by simp only [Right]; rw [e2]; simp [key.mp c], trivial⟩, h1, rfl⟩
      · refine ⟨⟨b, .read⟩, [], by simp only [step, c, if_false]; rfl, by simp, trivial, h1, h2, ?_⟩
        intro c2
        simp only [final] at c2
        subst c2
        simp at hj
        exact c (key.mpr hj)
    | read =>
      obtain ⟨h1, h2, h3⟩ := h
      exact ⟨_, _, rfl, by simp, trivial, h1, h2, h3, rfl⟩
    | index t =>
      obtain ⟨h1, h2, h3, h4⟩ := h
      simp only at h1 h3 h4
      subst h4
      cases q with
      | nil => exact absurd rfl h3
      | cons v q =>
        have hv := h1.incTail.1
        exact ⟨⟨b, .got v⟩, [], by simp only [step, arrGet_some hv, R.bind_ok, R.pure_eq], by simp, trivial, h1, h2, rfl⟩
    | got v =>
      obtain ⟨h1, h2, h3⟩ := h
      refine ⟨_, _, rfl, by simp, trivial, ?_, rfl, h2, h3⟩
      have hf := h1.full
      simp only at hf h1
      show Rel (2 ^ k) { b with full := decide (q.length = 2 ^ k) } q
      rw [← hf]
      exact h1
    | cleared v =>
      obtain ⟨h1, hc, h2, h3⟩ := h
      exact ⟨_, _, rfl, by simp, trivial, h1, hc, h2, h3, rfl⟩
    | inc v t =>
      obtain ⟨h1, hc, h2, h3, h4⟩ := h
      simp only at h1 hc h3 h4
      subst h4
      refine ⟨_, _, rfl, by simp, ⟨h3, trivial⟩, ?_, rfl⟩
      cases q with
      | nil => simp at h3
      | cons w q =>
        have := h1.incTail.2
        simpa [final, next, CircBuf.incTail, hc] using this

theorem allRight_append (N : Nat) (l1 l2 : List (Event T)) : ∀ a : Abs T, AllRight N a l1 → AllRight N (final N a l1) l2 → AllRight N a (l1 ++ l2) := by
  induction l1 with
  | nil => intro a _ h; exact h
  | cons e l ih => intro a h1 h2; exact ⟨h1.1, ih _ h1.2 h2⟩

theorem final_append (N : Nat) (l1 l2 : List (Event T)) : ∀ a : Abs T, final N a (l1 ++ l2) = final N (final N a l1) l2 := by
  induction l1 with
  | nil => intro a; rfl
  | cons e l ih => intro a; exact ih _

theorem room_append (N : Nat) (l1 l2 : List (Event T)) (hp : ∀ x, Event.put x ∉ l1) : ∀ a : Abs T, Room N a (l1 ++ l2) → Room N (final N a l1) l2 := by
  induction l1 with
  | nil => intro a h; exact h
  | cons e l ih =>
    intro a h
    cases e with
    | put x => exact absurd (List.mem_cons_self) (hp x)
    | _ => exact ih (fun x hx => hp x (List.mem_cons_of_mem _ hx)) _ h

theorem book {k : Nat} (sched : List (Act T)) : ∀ (s s' : St T) (a : Abs T) (es : List (Event T)), Inv (2 ^ k) s a →
    run (2 ^ k) s sched = .ok (s', es) → Room (2 ^ k) a es → AllRight (2 ^ k) a es ∧ Inv (2 ^ k) s' (final (2 ^ k) a es) := by
  induction sched with
  | nil => intro s s' a es hi h _; cases h; exact ⟨trivial, hi⟩
  | cons act l ih =>
    intro s s' a es hi h hr
    cases hs : step (2 ^ k) s act with
    | ub => simp [run, hs] at h
    | ok p =>
      obtain ⟨s1, e1⟩ := p
      cases hl : run (2 ^ k) s1 l with
      | ub => simp [run, hs, hl] at h
      | ok p2 =>
        obtain ⟨s2, e2⟩ := p2
        simp only [run, hs, hl, R.bind_ok, R.pure_eq, R.ok.injEq, Prod.mk.injEq] at h
        obtain ⟨rfl, rfl⟩ := h
        by_cases ha : ∃ x, act = .put x
        · obtain ⟨x, rfl⟩ := ha
          cases hp : put (2 ^ k) s.b x with
          | ub => simp [step, hp] at hs
          | ok b1 =>
            simp only [step, hp, R.bind_ok, R.pure_eq, R.ok.injEq, Prod.mk.injEq] at hs
            obtain ⟨rfl, rfl⟩ := hs
            obtain ⟨r1, r2⟩ := hr
            obtain ⟨b', hp', hi'⟩ := inv_put x hi r1
            rw [hp] at hp'
            cases hp'
            obtain ⟨k1, k2⟩ := ih _ _ _ _ hi' hl r2
            exact ⟨⟨trivial, k1⟩, k2⟩
        · obtain ⟨s1', es1, h1, h2, h3, h4⟩ := inv_main hi act (fun x hx => ha ⟨x, hx⟩)
          rw [h1] at hs
          cases hs
          obtain ⟨k1, k2⟩ := ih _ _ _ _ h4 hl (room_append _ _ _ h2 _ hr)
          exact ⟨allRight_append _ _ _ _ h3 k1, by rw [final_append]; exact k2⟩

/-- **C184** (partial): a circular buffer filled by an interrupt at any moments and emptied by the main program: if every item put during a `get()` finds two free places, every answer is right (the oldest item; "nothing" only if the
buffer was empty when `get()` looked), and what is left in the buffer is what should be: any further calls are answered from it. Missing: interrupts that find less room, below. -/
theorem C184_isr_partial (k : Nat) (dflt : T) (sched : List (Act T)) (s : St T) (es : List (Event T))
    (h : run (2 ^ k) (init (2 ^ k) dflt) sched = .ok (s, es)) (hr : Room (2 ^ k) ⟨[], false, false⟩ es) :
    AllRight (2 ^ k) ⟨[], false, false⟩ es ∧ (s.pc = .idle →
      count (2 ^ k) s.b = (final (2 ^ k) ⟨[], false, false⟩ es).q.length ∧
      ∀ ops : List (Op T), ∃ b', runOpt (2 ^ k) s.b ops = .ok (b', (_root_.Spec.qrun (2 ^ k) (final (2 ^ k) ⟨[], false, false⟩ es).q (ops.map Op.toQ)).2)) := by
  have h0 : Inv (2 ^ k) (init (2 ^ k) dflt) ⟨[], false, false⟩ := ⟨Rel.init (Nat.two_pow_pos k) dflt, rfl⟩
  obtain ⟨k1, k2⟩ := book sched _ _ _ _ h0 h hr
  refine ⟨k1, fun hp => ?_⟩
  simp only [Inv, hp] at k2
  refine ⟨k2.1.count, fun ops => ?_⟩
  obtain ⟨b', h1, _⟩ := k2.1.run dflt ops
  exact ⟨b', h1⟩

/-- **C184**: whatever the schedule, no access is outside the buffer. -/
theorem C184_in_bounds (k : Nat) (dflt : T) (sched : List (Act T)) :
    ∃ s es, run (2 ^ k) (init (2 ^ k) dflt) sched = .ok (s, es) := by
  have hN := Nat.two_pow_pos k
  have h0 : Safe (2 ^ k) (init (2 ^ k) dflt) := ⟨by simp [init, CircBuf.init], hN, hN, by simp [init]⟩
  generalize init (2 ^ k) dflt = s0 at h0
  induction sched generalizing s0 with
  | nil => exact ⟨s0, [], rfl⟩
  | cons a l ih =>
    obtain ⟨s1, e1, h1, h2⟩ := safe_step h0 a
    obtain ⟨s2, e2, h3⟩ := ih s1 h2
    exact ⟨s2, e1 ++ e2, by simp only [run, h1, h3, R.bind_ok, R.pure_eq]⟩

/-- **C184** (violated with less room). With four places: (1) three items, a fourth put by an interrupt after `get()` has read `full_`: `get()` answers "nothing", although the buffer was never empty. (2) Four items, a fifth put
after `get()` has cleared `full_`: afterwards the buffer looks empty, and four items are lost. (3) Three items, a fourth put there: afterwards `count()` is 4 with three items, and the next item put takes the place of one of them. -/
theorem C184_room_violated :
    (∃ b, run 4 (init 4 0) [.put 1, .put 2, .put 3, .get, .put 4, .cont, .cont] =
      .ok (⟨b, .idle⟩, [.put 1, .put 2, .put 3, .call, .put 4, .look, .answer none])) ∧
    (∃ b, run 4 (init 4 0) [.put 1, .put 2, .put 3, .put 4, .get, .cont, .cont, .cont, .put 5, .cont, .cont, .get, .cont, .cont] =
      .ok (⟨b, .idle⟩, [.put 1, .put 2, .put 3, .put 4, .call, .put 5, .answer (some 1), .call, .look, .answer none]) ∧ count 4 b = 0) ∧
    (∃ b b', run 4 (init 4 0) [.put 1, .put 2, .put 3, .get, .cont, .cont, .cont, .cont, .cont, .put 4, .cont, .cont] =
      .ok (⟨b, .idle⟩, [.put 1, .put 2, .put 3, .call, .look, .put 4, .answer (some 1)]) ∧ count 4 b = 4 ∧
      runOpt 4 b [.put 5, .get, .get, .get] = .ok (b', [some 3, some 4, some 5])) :=
  ⟨⟨_, rfl⟩, ⟨_, rfl, rfl⟩, ⟨_, _, rfl, rfl, rfl⟩⟩

/-- The hypotheses of C184 are met: four places, items put before, during and after calls of `get()`, one of them on the empty buffer. -/
example : ∃ s es, run 4 (init 4 0) [.get, .cont, .put 1, .cont, .put 2, .get, .cont, .cont, .put 3, .cont, .cont, .cont, .cont, .cont, .put 4, .put 5, .put 6] = .ok (s, es) ∧
    Room 4 ⟨[], false, false⟩ es ∧ s.pc = .idle ∧ es = [.call, .look, .put 1, .answer none, .put 2, .call, .look, .put 3, .answer (some 1), .put 4, .put 5, .put 6] :=
  ⟨_, _, rfl, by simp [Room, next], rfl, rfl⟩

end CircBufIsr
