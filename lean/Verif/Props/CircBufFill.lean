import Verif.Spec.CircBufFill
import Verif.Props.CircBufIsr
/-! # Property C184: exactly when an interrupt may fill a circular buffer -/

namespace CircBufIsr.When
open CircBuf CircBufIsr
variable {T : Type}

/-- What holds between the buffer and the queue at each point of `get()`. -/
def Inv (N : Nat) (s : St T) (a : Abs T) : Prop :=
  match s.pc with
  | .idle => Rel N s.b a.q
  | .half => Rel N s.b a.q ∧ a.q.length < N
  | .cmp h => Rel N s.b a.q ∧ ((a.none = true ∧ (a.q = [] → h = s.b.tail)) ∨
      (a.none = false ∧ 0 < a.seen ∧ a.seen < N ∧ a.seen ≤ a.q.length ∧ h = (s.b.tail + a.seen) % N))
  | .read => Rel N s.b a.q ∧ a.q ≠ []
  | .index t => Rel N s.b a.q ∧ a.q ≠ [] ∧ t = s.b.tail
  | .got v => Rel N s.b a.q ∧ a.q.head? = some v
  | .cleared v => Rel N { s.b with full := decide (a.q.length = N) } a.q ∧ s.b.full = false ∧ a.q.head? = some v
  | .inc v t => Rel N { s.b with full := decide (a.q.length = N) } a.q ∧ s.b.full = false ∧ a.q.head? = some v ∧ t = s.b.tail

/-- What `put` does to the queue and to `tail_`. -/
theorem put_any {k : Nat} {b : CircBuf.St T} {q : List T} (h : Rel (2 ^ k) b q) (x : T) :
    ∃ b', put (2 ^ k) b x = .ok b' ∧ Rel (2 ^ k) b' (if q.length = 2 ^ k then q.tail ++ [x] else q ++ [x]) ∧
      b'.tail = (if q.length = 2 ^ k then (b.tail + 1) % 2 ^ k else b.tail) ∧ b'.buf = b.buf.set b.head x := by
  obtain ⟨b', hp, hrel⟩ := h.put x
  refine ⟨b', hp, hrel, ?_⟩
  have hf := h.full
  have hs : arrSet b.buf b.head x = .ok (b.buf.set b.head x) :=
    arrSet_lt (by rw [h.len, h.head]; exact Nat.mod_lt _ (Nat.two_pow_pos k))
  by_cases hc : q.length = 2 ^ k
  · simp only [hc, decide_true] at hf
    simp only [CircBuf.put, hs, R.bind_ok, R.pure_eq, hf, if_true] at hp
    cases hp
    simp only [hc, if_true]
    exact ⟨and_mask _ _, rfl⟩
  · simp only [hc, decide_false] at hf
    simp only [CircBuf.put, hs, R.bind_ok, R.pure_eq, hf, Bool.false_eq_true, if_false] at hp
    cases hp
    simp only [hc, if_false]
    exact ⟨rfl, rfl⟩

theorem next_put (N : Nat) (a : Abs T) (x : T) : (next N a (.put x)).q = if a.q.length = N then a.q.tail ++ [x] else a.q ++ [x] := by
  simp only [next]; split <;> rfl

theorem inv_put {k : Nat} (hk : 1 ≤ k) {s : St T} {a : Abs T} (x : T) (h : Inv (2 ^ k) s a) (hr : May (2 ^ k) s.pc a) :
    ∃ b', put (2 ^ k) s.b x = .ok b' ∧ Inv (2 ^ k) { s with b := b' } (next (2 ^ k) a (.put x)) := by
  have hN : 2 ≤ 2 ^ k := by
    calc 2 = 2 ^ 1 := rfl
      _ ≤ 2 ^ k := Nat.pow_le_pow_right (by omega) hk
  obtain ⟨b, pc⟩ := s
  cases pc with
  | idle =>
    obtain ⟨b', hp, h1, _⟩ := put_any h x
    exact ⟨b', hp, by simp only [Inv]; rw [next_put]; exact h1⟩
  | half =>
    obtain ⟨h1, h2⟩ := h
    simp only [May] at hr
    obtain ⟨b', hp, hrel, ht, hf⟩ := put_room h1 x hr
    exact ⟨b', hp, by simp only [Inv]; rw [next_put, if_neg (by omega)]; exact ⟨hrel, by simp; omega⟩⟩
  | cmp hd =>
    obtain ⟨h1, h2⟩ := h
    simp only [May] at hr
    simp only at h1 h2
    obtain ⟨b', hp, g1, g2, _⟩ := put_any h1 x
    refine ⟨b', hp, by simp only; rw [next_put]; exact g1, ?_⟩
    have hne : (next (2 ^ k) a (.put x)).q ≠ [] := by rw [next_put]; split <;> simp
    rcases h2 with ⟨h2, _⟩ | ⟨h2, h3, h4, h5, h6⟩
    · exact .inl ⟨by simp only [next]; split <;> exact h2, fun c => absurd c hne⟩
    · refine .inr ?_
      rw [h2] at hr
      by_cases hc : a.q.length = 2 ^ k
      · rw [if_pos hc] at g2
        have hs : a.seen ≠ 1 := by
          rcases hr with hr | hr | hr
          · simp at hr
          · omega
          · exact hr
        simp only [next, if_pos hc]
        refine ⟨h2, by omega, by omega, by simp; omega, ?_⟩
        rw [g2, mod_add_mod', h6]
        congr 1; omega
      · rw [if_neg hc] at g2
        simp only [next, if_neg hc]
        exact ⟨h2, h3, h4, by simp; omega, by rw [g2]; exact h6⟩
  | read =>
    obtain ⟨h1, h2⟩ := h
    obtain ⟨b', hp, g1, _⟩ := put_any h1 x
    exact ⟨b', hp, by simp only; rw [next_put]; exact g1, by rw [next_put]; split <;> simp⟩
  | index t =>
    obtain ⟨h1, h2, h3⟩ := h
    simp only [May] at hr
    obtain ⟨b', hp, g1, g2, _⟩ := put_any h1 x
    rw [if_neg (by omega)] at g1 g2
    refine ⟨b', hp, ?_⟩
    simp only [Inv]
    rw [next_put, if_neg (by omega)]
    exact ⟨g1, by simp, by rw [g2]; exact h3⟩
  | got v =>
    obtain ⟨h1, h2⟩ := h
    simp only [May] at hr
    simp only at h1 h2
    obtain ⟨b', hp, g1, g2, _⟩ := put_any h1 x
    rw [if_neg (by omega)] at g1
    refine ⟨b', hp, ?_⟩
    simp only [Inv]
    rw [next_put, if_neg (by omega)]
    exact ⟨g1, by simp [h2]⟩
  | cleared v =>
    obtain ⟨h1, hc, h3⟩ := h
    simp only [May] at hr
    simp only at hc h1 h3
    have e : ({ b with full := decide (a.q.length = 2 ^ k) } : CircBuf.St T) = b := by
      rw [show decide (a.q.length = 2 ^ k) = b.full by rw [hc]; simp; omega]
    rw [e] at h1
    obtain ⟨b', hp, hrel, ht, hf⟩ := put_room h1 x hr
    refine ⟨b', hp, ?_⟩
    simp only [Inv]
    rw [next_put, if_neg (by omega)]
    have e' : ({ b' with full := decide ((a.q ++ [x]).length = 2 ^ k) } : CircBuf.St T) = b' := by
      rw [show decide ((a.q ++ [x]).length = 2 ^ k) = b'.full by rw [hf]; simp; omega]
    rw [e']
    exact ⟨hrel, hf, by simp [h3]⟩
  | inc v t =>
    obtain ⟨h1, hc, h3, h4⟩ := h
    simp only [May] at hr
    simp only at hc h1 h3
    have e : ({ b with full := decide (a.q.length = 2 ^ k) } : CircBuf.St T) = b := by
      rw [show decide (a.q.length = 2 ^ k) = b.full by rw [hc]; simp; omega]
    rw [e] at h1
    obtain ⟨b', hp, hrel, ht, hf⟩ := put_room h1 x hr
    refine ⟨b', hp, ?_⟩
    simp only [Inv]
    rw [next_put, if_neg (by omega)]
    have e' : ({ b' with full := decide ((a.q ++ [x]).length = 2 ^ k) } : CircBuf.St T) = b' := by
      rw [show decide ((a.q ++ [x]).length = 2 ^ k) = b'.full by rw [hf]; simp; omega]
    rw [e']
    exact ⟨hrel, hf, by simp [h3], by rw [ht]; exact h4⟩

theorem nonempty_of_head {q : List T} {v : T} (h : q.head? = some v) : ∃ r, q = v :: r := by
  cases q with
  | nil => simp at h
  | cons a r => simp at h; exact ⟨r, by rw [h]⟩

theorem inv_main {k : Nat} {s : St T} {a : Abs T} (h : Inv (2 ^ k) s a) (act : Act T) (ha : ∀ x, act ≠ .put x) :
    ∃ s' es, step (2 ^ k) s act = .ok (s', es) ∧ AllRight (2 ^ k) a es ∧ Inv (2 ^ k) s' (final (2 ^ k) a es) := by
  obtain ⟨b, pc⟩ := s
  obtain ⟨q, nn, sn⟩ := a
  have hp := Nat.two_pow_pos k
  cases act with
  | put x => exact absurd rfl (ha x)
  | get =>
    cases pc with
    | idle =>
      have h1 : Rel (2 ^ k) b q := h
      cases hf : b.full with
      | true =>
        refine ⟨⟨b, .read⟩, [.call], by simp [step, hf], ⟨trivial, trivial⟩, h1, ?_⟩
        simp only [final, next]
        rintro rfl
        have := h1.full
        rw [hf] at this
        simp at this
        omega
      | false =>
        refine ⟨⟨b, .half⟩, [.call], by simp [step, hf], ⟨trivial, trivial⟩, h1, ?_⟩
        have := h1.full
        rw [hf] at this
        have h2 := h1.qlen
        simp at this
        simp only [final, next]
        omega
    | _ => exact ⟨_, _, rfl, trivial, h⟩
  | cont =>
    cases pc with
    | idle => exact ⟨_, _, rfl, trivial, h⟩
    | half =>
      obtain ⟨h1, h2⟩ := h
      simp only at h1 h2
      refine ⟨_, _, rfl, ⟨trivial, trivial⟩, h1, ?_⟩
      simp only [final, next]
      cases q with
      | nil => exact .inl ⟨rfl, fun _ => by have := h1.head; simpa [Nat.mod_eq_of_lt h1.tail] using this⟩
      | cons y q => exact .inr ⟨rfl, by simp, h2, Nat.le_refl _, h1.head⟩
    | cmp hd =>
      obtain ⟨h1, h2⟩ := h
      simp only at h1 h2
      by_cases hc : hd = b.tail
      · refine ⟨⟨b, .idle⟩, [.answer none], by simp [step, hc], ⟨?_, trivial⟩, h1⟩
        rcases h2 with ⟨h2, _⟩ | ⟨_, h3, h4, _, h6⟩
        · exact h2
        · exfalso
          have : (b.tail + 0) % 2 ^ k = (b.tail + sn) % 2 ^ k := by rw [← h6, hc]; simp [Nat.mod_eq_of_lt h1.tail]
          have := mod_add_inj hp h4 this
          omega
      · refine ⟨⟨b, .read⟩, [], by simp [step, hc], trivial, h1, ?_⟩
        simp only [final]
        rintro rfl
        rcases h2 with ⟨_, h2⟩ | ⟨_, h3, _, h5, _⟩
        · exact hc (h2 rfl)
        · simp at h5; omega
    | read =>
      obtain ⟨h1, h2⟩ := h
      exact ⟨_, _, rfl, trivial, h1, h2, rfl⟩
    | index t =>
      obtain ⟨h1, h2, h3⟩ := h
      simp only at h1 h2 h3
      cases q with
      | nil => exact absurd rfl h2
      | cons y q =>
        have hg : arrGet b.buf t = .ok y := arrGet_some (by rw [h3]; exact h1.incTail.1)
        exact ⟨⟨b, .got y⟩, [], by simp [step, hg], trivial, h1, rfl⟩
    | got v =>
      obtain ⟨h1, h2⟩ := h
      refine ⟨_, _, rfl, trivial, ?_, rfl, h2⟩
      have := h1.full
      simp only at this h1
      have e : ({ b with full := decide (q.length = 2 ^ k) } : CircBuf.St T) = b := by rw [← this]
      show Rel (2 ^ k) { b with full := decide (q.length = 2 ^ k) } q
      rw [e]; exact h1
    | cleared v =>
      obtain ⟨h1, h2, h3⟩ := h
      exact ⟨_, _, rfl, trivial, h1, h2, h3, rfl⟩
    | inc v t =>
      obtain ⟨h1, h2, h3, h4⟩ := h
      simp only at h1 h2 h3 h4
      obtain ⟨r, rfl⟩ := nonempty_of_head h3
      refine ⟨⟨{ b with tail := (t + 1) &&& (2 ^ k - 1) }, .idle⟩, [.answer (some v)], rfl, ⟨rfl, trivial⟩, ?_⟩
      have := h1.incTail.2
      simp only [incTail] at this
      simp only [Inv, final, next, Option.isSome_some, if_true, List.tail_cons]
      rw [h4, h2]
      exact this

theorem allRight_append (N : Nat) (l1 l2 : List (Event T)) : ∀ a : Abs T, AllRight N a l1 → AllRight N (final N a l1) l2 → AllRight N a (l1 ++ l2) := by
  induction l1 with
  | nil => intro a _ h; exact h
  | cons e l ih => intro a h1 h2; exact ⟨h1.1, ih _ h1.2 h2⟩

theorem final_append (N : Nat) (l1 l2 : List (Event T)) : ∀ a : Abs T, final N a (l1 ++ l2) = final N (final N a l1) l2 := by
  induction l1 with
  | nil => intro a; rfl
  | cons e l ih => intro a; exact ih _

theorem inv_run {k : Nat} (hk : 1 ≤ k) (sched : List (Act T)) : ∀ (s s' : St T) (a : Abs T) (es : List (Event T)), Inv (2 ^ k) s a →
    run (2 ^ k) s sched = .ok (s', es) → Allowed (2 ^ k) s a sched → AllRight (2 ^ k) a es ∧ Inv (2 ^ k) s' (final (2 ^ k) a es) := by
  induction sched with
  | nil => intro s s' a es hi h _; cases h; exact ⟨trivial, hi⟩
  | cons act l ih =>
    intro s s' a es hi h hr
    cases hs : step (2 ^ k) s act with
    | ub => simp [run, hs] at h
    | ok p =>
      obtain ⟨s1, e1⟩ := p
      cases hl : run (2 ^ k) s1 l with
      | ub => simp [run, hs, hl] at h
      | ok p2 =>
        obtain ⟨s2, e2⟩ := p2
        simp only [run, hs, hl, R.bind_ok, R.pure_eq, R.ok.injEq, Prod.mk.injEq] at h
        obtain ⟨rfl, rfl⟩ := h
        have key : AllRight (2 ^ k) a e1 ∧ Inv (2 ^ k) s1 (final (2 ^ k) a e1) := by
          by_cases ha : ∃ x, act = .put x
          · obtain ⟨x, rfl⟩ := ha
            obtain ⟨b', hp', hi'⟩ := inv_put hk x hi (hr.1 x rfl)
            simp only [step, hp', R.bind_ok, R.pure_eq, R.ok.injEq, Prod.mk.injEq] at hs
            obtain ⟨rfl, rfl⟩ := hs
            exact ⟨⟨trivial, trivial⟩, hi'⟩
          · obtain ⟨s1', es1, h1, h3, h4⟩ := inv_main hi act (fun x hx => ha ⟨x, hx⟩)
            rw [h1] at hs
            cases hs
            exact ⟨h3, h4⟩
        obtain ⟨k1, k2⟩ := ih _ _ _ _ key.2 hl (hr.2 s1 e1 hs)
        exact ⟨allRight_append _ _ _ _ key.1 k1, by rw [final_append]; exact k2⟩

/-- **C184 (exact), one half.** In a buffer of at least two places, if the interrupt puts items only at the moments of `May`, every answer is right (the oldest item; "nothing" only if the
buffer was empty when `get()` looked), and what is left in the buffer is what should be: any further calls are answered from it. -/
theorem C184_when_exact (k : Nat) (hk : 1 ≤ k) (dflt : T) (sched : List (Act T)) (s : St T) (es : List (Event T))
    (h : run (2 ^ k) (init (2 ^ k) dflt) sched = .ok (s, es)) (hr : Allowed (2 ^ k) (init (2 ^ k) dflt) ⟨[], false, 0⟩ sched) :
    AllRight (2 ^ k) ⟨[], false, 0⟩ es ∧ (s.pc = .idle →
      count (2 ^ k) s.b = (final (2 ^ k) ⟨[], false, 0⟩ es).q.length ∧
      ∀ ops : List (Op T), ∃ b', runOpt (2 ^ k) s.b ops = .ok (b', (_root_.Spec.qrun (2 ^ k) (final (2 ^ k) ⟨[], false, 0⟩ es).q (ops.map Op.toQ)).2)) := by
  have h0 : Inv (2 ^ k) (init (2 ^ k) dflt) ⟨[], false, 0⟩ := Rel.init (Nat.two_pow_pos k) dflt
  obtain ⟨k1, k2⟩ := inv_run hk sched _ _ _ _ h0 h hr
  refine ⟨k1, fun hp => ?_⟩
  simp only [Inv, hp] at k2
  refine ⟨k2.count, fun ops => ?_⟩
  obtain ⟨b', h1, _⟩ := k2.run dflt ops
  exact ⟨b', h1⟩

/-- Two places, both filled; a third item is put after `get()` found the buffer full and before it reads `tail_`: `get()` answers 2, right. -/
example : (∃ s, run (2 ^ 1) (init (2 ^ 1) 0) [.put 1, .put 2, .get, .put 3, .cont, .cont, .cont, .cont, .cont] =
      .ok (s, [.put 1, .put 2, .call, .put 3, .answer (some 2)])) ∧
    Allowed (2 ^ 1) (init (2 ^ 1) 0) ⟨[], false, 0⟩ [.put 1, .put 2, .get, .put 3, .cont, .cont, .cont, .cont, .cont] := by
  refine ⟨⟨_, rfl⟩, ?_⟩
  refine ⟨fun _ _ => trivial, fun s es h => ?_⟩
  cases h
  refine ⟨fun _ _ => trivial, fun s es h => ?_⟩
  cases h
  refine ⟨fun _ c => by simp at c, fun s es h => ?_⟩
  cases h
  refine ⟨fun _ _ => trivial, fun s es h => ?_⟩
  cases h
  simp [Allowed]

/-- **C184 (exact), other half: the property is false at every other moment.** After every history in which the interrupt put items only when it may, at a moment at which it may not: an item put now leads to a wrong
answer, or to a buffer that, after `get()`, counts a wrong number of items. (The second oldest item must differ from the oldest and from the new one: otherwise a wrong answer may go unnoticed.) -/
theorem C184_other_moments_violated (k : Nat) (hk : 1 ≤ k) (dflt : T) (sched : List (Act T)) (s : St T) (es : List (Event T)) (a : Abs T) (x : T)
    (h : run (2 ^ k) (init (2 ^ k) dflt) sched = .ok (s, es)) (hr : Allowed (2 ^ k) (init (2 ^ k) dflt) ⟨[], false, 0⟩ sched)
    (ha : final (2 ^ k) ⟨[], false, 0⟩ es = a) (hm : ¬ May (2 ^ k) s.pc a) (hx : ∀ y, a.q[1]? = some y → y ≠ x ∧ a.q[0]? ≠ some y) :
    ∃ l' s' es', run (2 ^ k) s (.put x :: l') = .ok (s', es') ∧
      (¬ AllRight (2 ^ k) a es' ∨ s'.pc = .idle ∧ count (2 ^ k) s'.b ≠ (final (2 ^ k) a es').q.length) := by
  have hN : 2 ≤ 2 ^ k := by
    calc 2 = 2 ^ 1 := rfl
      _ ≤ 2 ^ k := Nat.pow_le_pow_right (by omega) hk
  have h0 : Inv (2 ^ k) (init (2 ^ k) dflt) ⟨[], false, 0⟩ := Rel.init (Nat.two_pow_pos k) dflt
  obtain ⟨_, hi⟩ := inv_run hk sched _ _ _ _ h0 h hr
  rw [ha] at hi
  obtain ⟨b, pc⟩ := s
  obtain ⟨q, nn, sn⟩ := a
  simp only at hm hx
  -- the full queue and its two oldest items
  have two : q.length = 2 ^ k → ∃ y z r, q = y :: z :: r ∧ z ≠ x ∧ y ≠ z := by
    intro hl
    match q, hl with
    | [], hl => simp at hl; omega
    | [_], hl => simp at hl; omega
    | y :: z :: r, _ =>
      obtain ⟨c1, c2⟩ := hx z rfl
      exact ⟨y, z, r, rfl, c1, fun c => c2 (by simp [c])⟩
  -- an item put after `full_` was cleared
  have late : Rel (2 ^ k) { b with full := decide (q.length = 2 ^ k) } q → b.full = false → ¬ q.length + 2 ≤ 2 ^ k →
      ∃ b', put (2 ^ k) b x = .ok b' ∧ b'.tail = b.tail ∧ count (2 ^ k) { b' with tail := (b.tail + 1) &&& (2 ^ k - 1) } ≠
        (next (2 ^ k) ⟨q, nn, sn⟩ (.put x)).q.tail.length := by
    intro h1 hf hl
    have hq := h1.qlen
    have hs : arrSet b.buf b.head x = .ok (b.buf.set b.head x) := arrSet_lt (by
      have e1 := h1.len; have e2 := h1.head
      simp only at e1 e2
      rw [e1, e2]; exact Nat.mod_lt _ (Nat.two_pow_pos k))
    have ht := h1.tail
    have hh := h1.head
    simp only at ht hh
    refine ⟨⟨b.buf.set b.head x, (b.head + 1) &&& (2 ^ k - 1), b.tail, decide ((b.head + 1) &&& (2 ^ k - 1) = b.tail)⟩, ?_, rfl, ?_⟩
    · simp [CircBuf.put, hs, hf, incHead]
    · rw [next_put]
      by_cases hc : q.length = 2 ^ k
      · have e : b.head = b.tail := by rw [hh, hc, Nat.add_mod_right, Nat.mod_eq_of_lt ht]
        have e2 : ¬ (b.tail + 1) % 2 ^ k = b.tail := by
          intro c
          have : (b.tail + 1) % 2 ^ k = (b.tail + 0) % 2 ^ k := by rw [c]; simp [Nat.mod_eq_of_lt ht]
          have := mod_add_inj (by omega) (by omega) this
          omega
        simp only [e, and_mask, if_pos hc, count, e2, decide_false]
        simp
        omega
      · have e : (b.head + 1) % 2 ^ k = b.tail := by
          rw [hh, mod_add_mod', Nat.add_assoc, show q.length + 1 = 2 ^ k by omega, Nat.add_mod_right, Nat.mod_eq_of_lt ht]
        simp only [and_mask, e, if_neg hc, count]
        simp
        omega
  cases pc with
  | idle => exact absurd trivial hm
  | half =>
    obtain ⟨h1, h2⟩ := hi
    simp only [May] at hm
    simp only at h1 h2 hm
    obtain ⟨b', hp, g1, g2, _⟩ := put_any h1 x
    rw [if_neg (by omega)] at g1
    have hl : (q ++ [x]).length = 2 ^ k := by simp; omega
    have hh : b'.head = b'.tail := by rw [g1.head, hl, Nat.add_mod_right, Nat.mod_eq_of_lt g1.tail]
    refine ⟨[.cont, .cont], ⟨b', .idle⟩, [.put x, .look, .answer none], ?_, .inl ?_⟩
    · simp [run, step, hp, hh]
    · intro c
      have := c.2.2.1
      simp only [Right] at this
      rw [show (next (2 ^ k) (⟨q, nn, sn⟩ : Abs T) (.put x)) = ⟨q ++ [x], nn, sn⟩ by simp only [next]; rw [if_neg (by omega)]] at this
      simp [next] at this
  | cmp hd =>
    obtain ⟨h1, h2⟩ := hi
    simp only [May, not_or] at hm
    simp only at h1 h2 hm
    have hq := h1.qlen
    have hl : q.length = 2 ^ k := by omega
    have hs : sn = 1 := Decidable.not_not.1 hm.2.2
    rcases h2 with ⟨c, _⟩ | ⟨hn, _, _, _, h6⟩
    · exact absurd c hm.1
    obtain ⟨b', hp, g1, g2, _⟩ := put_any h1 x
    rw [if_pos hl] at g2
    refine ⟨[.cont], ⟨b', .idle⟩, [.put x, .answer none], ?_, .inl ?_⟩
    · simp [run, step, hp, h6, hs, g2]
    · intro c
      have := c.2.1
      simp only [Right, next, if_pos hl, hn] at this
      simp at this
  | read => exact absurd trivial hm
  | index t =>
    obtain ⟨h1, h2, h3⟩ := hi
    simp only [May] at hm
    simp only at h1 h2 h3 hm
    have hq := h1.qlen
    have hl : q.length = 2 ^ k := by omega
    obtain ⟨y, z, r, rfl, n1, n2⟩ := two hl
    obtain ⟨b', hp, g1, g2, g3⟩ := put_any h1 x
    have hh : b.head = b.tail := by rw [h1.head, hl, Nat.add_mod_right, Nat.mod_eq_of_lt h1.tail]
    have hg : arrGet b'.buf t = .ok x := arrGet_some (by rw [g3, h3, ← hh, List.getElem?_set_self]; rw [h1.len, hh]; exact h1.tail)
    refine ⟨[.cont, .cont, .cont, .cont], ⟨⟨b'.buf, b'.head, (b'.tail + 1) &&& (2 ^ k - 1), false⟩, .idle⟩, [.put x, .answer (some x)], ?_, .inl ?_⟩
    · simp [run, step, hp, hg]
    · intro c
      have := c.2.1
      simp only [Right, next, if_pos hl] at this
      simp at this
      exact n1 this
  | got v =>
    obtain ⟨h1, h2⟩ := hi
    simp only [May] at hm
    simp only at h1 h2 hm
    have hq := h1.qlen
    have hl : q.length = 2 ^ k := by omega
    obtain ⟨y, z, r, rfl, n1, n2⟩ := two hl
    obtain ⟨b', hp, g1, g2, g3⟩ := put_any h1 x
    simp at h2
    refine ⟨[.cont, .cont, .cont], ⟨⟨b'.buf, b'.head, (b'.tail + 1) &&& (2 ^ k - 1), false⟩, .idle⟩, [.put x, .answer (some v)], ?_, .inl ?_⟩
    · simp [run, step, hp]
    · intro c
      have := c.2.1
      simp only [Right, next, if_pos hl] at this
      simp at this
      exact n2 (h2.trans this.symm)
  | cleared v =>
    obtain ⟨h1, h2, h3⟩ := hi
    simp only [May] at hm
    simp only at h1 h2 h3 hm
    obtain ⟨b', hp, g1, g2⟩ := late h1 h2 hm
    refine ⟨[.cont, .cont], ⟨{ b' with tail := (b.tail + 1) &&& (2 ^ k - 1) }, .idle⟩, [.put x, .answer (some v)], ?_, .inr ⟨rfl, g2⟩⟩
    simp [run, step, hp, g1]
  | inc v t =>
    obtain ⟨h1, h2, h3, h4⟩ := hi
    simp only [May] at hm
    simp only at h1 h2 h3 h4 hm
    obtain ⟨b', hp, g1, g2⟩ := late h1 h2 hm
    refine ⟨[.cont], ⟨{ b' with tail := (b.tail + 1) &&& (2 ^ k - 1) }, .idle⟩, [.put x, .answer (some v)], ?_, .inr ⟨rfl, g2⟩⟩
    simp [run, step, hp, h4]

/-- Such moments are met: two places, one item; `get()` has read `full_` as false. -/
example : (∃ s, run (2 ^ 1) (init (2 ^ 1) 0) [.put 1, .get] = .ok (s, [.put 1, .call]) ∧
      ¬ May (2 ^ 1) s.pc (final (2 ^ 1) (⟨[], false, 0⟩ : Abs Nat) [.put 1, .call])) ∧
    Allowed (2 ^ 1) (init (2 ^ 1) 0) ⟨[], false, 0⟩ [.put 1, .get] := by
  refine ⟨⟨_, rfl, show ¬ (1 + 2 ≤ 2 ^ 1) by omega⟩, fun _ _ => trivial, fun s es h => ?_⟩
  cases h
  simp [Allowed]

end CircBufIsr.When
