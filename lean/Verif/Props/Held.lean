import Verif.Lemmas.CircBuf
import Verif.Spec.Held
import Verif.Props.CircStack
import Verif.Lemmas.SpscDelay
import Verif.Model.Pool
import Verif.Model.SeqMap
import Mathlib.Data.List.Rotate
/-! # Property C234: what containers keep of the elements they gave back -/

namespace CircBuf
open Spec
variable {T : Type}

theorem rotate_set {l : List T} {t j : Nat} (hj : j < l.length) (x : T) :
    (l.set ((t + j) % l.length) x).rotate t = (l.rotate t).set j x := by
  apply List.ext_getElem?
  intro i
  by_cases hi : i < l.length
  · rw [List.getElem?_rotate (by simpa using hi), List.length_set]
    by_cases hij : i = j
    · subst hij
      rw [Nat.add_comm t i, List.getElem?_set_self (Nat.mod_lt _ (by omega)), List.getElem?_set_self (by simpa using hi)]
    · rw [List.getElem?_set_ne, List.getElem?_set_ne (fun e => hij e.symm), List.getElem?_rotate hi]
      intro e
      rw [Nat.add_comm i t] at e
      exact hij (mod_add_inj hj hi e).symm
  · rw [List.getElem?_eq_none (by simp; omega), List.getElem?_eq_none (by simp; omega)]

theorem rotate_next {l : List T} {t : Nat} : l.rotate ((t + 1) % l.length) = (l.rotate t).rotate 1 := by
  rw [List.rotate_mod, List.rotate_rotate]

/-- The elements of the specification are the queue of C10. -/
theorem held_queue (N : Nat) (st : List T × List T) (op : Op T) : (Held.step N st op).1 = (qstep N st.1 op.toQ).1 := by
  cases op with
  | put x => simp only [Held.step, qstep, Op.toQ]; split <;> rfl
  | get => rcases st with ⟨_ | ⟨a, q⟩, g⟩ <;> rfl
  | removeFirst => rcases st with ⟨_ | ⟨a, q⟩, g⟩ <;> rfl
  | reset => rfl

def Ring (k : Nat) (s : St T) (st : List T × List T) : Prop :=
  Rel (2 ^ k) s st.1 ∧ s.buf.rotate s.tail = st.1 ++ st.2

theorem Ring.len {k : Nat} {s : St T} {st : List T × List T} (h : Ring k s st) : st.1.length + st.2.length = 2 ^ k := by
  have := congrArg List.length h.2
  simp [h.1.len] at this
  omega

theorem Ring.take1 {k : Nat} {s : St T} {a : T} {q g : List T} (h : Ring k s (a :: q, g)) :
    (incTail (2 ^ k) { s with full := false }).buf.rotate (incTail (2 ^ k) { s with full := false }).tail = q ++ (g ++ [a]) := by
  have h2 := h.2
  simp only [incTail, and_mask]
  rw [← h.1.len, rotate_next, h2]
  simp [List.rotate_cons_succ]

theorem Ring.step {k : Nat} {s : St T} {st : List T × List T} (dflt : T) (h : Ring k s st) (op : Op T) :
    ∃ s', stepOpt (2 ^ k) s op = .ok (s', (qstep (2 ^ k) st.1 op.toQ).2) ∧
      CircBuf.step (2 ^ k) dflt s op = .ok (s', (qstep (2 ^ k) st.1 op.toQ).2.map (·.getD dflt)) ∧
      Ring k s' (Held.step (2 ^ k) st op) := by
  obtain ⟨s', h1, h2, h3⟩ := h.1.step dflt op
  refine ⟨s', h1, h2, ?_, ?_⟩
  · rw [held_queue]; exact h3
  obtain ⟨q, g⟩ := st
  have hlen := h.len
  have hr := h.2
  have hl := h.1.len
  have ht := h.1.tail
  have hh := h.1.head
  have hf := h.1.full
  simp only at hlen hr hh hf
  cases op with
  | put x =>
    have hN : 0 < 2 ^ k := Nat.two_pow_pos k
    have hhl : s.head < s.buf.length := by rw [hh, hl]; exact Nat.mod_lt _ hN
    simp only [stepOpt, CircBuf.put] at h1
    rw [arrSet_lt hhl] at h1
    simp only [R.bind_ok, R.pure_eq, incHead, incTail, and_mask] at h1
    simp only [Held.step]
    by_cases hc : q.length = 2 ^ k
    · rw [if_pos hc]
      have hg : g = [] := List.eq_nil_of_length_eq_zero (by omega)
      have hf' : s.full = true := by rw [hf]; simp [hc]
      have h0 : s.head = s.tail := by rw [hh, hc]; simp [Nat.mod_eq_of_lt ht]
      rw [hf'] at h1
      simp only [if_true] at h1
      injection h1 with h1
      injection h1 with h1 _
      subst h1
      subst hg
      simp only [h0, List.append_nil] at hr ⊢
      cases q with
      | nil => simp at hc; omega
      | cons a q =>
        have e : s.tail = (s.tail + 0) % s.buf.length := by rw [hl]; simp [Nat.mod_eq_of_lt ht]
        have e2 : 2 ^ k = (s.buf.set s.tail x).length := by simp [hl]
        rw [e2, rotate_next]
        nth_rewrite 1 [e]
        rw [rotate_set (by omega), hr]
        simp [List.rotate_cons_succ]
    · rw [if_neg hc]
      have hf' : s.full = false := by rw [hf]; simp [hc]
      rw [hf'] at h1
      simp only [Bool.false_eq_true, if_false] at h1
      injection h1 with h1
      injection h1 with h1 _
      subst h1
      simp only
      rw [hh, ← hl, rotate_set (by rw [hl]; have := h.1.qlen; simp only at this; omega), hr]
      cases g with
      | nil => simp at hlen; omega
      | cons b g => rw [List.set_append_right _ _ (Nat.le_refl _)]; simp
  | get =>
    cases q with
    | nil =>
      simp only [stepOpt, CircBuf.getOpt, h.1.empty] at h1
      simp at h1
      rw [← h1.1]
      simpa [Held.step] using hr
    | cons a q =>
      obtain ⟨e1, _⟩ := h.1.incTail
      simp only [stepOpt, CircBuf.getOpt, h.1.empty] at h1
      simp [arrGet_some e1] at h1
      rw [← h1.1]
      exact h.take1
  | removeFirst =>
    cases q with
    | nil =>
      simp only [stepOpt, CircBuf.removeFirst, h.1.empty] at h1
      simp at h1
      rw [← h1.1]
      simpa [Held.step] using hr
    | cons a q =>
      simp only [stepOpt, CircBuf.removeFirst, h.1.empty] at h1
      simp at h1
      rw [← h1.1]
      exact h.take1
  | reset =>
    simp only [stepOpt] at h1
    simp at h1
    rw [← h1.1]
    simpa [Held.step, reset] using hr

theorem Ring.run {k : Nat} (dflt : T) (ops : List (Op T)) : ∀ {s : St T} {st : List T × List T}, Ring k s st →
    ∃ s' os, runOpt (2 ^ k) s ops = .ok (s', os) ∧ CircBuf.run (2 ^ k) dflt s ops = .ok (s', os.map (·.getD dflt)) ∧
      Ring k s' (Held.run (2 ^ k) st ops) := by
  induction ops with
  | nil => intro s st h; exact ⟨s, [], rfl, rfl, h⟩
  | cons op ops ih =>
    intro s st h
    obtain ⟨s1, h1, h2, h3⟩ := h.step dflt op
    obtain ⟨s2, os, h4, h5, h6⟩ := ih h3
    exact ⟨s2, _, by simp only [runOpt, h1, R.bind_ok, h4]; rfl, by simp [CircBuf.run, h2, h5], h6⟩

theorem Ring.init (k : Nat) (dflt : T) : Ring k (init (2 ^ k) dflt) ([], List.replicate (2 ^ k) dflt) :=
  ⟨Rel.init (Nat.two_pow_pos k) dflt, by simp [CircBuf.init]⟩

/-- **C234 (exact)**: after every sequence of calls on either circular buffer, the objects in its storage are the elements
and the left-overs of the specification, each exactly once; and `peek(i)` returns the element, or behind the last element the left-over, at position `i`. -/
theorem C234_buffer_exact (bits k : Nat) (hk : k < bits) (dflt : T) (ops : List (Op T)) (q g : List T)
    (h : Held.run (2 ^ k) ([], List.replicate (2 ^ k) dflt) ops = (q, g)) :
    ∃ s os, runOpt (2 ^ k) (init (2 ^ k) dflt) ops = .ok (s, os) ∧
      run (2 ^ k) dflt (init (2 ^ k) dflt) ops = .ok (s, os.map (·.getD dflt)) ∧
      s.buf.Perm (q ++ g) ∧ count (2 ^ k) s = q.length ∧
      ∀ (i : Nat) (x : T), (q ++ g)[i]? = some x → peek bits (2 ^ k) s i = .ok x := by
  obtain ⟨s, os, h1, h2, h3⟩ := (Ring.init k dflt).run dflt ops
  rw [h] at h3
  refine ⟨s, os, h1, h2, ?_, h3.1.count, ?_⟩
  · rw [← h3.2]; exact (List.rotate_perm _ _).symm
  · intro i x hi
    have hl := h3.1.len
    have hi' : i < s.buf.length := by
      have := (List.getElem?_eq_some_iff.1 hi).1
      rw [← h3.2] at this
      simpa using this
    rw [← h3.2, List.getElem?_rotate hi'] at hi
    unfold CircBuf.peek
    rw [and_mask, Nat.mod_mod_of_dvd _ (Nat.pow_dvd_pow 2 (by omega))]
    exact arrGet_some (by rw [← hl]; exact hi)

example := C234_buffer_exact 32 2 (by decide) 0 [.put 1, .put 2, .get, .put 3, .reset, .put 4] [4] [3, 0, 1] (by decide)

theorem puts_append (a b : List (Op T)) : Held.puts (a ++ b) = Held.puts a ++ Held.puts b := by
  induction a with
  | nil => rfl
  | cons op a ih => cases op <;> simp [Held.puts, ih]

theorem last_push {l : List T} {N : Nat} (hN : 0 < N) (hl : N ≤ l.length) (x : T) :
    Held.last N (l ++ [x]) = (Held.last N l).tail ++ [x] := by
  simp only [Held.last, List.length_append, List.length_singleton, List.tail_drop]
  rw [List.drop_append, show l.length + 1 - N = l.length - N + 1 by omega,
    show l.length - N + 1 - l.length = 0 by omega, List.drop_zero]

theorem held_last {N : Nat} (hN : 0 < N) (ops : List (Op T)) : ∀ (st : List T × List T) (l : List T), (∀ o ∈ ops, o ≠ .reset) → N ≤ l.length →
    st.2 ++ st.1 = Held.last N l →
    (Held.run N st ops).2 ++ (Held.run N st ops).1 = Held.last N (l ++ Held.puts ops) := by
  induction ops with
  | nil => intro st l _ _ h; simpa [Held.run, Held.puts] using h
  | cons op ops ih =>
    intro st l hr hl h
    have hlen : st.2.length + st.1.length = N := by
      have := congrArg List.length h
      simp [Held.last] at this
      omega
    have hr' : ∀ o ∈ ops, o ≠ .reset := fun o ho => hr o (by simp [ho])
    cases op with
    | put x =>
      simp only [Held.run, Held.puts]
      rw [show l ++ x :: Held.puts ops = (l ++ [x]) ++ Held.puts ops by simp]
      refine ih _ _ hr' (by simp; omega) ?_
      rw [last_push hN hl, ← h]
      simp only [Held.step]
      by_cases hc : st.1.length = N
      · have : st.2 = [] := List.eq_nil_of_length_eq_zero (by omega)
        rw [if_pos hc]
        simp [this]
      · rw [if_neg hc]
        cases hg : st.2 with
        | nil => rw [hg] at hlen; simp at hlen; exact absurd hlen hc
        | cons b g => simp
    | get =>
      refine ih _ _ hr' hl ?_
      rw [← h]
      rcases st with ⟨_ | ⟨a, q⟩, g⟩ <;> simp [Held.step]
    | removeFirst =>
      refine ih _ _ hr' hl ?_
      rw [← h]
      rcases st with ⟨_ | ⟨a, q⟩, g⟩ <;> simp [Held.step]
    | reset => exact absurd rfl (hr _ (by simp))

/-- **C234 (partial)**: without `reset()`, what a circular buffer holds is exactly the last `2^k` items put (before that, the
initial values): whatever has been taken out, an item stays until `2^k` later ones have been put, and goes then. -/
theorem C234_buffer_last_partial (k : Nat) (dflt : T) (ops : List (Op T)) (hr : ∀ o ∈ ops, o ≠ .reset) :
    ∃ s os, runOpt (2 ^ k) (init (2 ^ k) dflt) ops = .ok (s, os) ∧
      run (2 ^ k) dflt (init (2 ^ k) dflt) ops = .ok (s, os.map (·.getD dflt)) ∧
      s.buf.Perm (Held.last (2 ^ k) (List.replicate (2 ^ k) dflt ++ Held.puts ops)) := by
  obtain ⟨s, os, h1, h2, h3⟩ := (Ring.init k dflt).run dflt ops
  refine ⟨s, os, h1, h2, ?_⟩
  have := held_last (Nat.two_pow_pos k) ops ([], List.replicate (2 ^ k) dflt) (List.replicate (2 ^ k) dflt) hr (by simp)
    (by simp [Held.last])
  rw [← this]
  have h4 : s.buf.Perm ((Held.run (2 ^ k) ([], List.replicate (2 ^ k) dflt) ops).1 ++ (Held.run (2 ^ k) ([], List.replicate (2 ^ k) dflt) ops).2) := by
    rw [← h3.2]; exact (List.rotate_perm _ _).symm
  exact h4.trans List.perm_append_comm

example := C234_buffer_last_partial 1 0 [.put 1, .get, .put 2, .get, .put 3] (by decide)

theorem held_run_append (N : Nat) (a b : List (Op T)) : ∀ st : List T × List T, Held.run N st (a ++ b) = Held.run N (Held.run N st a) b := by
  induction a with
  | nil => intro st; rfl
  | cons op a ih => intro st; exact ih _

theorem held_loop {N : Nat} (hN : N ≠ 0) (c y : T) (n : Nat) : ∀ (x : T) (r : List T),
    Held.run N ([], x :: (r ++ [y])) (List.replicate n [Op.put c, Op.reset]).flatten = ([], (if n = 0 then x else c) :: (r ++ [y])) := by
  induction n with
  | zero => intro x r; rfl
  | succ n ih =>
    intro x r
    rw [List.replicate_succ, List.flatten_cons, held_run_append]
    have : Held.run N ([], x :: (r ++ [y])) [Op.put c, Op.reset] = ([], c :: (r ++ [y])) := by
      simp [Held.run, Held.step, Ne.symm hN]
    rw [this, ih]
    simp

/-- **C234 (violated)**: an item that has been taken out is still held; and if each later item is discarded by `reset()` it is held
for ever, however many items are put. -/
theorem C234_buffer_violated (k : Nat) (hk : 0 < k) (dflt a c : T) (n : Nat) :
    ∃ s os, runOpt (2 ^ k) (init (2 ^ k) dflt) ([.put a, .get] ++ (List.replicate n [.put c, .reset]).flatten) = .ok (s, some a :: os) ∧
      empty s = true ∧ a ∈ s.buf := by
  obtain ⟨s, os, h1, h2, h3⟩ := (Ring.init k dflt).run dflt ([.put a, .get] ++ (List.replicate n [.put c, .reset]).flatten)
  have h4 : 2 ≤ 2 ^ k := by
    calc 2 = 2 ^ 1 := rfl
      _ ≤ 2 ^ k := Nat.pow_le_pow_right (by decide) hk
  obtain ⟨m, hm⟩ : ∃ m, 2 ^ k = m + 2 := ⟨2 ^ k - 2, by omega⟩
  have h5 : Held.run (2 ^ k) ([], List.replicate (2 ^ k) dflt) [.put a, .get] = ([], dflt :: (List.replicate m dflt ++ [a])) := by
    rw [hm]
    simp [Held.run, Held.step, List.replicate_succ]
  rw [held_run_append, h5, held_loop (by omega)] at h3
  obtain ⟨os', ho⟩ : ∃ os', os = some a :: os' := by
    obtain ⟨s1, g1, g2, g3⟩ := (Ring.init k dflt).step dflt (.put a)
    obtain ⟨s2, g4, g5, g6⟩ := g3.step dflt .get
    obtain ⟨s3, os3, g7, _, _⟩ := g6.run dflt (List.replicate n [.put c, .reset]).flatten
    have he : (Held.step (2 ^ k) ([], List.replicate (2 ^ k) dflt) (.put a)).1 = [a] := by
      have : ¬ (0 = 2 ^ k) := by omega
      simp [Held.step, this]
    rw [he] at g4
    simp only [List.cons_append, List.nil_append, runOpt, g1, R.bind_ok, g4, g7] at h1
    injection h1 with h1
    injection h1 with _ h1
    exact ⟨os3, by rw [← h1]; simp [qstep, Op.toQ]⟩
  refine ⟨s, os', by rw [h1, ho], ?_, ?_⟩
  · rw [h3.1.empty]; rfl
  · have : a ∈ s.buf.rotate s.tail := by rw [h3.2]; simp
    simpa using this

example := C234_buffer_violated 1 (by decide) 0 7 9 1000

end CircBuf

namespace CircStack
variable {T : Type}
open CircBuf (rotate_set rotate_next)

theorem held_stack (M : Nat) (dflt : T) (st : Held.Ring T) (op : Op T) : (Held.step M st op).q = (Spec.step M dflt st.q op).1 := by
  cases op with
  | push x => simp only [Held.step, Spec.step]; split <;> rfl
  | pop =>
    simp only [Held.step, Spec.step]
    cases h : st.q.getLast? with
    | none => rw [List.getLast?_eq_none_iff] at h; simp [h]
    | some x => rfl
  | popOrZero =>
    simp only [Held.step, Spec.step]
    cases h : st.q.getLast? with
    | none => rw [List.getLast?_eq_none_iff] at h; simp [h]
    | some x => rfl
  | _ => rfl

def RRel (M : Nat) (s : St T) (st : Held.Ring T) : Prop :=
  Rel M s st.q ∧ s.data.rotate s.bottom = st.q ++ st.g ∧ s.bottom = st.start

theorem RRel.len {M : Nat} {s : St T} {st : Held.Ring T} (h : RRel M s st) : st.q.length + st.g.length = M := by
  have := congrArg List.length h.2.1
  simp [h.1.len] at this
  omega

/-- What a call does to the array and the place of the bottom. -/
theorem step_storage {M : Nat} {dflt : T} {s s' : St T} {os : List (Out T)} {op : Op T} (hn : ∀ x, op ≠ .push x) (h : step M dflt s op = .ok (s', os)) :
    s'.data = s.data ∧ (op = .clear → s'.bottom = 0) ∧ (op ≠ .clear → s'.bottom = s.bottom) := by
  cases op with
  | push x => exact absurd rfl (hn x)
  | pop =>
    simp only [step, popBack] at h
    split at h
    · simp at h; rw [← h.1]; simp
    · simp only [R.pure_eq] at h
      cases hv : arrGet s.data (if s.top = 0 then M - 1 else s.top - 1) with
      | ok v => rw [hv] at h; simp at h; rw [← h.1]; simp
      | ub => rw [hv] at h; simp at h
  | popOrZero =>
    simp only [step, popBackOrZero] at h
    split at h
    · simp at h; rw [← h.1]; simp
    · simp only [R.pure_eq] at h
      cases hv : arrGet s.data (if s.top = 0 then M - 1 else s.top - 1) with
      | ok v => rw [hv] at h; simp at h; rw [← h.1]; simp
      | ub => rw [hv] at h; simp at h
  | back =>
    simp only [step, back] at h
    split at h
    · simp at h; rw [← h.1]; simp
    · simp only [R.pure_eq] at h
      cases hv : arrGet s.data (if s.top = 0 then M - 1 else s.top - 1) with
      | ok v => rw [hv] at h; simp at h; rw [← h.1]; simp
      | ub => rw [hv] at h; simp at h
  | clear => simp [step, clear] at h; rw [← h.1]; simp
  | size => simp [step] at h; rw [← h.1]; simp
  | empty => simp [step] at h; rw [← h.1]; simp

theorem dropLast_getLast {q g : List T} {x : T} (h : q.getLast? = some x) : q.dropLast ++ x :: g = q ++ g := by
  rw [List.getLast?_eq_some_iff] at h
  obtain ⟨ys, rfl⟩ := h
  simp

theorem RRel.step {M : Nat} {s : St T} {st : Held.Ring T} (dflt : T) (h : RRel M s st) (op : Op T) :
    ∃ s', CircStack.step M dflt s op = .ok (s', (Spec.step M dflt st.q op).2) ∧ RRel M s' (Held.step M st op) := by
  obtain ⟨s', h1, h2⟩ := h.1.step dflt op
  refine ⟨s', h1, by rw [held_stack M dflt]; exact h2, ?_⟩
  have hlen := h.len
  obtain ⟨hR, hr, hb⟩ := h
  have hl := hR.len; have hbt := hR.bot; have ht := hR.top; have hf := hR.full; have hq := hR.qlen
  have other : ∀ (st' : Held.Ring T), (∀ x, op ≠ .push x) → op ≠ .clear → st'.q ++ st'.g = st.q ++ st.g → st'.start = st.start →
      s'.data.rotate s'.bottom = st'.q ++ st'.g ∧ s'.bottom = st'.start := by
    intro st' n1 n2 e1 e2
    obtain ⟨a1, -, a2⟩ := step_storage n1 h1
    rw [a1, a2 n2, e1, e2]
    exact ⟨hr, hb⟩
  cases op with
  | push x =>
    have htl : s.top < s.data.length := by rw [ht, hl]; exact Nat.mod_lt _ (by omega)
    simp only [CircStack.step, pushBack] at h1
    rw [arrSet_lt htl] at h1
    simp only [R.bind_ok, R.pure_eq] at h1
    have hnext : (if s.top + 1 ≥ M then 0 else s.top + 1) = (s.top + 1) % M := by
      split
      · rw [show s.top + 1 = M by omega]; simp
      · rw [Nat.mod_eq_of_lt (by omega)]
    rw [hnext] at h1
    injection h1 with h1
    injection h1 with h1 _
    subst h1
    simp only [Held.step]
    by_cases hc : st.q.length = M
    · have hg : st.g = [] := List.eq_nil_of_length_eq_zero (by omega)
      have hf' : s.full = true := by rw [hf]; simp [hc]
      have h0 : s.top = s.bottom := by rw [ht, hc]; simp [Nat.mod_eq_of_lt hbt]
      rw [if_pos hc]
      simp only [hf', if_true, h0]
      refine ⟨?_, by rw [hb]⟩
      rw [hg, List.append_nil] at hr ⊢
      have e : s.bottom = (s.bottom + 0) % s.data.length := by rw [hl]; simp [Nat.mod_eq_of_lt hbt]
      have e2 : M = (s.data.set s.bottom x).length := by simp [hl]
      rw [show (s.bottom + 1) % M = (s.bottom + 1) % (s.data.set s.bottom x).length by rw [← e2]]
      rw [rotate_next]
      nth_rewrite 1 [e]
      rw [rotate_set (by omega), hr]
      cases hq' : st.q with
      | nil => rw [hq'] at hc; simp at hc; omega
      | cons a q => simp [List.rotate_cons_succ]
    · have hf' : s.full = false := by rw [hf]; simp [hc]
      rw [if_neg hc]
      simp only [hf', Bool.false_eq_true, if_false]
      refine ⟨?_, hb⟩
      rw [ht, ← hl, rotate_set (by omega), hr]
      cases hg : st.g with
      | nil => rw [hg] at hlen; simp at hlen; exact absurd hlen hc
      | cons b g => rw [List.set_append_right _ _ (Nat.le_refl _)]; simp
  | pop =>
    simp only [Held.step]
    cases hx : st.q.getLast? with
    | none => exact other st (by simp) (by simp) rfl rfl
    | some x => exact other _ (by simp) (by simp) (dropLast_getLast hx) rfl
  | popOrZero =>
    simp only [Held.step]
    cases hx : st.q.getLast? with
    | none => exact other st (by simp) (by simp) rfl rfl
    | some x => exact other _ (by simp) (by simp) (dropLast_getLast hx) rfl
  | clear =>
    obtain ⟨a1, a2, -⟩ := step_storage (by simp) h1
    rw [a1, a2 rfl]
    refine ⟨?_, rfl⟩
    simp only [Held.step, List.rotate_zero, List.nil_append]
    rw [← hr, ← List.rotate_eq_drop_append_take (by simp; omega), List.rotate_rotate, ← hb, ← hl,
      show s.bottom + (s.data.length - s.bottom) = s.data.length by omega, List.rotate_length]
  | back => exact other _ (by simp) (by simp) rfl rfl
  | size => exact other _ (by simp) (by simp) rfl rfl
  | empty => exact other _ (by simp) (by simp) rfl rfl

theorem RRel.run {M : Nat} (dflt : T) (ops : List (Op T)) : ∀ {s : St T} {st : Held.Ring T}, RRel M s st →
    ∃ s' os, CircStack.run M dflt s ops = .ok (s', os) ∧ RRel M s' (Held.run M st ops) := by
  induction ops with
  | nil => intro s st h; exact ⟨s, [], rfl, h⟩
  | cons op ops ih =>
    intro s st h
    obtain ⟨s1, h1, h2⟩ := h.step dflt op
    obtain ⟨s2, os, h4, h6⟩ := ih h2
    exact ⟨s2, _, by simp only [CircStack.run, h1, R.bind_ok, h4]; rfl, h6⟩

/-- **C234 (exact)**: after every sequence of calls on a circular stack, the objects in its storage are the elements and the left-overs of the
specification, each exactly once. -/
theorem C234_stack_exact (M : Nat) (hM : 0 < M) (dflt : T) (garbage : List T) (hg : garbage.length = M) (ops : List (Op T)) :
    ∃ s os, run M dflt (init garbage) ops = .ok (s, os) ∧ size M s = (Held.run M ⟨[], garbage, 0⟩ ops).q.length ∧
      s.data.Perm ((Held.run M ⟨[], garbage, 0⟩ ops).q ++ (Held.run M ⟨[], garbage, 0⟩ ops).g) := by
  have h0 : RRel M (init garbage) ⟨[], garbage, 0⟩ := by
    refine ⟨?_, by simp [init], rfl⟩
    constructor <;> simp [init, hg] <;> omega
  obtain ⟨s, os, h1, h2⟩ := h0.run dflt ops
  exact ⟨s, os, h1, h2.1.size, by rw [← h2.2.1]; exact (List.rotate_perm _ _).symm⟩

example := C234_stack_exact 3 (by decide) 0 [10, 11, 12] rfl [.push 1, .push 2, .push 3, .push 4, .pop, .clear, .push 5]
example : (Held.run 3 (⟨[], [10, 11, 12], 0⟩ : Held.Ring Nat) [.push 1, .push 2, .push 3, .push 4, .pop, .clear, .push 5]).g = [2, 3] := by decide

/-- **C234 (violated)**: a popped element is still held, whatever happened before, and so is every element after `clear()`; the next
`push_back` after a `pop_back` is what replaces it. -/
theorem C234_stack_violated (M : Nat) (hM : 0 < M) (dflt : T) (garbage : List T) (hg : garbage.length = M) (ops : List (Op T)) (s s' : St T)
    (os : List (Out T)) (x y : T) (h : run M dflt (init garbage) ops = .ok (s, os)) (hp : popBack M s = .ok (s', some x)) :
    s'.data = s.data ∧ x ∈ s'.data ∧ (clear s).data = s.data ∧
      ∃ i s'', s.data[i]? = some x ∧ pushBack M s' y = .ok s'' ∧ s''.data = s.data.set i y := by
  have h0 : RRel M (init garbage) ⟨[], garbage, 0⟩ := by
    refine ⟨?_, by simp [init], rfl⟩
    constructor <;> simp [init, hg] <;> omega
  obtain ⟨s1, os1, h1, h2⟩ := h0.run dflt ops
  rw [h] at h1
  injection h1 with h1
  injection h1 with h1 _
  subst h1
  have hR := h2.1
  have hs := hR.size
  have htop : (if s.top = 0 then M - 1 else s.top - 1) < M := by
    have := hR.top
    have : s.top < M := by rw [this]; exact Nat.mod_lt _ hM
    split <;> omega
  simp only [popBack] at hp
  split at hp
  · simp at hp
  · next hne =>
    simp only [R.pure_eq] at hp
    cases hv : arrGet s.data (if s.top = 0 then M - 1 else s.top - 1) with
    | ub => rw [hv] at hp; simp at hp
    | ok v =>
      rw [hv] at hp
      simp at hp
      obtain ⟨e1, e2⟩ := hp
      subst e2
      have hgx : s.data[if s.top = 0 then M - 1 else s.top - 1]? = some v := by
        unfold arrGet at hv
        split at hv <;> simp_all
      rw [← e1]
      have hpush : ∃ s'', pushBack M ⟨s.data, (if s.top = 0 then M - 1 else s.top - 1), s.bottom, false⟩ y = .ok s'' ∧
          s''.data = s.data.set (if s.top = 0 then M - 1 else s.top - 1) y := by
        simp only [pushBack]
        rw [arrSet_lt (by rw [hR.len]; exact htop)]
        exact ⟨_, rfl, rfl⟩
      obtain ⟨s'', p1, p2⟩ := hpush
      exact ⟨rfl, List.mem_of_getElem? hgx, rfl, _, s'', hgx, p1, p2⟩

example : ∃ s s', run 2 0 (init [8, 9]) [.push 1, .push 2, .push 3] = .ok (s, []) ∧ popBack 2 s = .ok (s', some 3) := ⟨_, _, rfl, rfl⟩

end CircStack

namespace Spsc
open Spsc.Spec
variable {T : Type} {w : Nat}

theorem perm_of_ring {b l : List T} {n m : Nat} (hb : b.length = n) (hl : l.length = n) (h : ∀ i : Nat, i < n → b[(m + i) % n]? = l[i]?) : b.Perm l := by
  have : l = b.rotate m := by
    apply List.ext_getElem?
    intro i
    by_cases hi : i < n
    · rw [List.getElem?_rotate (by omega), ← h i hi, hb, Nat.add_comm]
    · rw [List.getElem?_eq_none (by omega), List.getElem?_eq_none (by simp; omega)]
  rw [this]
  exact (List.rotate_perm _ _).symm

theorem fifo_Keep {w k : Nat} (hk : k < w) (dflt : T) (mv : T → T) (as : List (Act T)) (ha : NoProducerReset as) (hm : ∀ a ∈ as, a ≠ .cCall .getMove) :
    (run (fixedCfg w k) dflt mv (init w (2 ^ k) dflt 0) as).1.buf.length = 2 ^ k ∧
    Keep (2 ^ k) (accepted (run (fixedCfg w k) dflt mv (init w (2 ^ k) dflt 0) as).2) (run (fixedCfg w k) dflt mv (init w (2 ^ k) dflt 0) as).1 := by
  have hI := run_Inv (fixedCfg w k) (fixed_cap_lt hk) dflt mv (tr := []) as ha (fixed_IdxOk hk _) (init_Inv dflt 0 (by omega))
  have hK := run_Keep (fixedCfg w k) (fixed_cap_lt hk) dflt mv (tr := []) as ha hm (fixed_IdxOk hk _)
    (init_Inv dflt 0 (by omega)) (by simp [notMove, init]) (init_Keep (2 ^ k) dflt 0)
  simp only [List.replicate_zero, List.nil_append] at hI hK
  exact ⟨hI.buflen, hK⟩

/-- **C234 (partial)**: whenever the producer is not inside a call, under every schedule of copying calls, the FIFO holds each of the last `2^k` items
accepted, whatever the consumer has taken; and once that many have been accepted it holds them exactly once each, and nothing else. -/
theorem C234_fifo_partial {w k : Nat} (hk : k < w) (dflt : T) (mv : T → T) (as : List (Act T)) (ha : NoProducerReset as)
    (hm : ∀ a ∈ as, a ≠ .cCall .getMove) (s : St w T) (es : List (Ev T))
    (hs : run (fixedCfg w k) dflt mv (init w (2 ^ k) dflt 0) as = (s, es)) (hp : s.ppc = .idle) :
    (∀ x ∈ CircBuf.Held.last (2 ^ k) (accepted es), x ∈ s.buf) ∧
    (2 ^ k ≤ (accepted es).length → s.buf.Perm (CircBuf.Held.last (2 ^ k) (accepted es))) := by
  obtain ⟨hl, hK⟩ := fifo_Keep hk dflt mv as ha hm
  rw [hs] at hl hK
  simp only at hl hK
  have key : ∀ i : Nat, i < (accepted es).length → (accepted es).length ≤ i + 2 ^ k → s.buf[i % 2 ^ k]? = (accepted es)[i]? := by
    intro i h1 h2
    exact hK i h1 (by rw [hp]; simpa [isPut3] using h2)
  refine ⟨?_, ?_⟩
  · intro x hx
    obtain ⟨j, hj⟩ := List.getElem?_of_mem hx
    rw [CircBuf.Held.last, List.getElem?_drop] at hj
    have hlt := (List.getElem?_eq_some_iff.1 hj).1
    rw [← key _ hlt (by omega)] at hj
    exact List.mem_of_getElem? hj
  · intro hn
    refine perm_of_ring (m := (accepted es).length - 2 ^ k) hl (by simp [CircBuf.Held.last]; omega) ?_
    intro i hi
    rw [CircBuf.Held.last, List.getElem?_drop]
    exact key _ (by omega) (by omega)

example : ∃ s, run (fixedCfg 32 1) 0 id (init 32 2 0 0) (putActs 5 ++ getActs ++ putActs 6 ++ getActs ++ putActs 7) =
    (s, [.putRet 5 true, .getRet (some 5), .putRet 6 true, .getRet (some 6), .putRet 7 true]) ∧ s.ppc = .idle ∧ s.buf = [7, 6] :=
  ⟨_, rfl, rfl, by decide⟩

/-- **C234**: an item taken with `get_move` is not kept: its place holds what moving leaves behind. -/
theorem C234_fifo_get_move (cfg : Cfg w) (dflt : T) (mv : T → T) (s s' : St w T) (x : T) (hc : s.cpc = .idle)
    (h : run cfg dflt mv s (.cCall .getMove :: List.replicate 4 (.cStep true)) = (s', [.getRet (some x)])) :
    ∃ i : Nat, s.buf[i]? = some x ∧ s'.buf = s.buf.set i (mv x) := by
  simp only [List.replicate, run, step, callC, hc, stepC, List.nil_append] at h
  by_cases he : s.tail = s.head
  · simp [he, stepC] at h
  · simp only [he, if_false] at h
    cases hb : s.buf[cfg.idx s.tail]? with
    | none => simp [hb] at h
    | some y =>
      simp [hb] at h
      exact ⟨cfg.idx s.tail, by rw [hb, h.2], by rw [← h.1, h.2]⟩

example : ∃ s', run (fixedCfg 32 1) 0 (fun _ => 0) (run (fixedCfg 32 1) 0 (fun _ => 0) (init 32 2 0 0) (putActs 5)).1
    (.cCall .getMove :: List.replicate 4 (.cStep true)) = (s', [.getRet (some 5)]) ∧ s'.buf = [0, 0] := ⟨_, rfl, by decide⟩

/-- **C234 (violated)**: after `put(a)` and a `get()` that returns it, the FIFO still holds `a`. -/
theorem C234_fifo_violated {w k : Nat} (hk : k < w) (dflt a : T) (mv : T → T) :
    ∃ s, run (fixedCfg w k) dflt mv (init w (2 ^ k) dflt 0) (putActs a ++ getActs) = (s, [.putRet a true, .getRet (some a)]) ∧ a ∈ s.buf := by
  have hpos : 0 < (fixedCfg w k).cap := Nat.two_pow_pos k
  have hI : Inv (fixedCfg w k).cap [] [] (init w (2 ^ k) dflt 0) := init_Inv dflt 0 (by omega)
  obtain ⟨p1, p2, p3⟩ := seq_put (fixed_cap_lt hk) (dflt := dflt) (mv := mv) a hI rfl (fixed_IdxOk hk _) (by simpa [content, accepted, taken] using hpos)
  have hI1 := run_Inv (fixedCfg w k) (fixed_cap_lt hk) dflt mv (tr := []) (putActs a) (noReset_putActs a) (fixed_IdxOk hk _) hI
  rw [p1] at hI1
  simp only [List.nil_append] at hI1
  obtain ⟨x, g1, g2, _, g3⟩ := seq_get (fixed_cap_lt hk) (dflt := dflt) (mv := mv) hI1 (by rw [p3]; rfl) (fixed_IdxOk hk _)
    (by simp [content, accepted, taken])
  have hxa : x = a := by simpa [content, accepted, taken] using g1.symm
  subst hxa
  have he : run (fixedCfg w k) dflt mv (init w (2 ^ k) dflt 0) (putActs x ++ getActs) =
      ((run (fixedCfg w k) dflt mv (run (fixedCfg w k) dflt mv (init w (2 ^ k) dflt 0) (putActs x)).1 getActs).1, [.putRet x true, .getRet (some x)]) := by
    rw [run_append, p1, g2]
    rfl
  refine ⟨_, he, ?_⟩
  have := (C234_fifo_partial hk dflt mv (putActs x ++ getActs) (NoProducerReset.append (noReset_putActs x) noReset_getActs) (by simp [putActs, getActs]) _ _ he
    (by rw [g3, p2])).1
  apply this x
  have h1 : 1 - 2 ^ k = 0 := by have := Nat.two_pow_pos k; omega
  simp [CircBuf.Held.last, accepted, h1]

example := C234_fifo_violated (w := 32) (k := 3) (by decide) 0 7 id

end Spsc

namespace Pool
variable {T : Type}

theorem destroyLoop_data (item : Nat) (l : List (Entry T)) : ∀ i, (destroyLoop item l i).1.map (·.data) = l.map (·.data) := by
  induction l with
  | nil => intro i; rfl
  | cons en l ih =>
    intro i
    simp only [destroyLoop]
    split
    · rfl
    · simp [ih]

/-- **C234 (violated)**: `destroy` of a pool destroys nothing: every object keeps its value until the entry is created again. -/
theorem C234_pool_violated (entries : List (Entry T)) (item : Nat) : (destroy entries item).1.map (·.data) = entries.map (·.data) :=
  destroyLoop_data item entries 0

example : destroy [⟨7, true⟩] 0 = ([⟨7, false⟩], true) := by decide

end Pool

namespace SeqMap
variable {K V : Type} [DecidableEq K]

/-- **C234**: `remove` of a `SeqMap` gives the element up: key and value are replaced by default ones. -/
theorem C234_map_remove (k0 : K) (v0 : V) (s s' : St K V) (key : K) (h : remove k0 v0 s key = .ok (s', true)) :
    ∃ i : Nat, i < s.sz ∧ s.keys[i]? = some key ∧ s'.keys = s.keys.set i k0 ∧ s'.vals = s.vals.set i v0 := by
  unfold remove at h
  cases hs : scan s key with
  | none => rw [hs] at h; simp at h
  | some i =>
    rw [hs] at h
    simp only at h
    have hs' := hs
    unfold scan at hs'
    rw [List.findIdx?_eq_some_iff_getElem] at hs'
    obtain ⟨h1, h2, _⟩ := hs'
    simp at h1 h2
    by_cases hv : i < s.vals.length
    · rw [arrSet_lt (by omega), arrSet_lt hv] at h
      simp at h
      refine ⟨i, by omega, ?_, by rw [← h], by rw [← h]⟩
      rw [List.getElem?_eq_getElem (by omega), h2]
    · rw [arrSet_lt (by omega)] at h
      simp [arrSet, hv] at h

example : remove 0 0 (⟨[5, 6], [50, 60], 2, 0⟩ : St Nat Nat) 6 = .ok (⟨[5, 0], [50, 0], 2, 0⟩, true) := by decide

omit [DecidableEq K] in
/-- **C234 (violated)**: `remove_last` gives nothing up. -/
theorem C234_map_remove_last_violated (s : St K V) : (removeLast s).keys = s.keys ∧ (removeLast s).vals = s.vals := by
  unfold removeLast
  split <;> exact ⟨rfl, rfl⟩

end SeqMap
