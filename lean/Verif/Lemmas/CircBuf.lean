import Verif.Model.CircBuf
import Verif.Spec.Queue
namespace CircBuf
open Spec
variable {T : Type}

def Op.toQ : Op T → QOp T
  | .put x => .put x
  | .get => .get
  | .removeFirst => .removeFirst
  | .reset => .reset

/-- the buffer holds exactly the queue `q` -/
structure Rel (N : Nat) (s : St T) (q : List T) : Prop where
  len : s.buf.length = N
  tail : s.tail < N
  head : s.head = (s.tail + q.length) % N
  qlen : q.length ≤ N
  full : s.full = decide (q.length = N)
  el : ∀ i : Nat, i < q.length → s.buf[(s.tail + i) % N]? = q[i]?

theorem Rel.pos {N : Nat} {s : St T} {q : List T} (h : Rel N s q) : 0 < N := by have := h.tail; omega

theorem Rel.init {N : Nat} (hN : 0 < N) (dflt : T) : Rel N (init N dflt) [] := by
  constructor <;> simp [CircBuf.init] <;> omega

theorem Rel.empty {N : Nat} {s : St T} {q : List T} (h : Rel N s q) : empty s = decide (q = []) := by
  have hN := h.pos
  have hq := h.qlen
  have ht := h.tail
  cases q with
  | nil =>
    have : s.head = s.tail := by rw [h.head]; simp [Nat.mod_eq_of_lt ht]
    have hf := h.full
    simp at hf
    simp [CircBuf.empty, this, hf]
    omega
  | cons a q =>
    simp only [reduceCtorEq, decide_false]
    by_cases hc : (a :: q).length = N
    · have hf := h.full
      rw [hc] at hf
      simp at hf
      simp [CircBuf.empty, hf]
    · have : s.head ≠ s.tail := by
        intro he
        have h2 := h.head
        rw [he] at h2
        have h3 : (s.tail + 0) % N = (s.tail + (a :: q).length) % N := by
          rw [← h2]; simp [Nat.mod_eq_of_lt ht]
        have := mod_add_inj hN (by omega) h3
        simp at this
      simp [CircBuf.empty, this]

theorem Rel.count {N : Nat} {s : St T} {q : List T} (h : Rel N s q) : count N s = q.length := by
  have hN := h.pos
  have hq := h.qlen
  have ht := h.tail
  have hh := h.head
  unfold CircBuf.count
  rw [h.full]
  by_cases hc : q.length = N
  · simp [hc]
  · simp only [hc, decide_false, Bool.not_false, if_true]
    by_cases hw : s.tail + q.length < N
    · rw [Nat.mod_eq_of_lt hw] at hh
      rw [if_pos (by omega)]; omega
    · rw [Nat.mod_eq_sub_mod (by omega), Nat.mod_eq_of_lt (by omega)] at hh
      rw [if_neg (by omega)]; omega

theorem Rel.put {k : Nat} {s : St T} {q : List T} (h : Rel (2 ^ k) s q) (x : T) :
    ∃ s', put (2 ^ k) s x = .ok s' ∧ Rel (2 ^ k) s' (qstep (2 ^ k) q (.put x)).1 := by
  have hN := h.pos
  have hq := h.qlen
  have ht := h.tail
  have hh := h.head
  have hl := h.len
  have hf := h.full
  have he := h.el
  obtain ⟨N, hNe⟩ : ∃ N, 2 ^ k = N := ⟨_, rfl⟩
  have hhl : s.head < N := by rw [hh, ← hNe]; exact Nat.mod_lt _ hN
  unfold CircBuf.put
  rw [arrSet_lt (by rw [hl, hNe]; exact hhl)]
  simp only [R.bind_ok, R.pure_eq, incHead, incTail, and_mask]
  rw [hNe] at hN hq ht hh hl hf he ⊢
  refine ⟨_, rfl, ?_⟩
  by_cases hc : q.length = N
  · have hf' : s.full = true := by rw [hf]; simp [hc]
    have h0 : s.head = s.tail := by rw [hh, hc]; simp [Nat.mod_eq_of_lt ht]
    rw [hf']
    simp only [if_true, qstep, hc]
    have hql : q.tail.length = N - 1 := by simp [hc]
    constructor
    · simpa using hl
    · exact Nat.mod_lt _ hN
    · simp only [List.length_append, hql, List.length_singleton, h0]
      rw [show N - 1 + 1 = N by omega]; simp
    · simp; omega
    · simp [h0, hql]; omega
    · intro i hi
      simp only [List.length_append, hql, List.length_singleton] at hi
      simp only [mod_add_mod', Nat.add_assoc]
      by_cases hi2 : i = N - 1
      · subst hi2
        rw [List.getElem?_append_right (by omega), hql, show s.tail + (1 + (N - 1)) = s.tail + N by omega,
          Nat.add_mod_right, Nat.mod_eq_of_lt ht, h0, List.getElem?_set_self (by omega)]
        simp
      · rw [List.getElem?_append_left (by omega), List.getElem?_tail, Nat.add_comm 1 i, ← he (i + 1) (by omega),
          List.getElem?_set_ne]
        intro e
        rw [h0] at e
        have : (s.tail + 0) % N = (s.tail + (i + 1)) % N := by rw [← e]; simp [Nat.mod_eq_of_lt ht]
        have := mod_add_inj hN (by omega) this
        omega
  · have hf' : s.full = false := by rw [hf]; simp [hc]
    rw [hf']
    simp only [Bool.false_eq_true, if_false, qstep, hc]
    constructor
    · simpa using hl
    · exact ht
    · simp [hh, Nat.add_assoc]
    · simp; omega
    · simp only [List.length_append, List.length_singleton, hh, mod_add_mod', Nat.add_assoc]
      by_cases h1 : q.length + 1 = N
      · simp [h1, Nat.mod_eq_of_lt ht]
      · simp only [h1, decide_false, decide_eq_false_iff_not]
        intro e
        have : (s.tail + 0) % N = (s.tail + (q.length + 1)) % N := by rw [e]; simp [Nat.mod_eq_of_lt ht]
        have := mod_add_inj hN (by omega) this
        omega
    · intro i hi
      simp only [List.length_append, List.length_singleton] at hi
      simp only
      by_cases hi2 : i = q.length
      · subst hi2
        rw [← hh, List.getElem?_set_self (by omega), List.getElem?_append_right (by omega)]
        simp
      · rw [List.getElem?_append_left (by omega), ← he i (by omega), List.getElem?_set_ne]
        intro e
        rw [hh] at e
        have := mod_add_inj (by omega) (by omega) e
        omega

theorem Rel.incTail {k : Nat} {s : St T} {a : T} {q : List T} (h : Rel (2 ^ k) s (a :: q)) :
    s.buf[s.tail]? = some a ∧ Rel (2 ^ k) (incTail (2 ^ k) { s with full := false }) q := by
  have hN := h.pos
  have hq := h.qlen
  have ht := h.tail
  have hh := h.head
  have hl := h.len
  have hf := h.full
  have he := h.el
  unfold CircBuf.incTail
  rw [and_mask]
  obtain ⟨N, hNe⟩ : ∃ N, 2 ^ k = N := ⟨_, rfl⟩
  rw [hNe] at hN hq ht hh hl hf he ⊢
  simp only [List.length_cons] at *
  refine ⟨?_, ?_⟩
  · have := he 0 (by omega)
    simpa [Nat.mod_eq_of_lt ht] using this
  · constructor
    · exact hl
    · exact Nat.mod_lt _ hN
    · simp only [hh, mod_add_mod']
      congr 1; omega
    · omega
    · simp; omega
    · intro i hi
      simp only [mod_add_mod', Nat.add_assoc]
      rw [Nat.add_comm 1 i, he (i + 1) (by omega)]
      simp

theorem Rel.getOpt {k : Nat} {s : St T} {q : List T} (h : Rel (2 ^ k) s q) :
    ∃ s', getOpt (2 ^ k) s = .ok (s', q.head?) ∧ Rel (2 ^ k) s' q.tail := by
  unfold CircBuf.getOpt
  rw [h.empty]
  cases q with
  | nil => exact ⟨s, by simp, h⟩
  | cons a q =>
    obtain ⟨h1, h2⟩ := h.incTail
    refine ⟨_, ?_, h2⟩
    simp [arrGet_some h1]

theorem Rel.get {k : Nat} {s : St T} {q : List T} (dflt : T) (h : Rel (2 ^ k) s q) :
    ∃ s', get (2 ^ k) dflt s = .ok (s', q.head?.getD dflt) ∧ Rel (2 ^ k) s' q.tail := by
  unfold CircBuf.get
  rw [h.empty]
  cases q with
  | nil => exact ⟨s, by simp, h⟩
  | cons a q =>
    obtain ⟨h1, h2⟩ := h.incTail
    refine ⟨_, ?_, h2⟩
    simp [arrGet_some h1]

theorem Rel.removeFirst {k : Nat} {s : St T} {q : List T} (h : Rel (2 ^ k) s q) :
    Rel (2 ^ k) (removeFirst (2 ^ k) s) q.tail := by
  unfold CircBuf.removeFirst
  rw [h.empty]
  cases q with
  | nil => simpa using h
  | cons a q => simpa using h.incTail.2

theorem Rel.reset {N : Nat} {s : St T} {q : List T} (h : Rel N s q) : Rel N (reset s) [] := by
  have := h.pos
  constructor <;> simp [CircBuf.reset, h.len, h.tail, Nat.mod_eq_of_lt h.tail]
  omega

theorem Rel.step {k : Nat} {s : St T} {q : List T} (dflt : T) (h : Rel (2 ^ k) s q) (op : Op T) :
    ∃ s', stepOpt (2 ^ k) s op = .ok (s', (qstep (2 ^ k) q op.toQ).2) ∧
      step (2 ^ k) dflt s op = .ok (s', (qstep (2 ^ k) q op.toQ).2.map (·.getD dflt)) ∧
      Rel (2 ^ k) s' (qstep (2 ^ k) q op.toQ).1 := by
  cases op with
  | put x =>
    obtain ⟨s', h1, h2⟩ := h.put x
    exact ⟨s', by simp [stepOpt, h1, qstep, Op.toQ], by simp [CircBuf.step, h1, qstep, Op.toQ], h2⟩
  | get =>
    obtain ⟨s', h1, h2⟩ := h.getOpt
    obtain ⟨s'', h3, _⟩ := h.get dflt
    have : s' = s'' := by
      unfold CircBuf.getOpt at h1; unfold CircBuf.get at h3
      split at h1
      · rename_i hc; rw [if_pos hc] at h3; simp at h1 h3; rw [← h1.1, ← h3.1]
      · rename_i hc; rw [if_neg hc] at h3
        cases hv : arrGet s.buf s.tail with
        | ok v => rw [hv] at h1 h3; simp at h1 h3; rw [← h1.1, ← h3.1]
        | ub => rw [hv] at h1; simp at h1
    subst this
    exact ⟨s', by simp [stepOpt, h1, qstep, Op.toQ], by simp [CircBuf.step, h3, qstep, Op.toQ], h2⟩
  | removeFirst => exact ⟨_, by simp [stepOpt, qstep, Op.toQ], by simp [CircBuf.step, qstep, Op.toQ], h.removeFirst⟩
  | reset => exact ⟨_, by simp [stepOpt, qstep, Op.toQ], by simp [CircBuf.step, qstep, Op.toQ], h.reset⟩

theorem Rel.run {k : Nat} (dflt : T) (ops : List (Op T)) : ∀ {s : St T} {q : List T}, Rel (2 ^ k) s q →
    ∃ s', runOpt (2 ^ k) s ops = .ok (s', (qrun (2 ^ k) q (ops.map Op.toQ)).2) ∧
      run (2 ^ k) dflt s ops = .ok (s', (qrun (2 ^ k) q (ops.map Op.toQ)).2.map (·.getD dflt)) ∧
      Rel (2 ^ k) s' (qrun (2 ^ k) q (ops.map Op.toQ)).1 := by
  induction ops with
  | nil => intro s q h; exact ⟨s, by simp [runOpt, qrun], by simp [CircBuf.run, qrun], h⟩
  | cons op ops ih =>
    intro s q h
    obtain ⟨s1, h1, h2, h3⟩ := h.step dflt op
    obtain ⟨s2, h4, h5, h6⟩ := ih h3
    exact ⟨s2, by simp [runOpt, h1, h4, qrun], by simp [CircBuf.run, h2, h5, qrun], by simpa [qrun] using h6⟩

theorem Rel.peek {bits k : Nat} (hk : k < bits) {s : St T} {q : List T} (h : Rel (2 ^ k) s q) {i : Nat} (hi : i < q.length) :
    peek bits (2 ^ k) s i = .ok q[i] := by
  unfold CircBuf.peek
  rw [and_mask, Nat.mod_mod_of_dvd _ (Nat.pow_dvd_pow 2 (by omega)), Nat.add_comm]
  exact arrGet_some (by rw [h.el i hi]; simp)

/-- alternating put/get on a queue of `d` defaults -/
def alternating (xs : List T) : List (Op T) := xs.flatMap fun x => [.put x, .get]
def alternatingGP (xs : List T) : List (Op T) := xs.flatMap fun x => [.get, .put x]

theorem qrun_alternating {N : Nat} (xs : List T) : ∀ (q : List T), q.length < N →
    (qrun N q ((alternating xs).map Op.toQ)).2 = ((q ++ xs).take xs.length).map some := by
  induction xs with
  | nil => intro q _; simp [alternating, qrun]
  | cons x xs ih =>
    intro q hq
    have : alternating (x :: xs) = .put x :: .get :: alternating xs := rfl
    rw [this]
    have hlen : (q ++ [x]).tail.length < N := by simp; omega
    simp only [List.map_cons, Op.toQ, qrun, qstep]
    rw [if_neg (by omega), ih _ hlen]
    cases q <;> simp

theorem qrun_alternatingGP {N : Nat} (xs : List T) : ∀ (q : List T), 0 < q.length → q.length ≤ N →
    (qrun N q ((alternatingGP xs).map Op.toQ)).2 = ((q ++ xs).take xs.length).map some := by
  induction xs with
  | nil => intro q _ _; simp [alternatingGP, qrun]
  | cons x xs ih =>
    intro q hq hq2
    have : alternatingGP (x :: xs) = .get :: .put x :: alternatingGP xs := rfl
    rw [this]
    simp only [List.map_cons, Op.toQ, qrun, qstep]
    have hl : q.tail.length ≠ N := by simp; omega
    simp only [hl, if_false]
    rw [ih _ (by simp) (by simp; omega)]
    cases q with
    | nil => simp at hq
    | cons a q => simp

theorem Rel.delay {k d : Nat} (hd : d < 2 ^ k) (dflt : T) :
    Rel (2 ^ k) (setHead (CircBuf.init (2 ^ k) dflt) d) (List.replicate d dflt) := by
  constructor
  · simp [setHead, CircBuf.init]
  · simp [setHead, CircBuf.init]; omega
  · simp [setHead, CircBuf.init, Nat.mod_eq_of_lt hd]
  · simp; omega
  · simp [setHead, CircBuf.init]; omega
  · intro i hi
    simp at hi
    have h2 : i < 2 ^ k := by omega
    simp only [setHead, CircBuf.init, Nat.zero_add, Nat.mod_eq_of_lt h2, List.getElem?_replicate, h2, hi, if_true]

end CircBuf
