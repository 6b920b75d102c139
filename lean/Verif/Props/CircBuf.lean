import Verif.Lemmas.CircBuf
/-! # Properties C10–C13: CircularBuffer and CircularBufferOpt -/
namespace CircBuf
open Spec
variable {T : Type}

/-- **C10** for CircularBufferOpt: from construction, any sequence of calls runs without out-of-bounds access and hands
out exactly what the bounded drop-oldest queue hands out. -/
theorem C10_opt_is_bounded_queue (k : Nat) (dflt : T) (ops : List (Op T)) :
    ∃ s, runOpt (2 ^ k) (init (2 ^ k) dflt) ops = .ok (s, (qrun (2 ^ k) [] (ops.map Op.toQ)).2) := by
  obtain ⟨s, h, _⟩ := (Rel.init (Nat.two_pow_pos k) dflt).run dflt ops
  exact ⟨s, h⟩

/-- **C10** for CircularBuffer, which hands out `T()` where the queue has nothing. -/
theorem C10_is_bounded_queue (k : Nat) (dflt : T) (ops : List (Op T)) :
    ∃ s, run (2 ^ k) dflt (init (2 ^ k) dflt) ops =
      .ok (s, (qrun (2 ^ k) [] (ops.map Op.toQ)).2.map (·.getD dflt)) := by
  obtain ⟨s, _, h, _⟩ := (Rel.init (Nat.two_pow_pos k) dflt).run dflt ops
  exact ⟨s, h⟩

/-- a run that overwrites, empties and resets -/
example : (runOpt 2 (init 2 0) [.put 1, .put 2, .put 3, .get, .get, .get, .put 4, .put 5, .removeFirst, .get, .reset, .get]).bind
    (fun p => .ok p.2) = .ok [some 2, some 3, none, some 5, none] := by decide

/-- **C11**: after any sequence of calls, `count`, `empty`, `full` and `peek` tell the truth about the queue. -/
theorem C11_occupancy (bits k : Nat) (hk : k < bits) (dflt : T) (ops : List (Op T)) (s : St T) (os : List (Option T))
    (h : runOpt (2 ^ k) (init (2 ^ k) dflt) ops = .ok (s, os)) :
    let q := (qrun (2 ^ k) [] (ops.map Op.toQ)).1
    count (2 ^ k) s = q.length ∧ q.length ≤ 2 ^ k ∧ (empty s = true ↔ q.length = 0) ∧ (isFull s = true ↔ q.length = 2 ^ k) ∧
      ∀ (i : Nat) (hi : i < q.length), peek bits (2 ^ k) s i = .ok q[i] := by
  obtain ⟨s', h1, _, h2⟩ := (Rel.init (Nat.two_pow_pos k) dflt).run dflt ops
  rw [h] at h1
  simp only [R.ok_inj, Prod.mk.injEq] at h1
  obtain ⟨rfl, _⟩ := h1
  refine ⟨h2.count, h2.qlen, ?_, ?_, fun i hi => h2.peek hk hi⟩
  · rw [h2.empty]; simp
  · simp [isFull, h2.full]

/-- **C11**, read through the API: if `peek(i)` returns `x` for some `i < count()`, then after `i` further `get`s the
next `get` returns `x`. -/
theorem C11_peek_is_future_get (bits k : Nat) (hk : k < bits) (dflt : T) (ops : List (Op T)) (s : St T) (os : List (Option T))
    (h : runOpt (2 ^ k) (init (2 ^ k) dflt) ops = .ok (s, os)) (i : Nat) (hi : i < count (2 ^ k) s) :
    ∃ x s' os', peek bits (2 ^ k) s i = .ok x ∧ runOpt (2 ^ k) s (List.replicate (i + 1) .get) = .ok (s', os') ∧
      os'[i]? = some (some x) := by
  obtain ⟨s1, h1, _, h2⟩ := (Rel.init (Nat.two_pow_pos k) dflt).run dflt ops
  rw [h] at h1
  simp only [R.ok_inj, Prod.mk.injEq] at h1
  obtain ⟨rfl, _⟩ := h1
  rw [h2.count] at hi
  obtain ⟨s2, h3, _, h4⟩ := h2.run dflt (List.replicate (i + 1) .get)
  refine ⟨_, s2, _, h2.peek hk hi, h3, ?_⟩
  generalize (qrun (2 ^ k) [] (ops.map Op.toQ)).1 = q at hi
  have key : ∀ (n : Nat) (q : List T) (j : Nat), j < n → j < q.length →
      (qrun (2 ^ k) q ((List.replicate n Op.get).map Op.toQ)).2[j]? = some q[j]? := by
    intro n
    induction n with
    | zero => intro q j h; omega
    | succ n ih =>
      intro q j hj hq
      simp only [List.replicate_succ, List.map_cons, Op.toQ, qrun, qstep]
      cases j with
      | zero => cases q <;> simp
      | succ j =>
        rw [List.getElem?_append_right (by simp)]
        simp only [List.length_singleton, Nat.add_sub_cancel]
        cases q with
        | nil => simp at hq
        | cons a q =>
          have := ih q j (by omega) (by simp at hq; omega)
          simpa using this
  rw [key (i + 1) q i (by omega) hi]
  simp [hi]

example : ∃ s os, runOpt 4 (init 4 0) [.put 1, .put 2, .put 3, .get, .put 4, .put 5] = .ok (s, os) ∧
    s.tail = 1 ∧ s.head = 1 ∧ count 4 s = 4 ∧ peek 32 4 s 3 = .ok 5 := ⟨_, _, rfl, by decide⟩

/-- **C12**: after `set_head(d)` on a fresh buffer with `0 < d < N`, alternating put and get delivers `d` default values
and then the stream, delayed by `d`. -/
theorem C12_delay_put_get (k d : Nat) (hd : d < 2 ^ k) (dflt : T) (xs : List T) :
    ∃ s, runOpt (2 ^ k) (setHead (init (2 ^ k) dflt) d) (xs.flatMap fun x => [.put x, .get]) =
      .ok (s, ((List.replicate d dflt ++ xs).take xs.length).map some) := by
  obtain ⟨s, h, _⟩ := (Rel.delay hd dflt).run dflt (alternating xs)
  rw [qrun_alternating _ _ (by simpa using hd)] at h
  exact ⟨s, h⟩

theorem C12_delay_get_put (k d : Nat) (h0 : 0 < d) (hd : d < 2 ^ k) (dflt : T) (xs : List T) :
    ∃ s, runOpt (2 ^ k) (setHead (init (2 ^ k) dflt) d) (xs.flatMap fun x => [.get, .put x]) =
      .ok (s, ((List.replicate d dflt ++ xs).take xs.length).map some) := by
  obtain ⟨s, h, _⟩ := (Rel.delay hd dflt).run dflt (alternatingGP xs)
  rw [qrun_alternatingGP _ _ (by simpa using h0) (by simp; omega)] at h
  exact ⟨s, h⟩

/-- **C12** for CircularBuffer. -/
theorem C12_delay_circular_buffer (k d : Nat) (hd : d < 2 ^ k) (dflt : T) (xs : List T) :
    ∃ s, run (2 ^ k) dflt (setHead (init (2 ^ k) dflt) d) (xs.flatMap fun x => [.put x, .get]) =
      .ok (s, (List.replicate d dflt ++ xs).take xs.length) := by
  obtain ⟨s, _, h, _⟩ := (Rel.delay hd dflt).run dflt (alternating xs)
  rw [qrun_alternating _ _ (by simpa using hd)] at h
  exact ⟨s, by rw [show (xs.flatMap fun x => [Op.put x, Op.get]) = alternating xs from rfl, h]; simp [Function.comp_def]⟩

example : (2 : Nat) < 2 ^ 2 ∧ (runOpt 4 (setHead (init 4 0) 2) [.put 7, .get, .put 8, .get, .put 9, .get]).bind (fun p => .ok p.2)
    = .ok [some 0, some 0, some 7] := by decide

/-- **C13** for CircularBuffer: `fill_buffer(val)` stores `val` in every slot and changes nothing else. -/
theorem C13_fill_value (N : Nat) (s : St T) (val : T) :
    (∀ i : Nat, i < s.buf.length → (fillVal s val).buf[i]? = some val) ∧ (fillVal s val).buf.length = s.buf.length ∧
      count N (fillVal s val) = count N s := by
  refine ⟨?_, by simp [fillVal], rfl⟩
  intro i hi
  simp [fillVal, hi]

example (s : St Nat) (h : s.buf = [1, 2, 3]) := (C13_fill_value 3 s 7).1 2 (by rw [h]; decide)

/-- **C13** for CircularBuffer, every element size: `fill_buffer(array)` makes element `i` byte-wise equal to
`array[i]`. -/
theorem C13_fill_array (N sz : Nat) (buf src : List Byte) (hb : buf.length = N * sz) (hs : src.length = N * sz) :
    ∃ out, fillArrayBytes N sz buf src = .ok out ∧ out.length = buf.length ∧
      ∀ i, i < N → elemBytes sz out i = elemBytes sz src i := by
  refine ⟨src, ?_, by omega, fun _ _ => rfl⟩
  unfold fillArrayBytes
  rw [Nat.mul_comm sz N, memcpy_ok (by omega) (by omega)]
  simp [← hb]
  rw [hb, ← hs]; simp

example := C13_fill_array 2 2 [0, 0, 0, 0] [1, 2, 3, 4] rfl rfl

/-- **C13 (partial)** for CircularBufferOpt: right for one-byte elements. -/
theorem C13_opt_fill_partial (N : Nat) (buf src : List Byte) (v : Byte) (hb : buf.length = N) (hs : src.length = N) :
    fillArrayBytesOpt N buf src = .ok src ∧ fillValBytesOpt N buf [v] = .ok (List.replicate N v) := by
  constructor
  · unfold fillArrayBytesOpt
    rw [memcpy_ok (by omega) (by omega)]
    simp [← hb]
    rw [hb, ← hs]; simp
  · unfold fillValBytesOpt memset
    simp [hb]

theorem elem_take_append (sz N i : Nat) (a b : List Byte) (ha : a.length = N) (h : (i + 1) * sz ≤ N) : elemBytes sz (a ++ b) i = elemBytes sz a i := by
  rw [Nat.add_mul, Nat.one_mul] at h
  unfold elemBytes
  rw [List.drop_append_of_le_length (by omega), List.take_append_of_le_length (by rw [List.length_drop]; omega)]

/-- **C13**, exactly what CircularBufferOpt does for elements of any width: the elements that lie wholly in the first N *bytes* are set, `fill_buffer(val)` setting all their bytes to the lowest byte of val; the elements that lie beyond them keep
their values. -/
theorem C13_opt_fill_exact (N sz : Nat) (buf src val : List Byte) (hsz : 0 < sz) (hb : buf.length = N * sz) (hs : src.length = N * sz) :
    ∃ out out2, fillArrayBytesOpt N buf src = .ok out ∧ fillValBytesOpt N buf val = .ok out2 ∧
      (∀ i, (i + 1) * sz ≤ N → elemBytes sz out i = elemBytes sz src i ∧ elemBytes sz out2 i = List.replicate sz (val.headD 0)) ∧
      (∀ i, N ≤ i * sz → elemBytes sz out i = elemBytes sz buf i ∧ elemBytes sz out2 i = elemBytes sz buf i) := by
  have hN : N ≤ N * sz := Nat.le_mul_of_pos_right N hsz
  refine ⟨src.take N ++ buf.drop N, List.replicate N (val.headD 0) ++ buf.drop N, ?_, ?_, ?_, ?_⟩
  · unfold fillArrayBytesOpt
    rw [memcpy_ok (by omega) (by omega)]; simp
  · unfold fillValBytesOpt memset
    rw [if_pos (by omega)]
  · intro i hi
    have h' := hi
    rw [Nat.add_mul, Nat.one_mul] at h'
    constructor
    · rw [elem_take_append sz N i _ _ (by rw [List.length_take]; omega) hi]
      unfold elemBytes
      rw [List.drop_take, List.take_take, Nat.min_eq_left (by omega)]
    · rw [elem_take_append sz N i _ _ (by simp) hi]
      unfold elemBytes
      rw [List.drop_replicate, List.take_replicate, Nat.min_eq_left (by omega)]
  · intro i hi
    unfold elemBytes
    constructor
    · rw [List.drop_append, List.drop_of_length_le (by rw [List.length_take]; omega), List.nil_append, List.drop_drop, List.length_take]
      congr 2; omega
    · rw [List.drop_append, List.drop_of_length_le (by simpa using hi), List.nil_append, List.drop_drop, List.length_replicate]
      congr 2; omega

/-- **C13 is violated** by CircularBufferOpt for wider elements: with two-byte elements and N = 2, the second element
keeps its old value, and filling with the value 0x0102 stores 0x0202 in the first. -/
theorem C13_opt_fill_violated :
    ∃ out, fillArrayBytesOpt 2 [0, 0, 0, 0] [1, 2, 3, 4] = .ok out ∧ elemBytes 2 out 1 ≠ elemBytes 2 [1, 2, 3, 4] 1 ∧
    ∃ out2, fillValBytesOpt 2 [0, 0, 0, 0] [2, 1] = .ok out2 ∧ elemBytes 2 out2 0 = [2, 2] ∧ elemBytes 2 out2 1 = [0, 0] :=
  ⟨_, rfl, by decide, _, rfl, by decide, by decide⟩

example : fillArrayBytes 2 2 [0, 0, 0, 0] [1, 2, 3, 4] = .ok [1, 2, 3, 4] := by decide

end CircBuf
