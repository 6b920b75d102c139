import Verif.Props.DoubleBuf
/-! # Property C164: a transmit function that calls back into the stream -/

namespace DoubleBuf
open Spec List
variable {T : Type}

/-- The event of C75 to C77 that says the same. -/
def Seen.ev (e : Seen T) : Ev T := ⟨e.word, e.ret, e.handed, e.res⟩

/-- All calls of a nest, each before the calls made inside it. -/
def Call.flat : Call T → List (Op T)
  | .transmit w res inner => .transmit w res :: (inner.map Call.flat).flatten
  | .done res inner => .done res :: (inner.map Call.flat).flatten

theorem run_append (size : Nat) (a b : List (Op T)) (s : DoubleBuf T) :
    run size s (a ++ b) = ((run size s a).1 ++ (run size (run size s a).2 b).1, (run size (run size s a).2 b).2) := by
  induction a generalizing s with
  | nil => rfl
  | cons o l ih => simp only [List.cons_append, run, ih]

/-- a call with a transmit function that behaves like the calls `ops` is the call followed by those calls, or the call alone -/
theorem transmitR_flat (size : Nat) (s : DoubleBuf T) (w : List T) (res : Bool) (f : DoubleBuf T → List (Seen T) × DoubleBuf T) (full : List (Op T))
    (hf : ∀ s, ∃ ops, ops <+ full ∧ run size s ops = ((f s).1.map Seen.ev, (f s).2)) :
    ∃ ops, ops <+ (.transmit w res :: full) ∧ run size s ops = ((transmitR size s w res f).1.map Seen.ev, (transmitR size s w res f).2) := by
  unfold transmitR
  simp only
  split
  · next h1 =>
    split
    · next h2 =>
      obtain ⟨ops, ho, hr⟩ := hf { s.setBuf (!(s.idx.getD true)) (w.foldl (pushBack size) (s.buf (!(s.idx.getD true)))) with idx := some (!(s.idx.getD true)) }
      refine ⟨.transmit w res :: ops, ho.cons_cons _, ?_⟩
      simp only [run, step, transmit, if_pos h1, h2, if_true, startTx, hr, startTxR, List.map_cons, Seen.ev]
    · next h2 =>
      refine ⟨[.transmit w res], by simp, ?_⟩
      simp only [run, step, transmit, if_pos h1, h2, List.map_cons, List.map_nil, Seen.ev]
      rfl
  · next h1 =>
    refine ⟨[.transmit w res], by simp, ?_⟩
    simp only [run, step, transmit, if_neg h1, List.map_cons, List.map_nil, Seen.ev]

theorem doneR_flat (size : Nat) (s : DoubleBuf T) (res : Bool) (f : DoubleBuf T → List (Seen T) × DoubleBuf T) (full : List (Op T))
    (hf : ∀ s, ∃ ops, ops <+ full ∧ run size s ops = ((f s).1.map Seen.ev, (f s).2)) :
    ∃ ops, ops <+ (.done res :: full) ∧ run size s ops = ((doneR s res f).1.map Seen.ev, (doneR s res f).2) := by
  obtain ⟨b0, b1, idx⟩ := s
  cases idx with
  | none => exact ⟨[.done res], by simp, rfl⟩
  | some i =>
    unfold doneR
    simp only
    split
    · next h1 =>
      obtain ⟨ops, ho, hr⟩ := hf { (⟨b0, b1, some i⟩ : DoubleBuf T).setBuf i [] with idx := some (!i) }
      refine ⟨.done res :: ops, ho.cons_cons _, ?_⟩
      simp only [run, step, done, if_pos h1, startTx, hr, startTxR, List.map_cons, Seen.ev]
    · next h1 =>
      refine ⟨[.done res], by simp, ?_⟩
      simp only [run, step, done, if_neg h1, List.map_cons, List.map_nil, Seen.ev]

mutual
theorem exec_flat (size : Nat) (s : DoubleBuf T) : ∀ c : Call T, ∃ ops, ops <+ c.flat ∧ run size s ops = ((exec size s c).1.map Seen.ev, (exec size s c).2)
  | .transmit w res inner => by
    rw [Call.flat, exec]
    exact transmitR_flat size s w res _ _ (fun s => execs_flat size s inner)
  | .done res inner => by
    rw [Call.flat, exec]
    exact doneR_flat size s res _ _ (fun s => execs_flat size s inner)
theorem execs_flat (size : Nat) (s : DoubleBuf T) : ∀ l : List (Call T), ∃ ops, ops <+ (l.map Call.flat).flatten ∧ run size s ops = ((execs size s l).1.map Seen.ev, (execs size s l).2)
  | [] => ⟨[], by simp, by simp [run, execs]⟩
  | c :: l => by
    obtain ⟨o1, h1, r1⟩ := exec_flat size s c
    obtain ⟨o2, h2, r2⟩ := execs_flat size (exec size s c).2 l
    refine ⟨o1 ++ o2, by rw [List.map_cons, List.flatten_cons]; exact h1.append h2, ?_⟩
    rw [run_append, r1]
    simp only [r2, execs, List.map_append]
end

/-- **C164**: the transmit function may itself call transmit() and tx_done_callback(), to any depth: the effect, and everything that is seen, is that of making the same calls one after
the other, each before those made inside it (calls that a transmit function would make are left out where it is not called). -/
theorem C164_nested_is_sequential (size : Nat) (s : DoubleBuf T) (calls : List (Call T)) :
    ∃ ops, ops <+ (calls.map Call.flat).flatten ∧ (execs size s calls).1.map Seen.ev = (run size s ops).1 ∧ (execs size s calls).2 = (run size s ops).2 := by
  obtain ⟨ops, h1, h2⟩ := execs_flat size s calls
  exact ⟨ops, h1, by rw [h2], by rw [h2]⟩

/-- **C164**: so also with such a transmit function everything handed over, followed by what is queued, is the accepted words in order; and the buffer being transmitted always holds
the span handed over last. -/
theorem C164_nested_fifo (size : Nat) (calls : List (Call T)) :
    sent ((execs size {} calls).1.map Seen.ev) ++ queued (execs size {} calls).2 = accepted ((execs size {} calls).1.map Seen.ev) ∧
    active (execs size {} calls).2 = inFlight none ((execs size {} calls).1.map Seen.ev) := by
  obtain ⟨ops, _, h2, h3⟩ := C164_nested_is_sequential size ({} : DoubleBuf T) calls
  rw [h2, h3]
  exact ⟨(C75_fifo size ops).1, C76_in_flight size ops⟩

/-- **C164**: a blocking transmit function, which calls tx_done_callback() before it returns: after every history of transmit() calls the stream is idle, each word that fits the buffer has been
handed over within its own call, and transmit() returned what the transmit function answered; longer words were refused. -/
theorem C164_blocking (size : Nat) (words : List (List T × Bool)) :
    execs size {} (words.map fun w => Call.transmit w.1 w.2 [.done true []]) =
      ((words.map fun w => if w.1.length ≤ size then [(⟨some w.1, w.2, some w.1, w.2⟩ : Seen T), ⟨none, true, none, true⟩] else [⟨some w.1, false, none, w.2⟩]).flatten, {}) := by
  induction words with
  | nil => simp [execs]
  | cons w l ih =>
    obtain ⟨w, r⟩ := w
    have e : exec size ({} : DoubleBuf T) (.transmit w r [.done true []]) =
        (if w.length ≤ size then [(⟨some w, r, some w, r⟩ : Seen T), ⟨none, true, none, true⟩] else [⟨some w, false, none, r⟩], {}) := by
      rw [exec, transmitR]
      simp only [Option.getD_none, Bool.not_true, buf, List.length_nil, Nat.sub_zero]
      split
      · next h =>
        rw [push_all size w [] (by simpa using h)]
        simp [setBuf, startTxR, buf, execs, exec, doneR]
      · rfl
    simp only [List.map_cons, execs, e, ih, List.flatten_cons]

/-- a blocking function that also sends an answer of its own -/
example : (execs 4 ({} : DoubleBuf Nat) [.transmit [1, 2] true [.transmit [9] true [], .done true [.done true []]], .transmit [3] true []]) =
    ([⟨some [1, 2], true, some [1, 2], true⟩, ⟨some [9], true, none, true⟩, ⟨none, true, some [9], true⟩, ⟨none, true, none, true⟩, ⟨some [3], true, some [3], true⟩], ⟨[3], [], some false⟩) := by
  simp [execs, exec, transmitR, doneR, startTxR, buf, setBuf, pushBack]

end DoubleBuf
