import Verif.Spec.CompactState
import Verif.Lemmas.CompactBinary
import Verif.Props.CompactBinary
/-! # Property C213: describing callables with a state -/

namespace CompactState
open CompactBinary CompactBinary.Spec Spec

variable {σ : Type}

theorem measure_state (f : Fmt) (d : Sub σ) : ∀ s n, (measureLoop f d s n).1 = afterOne d s := by
  induction d with
  | done => intro s n; rfl
  | raw g rest ih => intro s n; exact ih _ _
  | object g sub rest ih1 ih2 =>
    intro s n
    show (measureLoop f rest (measureLoop f sub (g s).1 0).1 _).1 = _
    rw [ih2, ih1]
    rfl
  | branch c a b ih1 ih2 =>
    intro s n
    show (if c s then measureLoop f a s n else measureLoop f b s n).1 = if c s then afterOne a s else afterOne b s
    split
    · exact ih1 _ _
    · exact ih2 _ _

theorem entry_length {f : Fmt} {k d : List Byte} (h : validKey f k) : (entry f k d).length = f.K + f.S + d.length := by
  unfold entry
  simp only [List.length_append, storedKey_length h, le_length]

theorem steady_length (f : Fmt) (d : Sub σ) (hs : Steady d) (hk : Spec.keysOk f d) :
    ∃ N, (∀ s n, (measureLoop f d s n).2 = n + N) ∧ ∀ s, (encode f (result d s).2).length = N := by
  induction d with
  | done => exact ⟨0, fun s n => rfl, fun s => rfl⟩
  | raw g rest ih =>
    obtain ⟨⟨m, hm⟩, hs⟩ := hs
    obtain ⟨N, h1, h2⟩ := ih hs hk.2
    refine ⟨f.K + f.S + m + N, fun s n => ?_, fun s => ?_⟩
    · show (measureLoop f rest (g s).1 (n + (f.K + f.S + (g s).2.2.length))).2 = _
      rw [h1, hm]; omega
    · show (entry f (g s).2.1 (g s).2.2 ++ encode f (result rest (g s).1).2).length = _
      rw [List.length_append, entry_length (hk.1 s), h2, hm]
  | object g sub rest ih1 ih2 =>
    obtain ⟨N1, a1, a2⟩ := ih1 hs.1 hk.2.1
    obtain ⟨N2, b1, b2⟩ := ih2 hs.2 hk.2.2
    refine ⟨f.K + f.S + N1 + N2, fun s n => ?_, fun s => ?_⟩
    · show (measureLoop f rest (measureLoop f sub (g s).1 0).1 (n + (f.K + f.S + (measureLoop f sub (g s).1 0).2))).2 = _
      rw [b1, a1]; omega
    · show (entry f (g s).2 (encode f (result sub (afterOne sub (g s).1)).2) ++ encode f (result rest (result sub (afterOne sub (g s).1)).1).2).length = _
      rw [List.length_append, entry_length (hk.1 s), b2, a2]
  | branch c a b => exact hs.elim

/-- **C213 (partial).** If the sizes do not depend on the state, what serialize writes is the encoding of one description, whose values are those of the last run of each callable; and `measure` gives its size. Missing: callables whose sizes depend on the state (`C213_size_violated`). -/
theorem C213_steady_partial (f : Fmt) (d : Sub σ) (hs : Steady d) (hk : Spec.keysOk f d) (s : σ) (buf : List Byte) :
    serialize f buf d s = .ok ((result d s).1, ⟨written buf (encode f (result d s).2), (encode f (result d s).2).length⟩) ∧
    ∀ s', (measure f d s').2 = (encode f (result d s).2).length := by
  have key : ∀ (d : Sub σ), Steady d → Spec.keysOk f d → ∀ (s : σ) (w : Span), describe f Span.emit d s w = .ok ((result d s).1, w.put (encode f (result d s).2)) := by
    intro d
    induction d with
    | done => intro _ _ s w; rfl
    | raw g rest ih =>
      intro hs hk s w
      unfold describe
      rw [keyBytes_eq (hk.1 s), R.bind_ok, emit_eq, R.bind_ok, emit_eq, R.bind_ok, emit_eq, R.bind_ok, ih hs.2 hk.2, Span.put_put, Span.put_put, Span.put_put, leBytes_eq]
      simp only [result, encode, entry, List.append_assoc]
    | object g sub rest ih1 ih2 =>
      intro hs hk s w
      obtain ⟨N, a1, a2⟩ := steady_length f sub hs.1 hk.2.1
      unfold describe
      have hm : measure f sub (g s).1 = (afterOne sub (g s).1, (encode f (result sub (afterOne sub (g s).1)).2).length) := by
        refine Prod.ext ?_ ?_
        · exact measure_state f sub _ _
        · show (measureLoop f sub (g s).1 0).2 = _
          rw [a1, a2]; omega
      rw [hm]
      simp only
      rw [keyBytes_eq (hk.1 s), R.bind_ok, emit_eq, R.bind_ok, emit_eq, R.bind_ok, ih1 hs.1 hk.2.1, R.bind_ok]
      simp only
      rw [ih2 hs.2 hk.2.2, Span.put_put, Span.put_put, Span.put_put, leBytes_eq]
      simp only [result, encode, entry, List.append_assoc]
    | branch c a b => intro hs; exact hs.elim
  constructor
  · unfold serialize
    rw [key d hs hk s ⟨buf, 0⟩]
    unfold Span.put
    simp only [overlay_zero, Nat.zero_add]
  · intro s'
    obtain ⟨N, a1, a2⟩ := steady_length f d hs hk
    show (measureLoop f d s' 0).2 = _
    rw [a1, a2]; omega

/-- A sub-object with the number of readings taken so far as its only field. -/
def sensor : Sub Nat := .object (fun s => (s, [7, 0])) (.raw (fun s => (s + 1, [1, 0], [BitVec.ofNat 8 s])) .done) .done

example : Steady sensor ∧ Spec.keysOk fmt21 sensor := by
  refine ⟨⟨⟨⟨1, fun s => rfl⟩, trivial⟩, trivial⟩, ⟨fun s => ?_, ⟨fun s => ?_, trivial⟩, trivial⟩⟩ <;> rfl

example : serialize fmt21 (List.replicate 8 0) sensor 5 = .ok (7, ⟨[7, 0, 4, 1, 0, 1, 6, 0], 7⟩) := by decide +kernel

/-- **C213**: callables without a state do what C42 to C45 say of them. -/
theorem C213_stateless (f : Fmt) (d : Desc) (hk : CompactBinary.Spec.keysOk f d) (s : σ) (buf : List Byte) :
    Steady (ofDesc d : Sub σ) ∧ Spec.keysOk f (ofDesc d : Sub σ) ∧ encode f (result (ofDesc d) s).2 = encode f d ∧
    serialize f buf (ofDesc d) s = (fun w => (s, w)) <$> CompactBinary.serialize f buf d := by
  have h : ∀ d : Desc, CompactBinary.Spec.keysOk f d → Steady (ofDesc d : Sub σ) ∧ Spec.keysOk f (ofDesc d : Sub σ) ∧ ∀ s : σ, encode f (result (ofDesc d) s).2 = encode f d ∧ (result (ofDesc d) s).1 = s ∧ afterOne (ofDesc d) s = s := by
    intro d
    induction d with
    | done => intro _; exact ⟨trivial, trivial, fun s => ⟨rfl, rfl, rfl⟩⟩
    | field k v rest ih =>
      intro hk
      obtain ⟨a, b, c⟩ := ih hk.2
      refine ⟨⟨⟨v.length, fun _ => rfl⟩, a⟩, ⟨fun _ => hk.1, b⟩, fun s => ⟨?_, (c s).2.1, (c s).2.2⟩⟩
      show entry f k v ++ encode f (result (ofDesc rest) s).2 = _
      rw [(c s).1]; rfl
    | raw k v rest ih =>
      intro hk
      obtain ⟨a, b, c⟩ := ih hk.2
      refine ⟨⟨⟨v.length, fun _ => rfl⟩, a⟩, ⟨fun _ => hk.1, b⟩, fun s => ⟨?_, (c s).2.1, (c s).2.2⟩⟩
      show entry f k v ++ encode f (result (ofDesc rest) s).2 = _
      rw [(c s).1]; rfl
    | object k sub rest ih1 ih2 =>
      intro hk
      obtain ⟨a, b, c⟩ := ih1 hk.2.1
      obtain ⟨a', b', c'⟩ := ih2 hk.2.2
      have e : (result (ofDesc sub) (afterOne (ofDesc sub) s)).1 = s := by rw [(c s).2.2, (c s).2.1]
      refine ⟨⟨a, a'⟩, ⟨fun _ => hk.1, b, b'⟩, fun s => ?_⟩
      have e : (result (ofDesc sub) (afterOne (ofDesc sub) s)).1 = s := by rw [(c s).2.2, (c s).2.1]
      refine ⟨?_, ?_, ?_⟩
      · show entry f k (encode f (result (ofDesc sub) (afterOne (ofDesc sub) s)).2) ++ encode f (result (ofDesc rest) (result (ofDesc sub) (afterOne (ofDesc sub) s)).1).2 = _
        rw [e, (c' s).1, (c _).1]; rfl
      · show (result (ofDesc rest) (result (ofDesc sub) (afterOne (ofDesc sub) s)).1).1 = s
        rw [e, (c' s).2.1]
      · show afterOne (ofDesc rest) (afterOne (ofDesc sub) s) = s
        rw [(c s).2.2, (c' s).2.2]
  obtain ⟨h1, h2, h3⟩ := h d hk
  refine ⟨h1, h2, (h3 s).1, ?_⟩
  rw [(C213_steady_partial f (ofDesc d) h1 h2 s buf).1, (h3 s).1, (h3 s).2.1]
  have : CompactBinary.serialize f buf d = .ok ⟨written buf (encode f d), (encode f d).length⟩ := by
    unfold CompactBinary.serialize
    rw [describe_span f d _ hk]
    unfold Span.put
    simp only [overlay_zero, Nat.zero_add]
  rw [this, R.map_ok]

/-- **C213, exactly** (the header says "twice"). A callable inside `n` sub-objects is invoked `n + 1` times by serialize, once by measure. -/
theorem C213_invocations_exact (f : Fmt) (key : List Byte) (hk : validKey f key) (n s : Nat) (buf : List Byte) :
    (measure f (counter key n) s).1 = s + 1 ∧ ∃ w, serialize f buf (counter key n) s = .ok (s + n + 1, w) := by
  have h : ∀ n, Steady (counter key n) ∧ Spec.keysOk f (counter key n) ∧ (∀ s, afterOne (counter key n) s = s + 1) ∧ ∀ s, (result (counter key n) s).1 = s + n + 1 := by
    intro n
    induction n with
    | zero => exact ⟨⟨⟨0, fun _ => rfl⟩, trivial⟩, ⟨fun _ => hk, trivial⟩, fun s => rfl, fun s => rfl⟩
    | succ n ih =>
      obtain ⟨a, b, c, d⟩ := ih
      refine ⟨⟨a, trivial⟩, ⟨fun _ => hk, b, trivial⟩, fun s => c s, fun s => ?_⟩
      show (result (counter key n) (afterOne (counter key n) s)).1 = _
      rw [c, d]; omega
  obtain ⟨a, b, c, d⟩ := h n
  constructor
  · have := measure_state f (counter key n) s 0
    rw [c] at this
    exact this
  · have h := (C213_steady_partial f _ a b s buf).1
    rw [d] at h
    exact ⟨_, h⟩

example : validKey fmt21 [1, 0] ∧ serialize fmt21 [] (counter [1, 0] 3) 0 = .ok (4, ⟨[], 12⟩) := by
  constructor
  · rfl
  · decide +kernel

/-- **C213 (the property is false here).** A sub-callable that gives longer data when it is run the second time leaves a wrong size, and the entry after it is not found though it was written. -/
theorem C213_size_violated :
    ∃ d : Sub Nat, Spec.keysOk fmt21 d ∧ ∃ w, serialize fmt21 (List.replicate 32 0) d 0 = .ok w ∧ [3, 0, 1, 9] <:+ w.2.buf.take w.2.pos ∧
      get fmt21 32 (w.2.buf.take w.2.pos) 1 [3, 0] = .ok none := by
  refine ⟨.object (fun s => (s, [7, 0])) (.branch (fun s => s = 0) (.raw (fun s => (s + 1, [1, 0], [5])) .done) (.raw (fun s => (s + 1, [1, 0], [5, 6, 7])) .done)) (.raw (fun s => (s, [3, 0], [9])) .done),
    ⟨fun s => ?_, ⟨⟨fun s => ?_, trivial⟩, ⟨fun s => ?_, trivial⟩⟩, ⟨fun s => ?_, trivial⟩⟩, ⟨2, ⟨[7, 0, 4, 1, 0, 3, 5, 6, 7, 3, 0, 1, 9] ++ List.replicate 19 0, 13⟩⟩, ?_, ?_, ?_⟩
  · rfl
  · rfl
  · rfl
  · rfl
  · decide +kernel
  · decide +kernel
  · decide +kernel

end CompactState
