import Verif.Spec.CompactBinary
/-! # Lemmas on the compact binary format -/
namespace CompactBinary
open Spec

theorem leBytes_length (n v : Nat) : (leBytes n v).length = n := by
  induction n generalizing v with
  | zero => rfl
  | succ n ih => simp [leBytes, ih]

theorem leBytes_eq (n v : Nat) : leBytes n v = le n v := by
  induction n generalizing v with
  | zero => rfl
  | succ n ih =>
    rw [leBytes, ih, le, le, List.range_succ_eq_map, List.map_cons, List.map_map, Nat.pow_zero, Nat.div_one]
    congr 1
    apply List.map_congr_left
    intro i _
    simp only [Function.comp, Nat.pow_succ', Nat.div_div_eq_div_mul]

theorem fromLe_leBytes (n v : Nat) (h : v < 256 ^ n) : fromLe (leBytes n v) = v := by
  induction n generalizing v with
  | zero => simp at h; subst h; rfl
  | succ n ih =>
    have : v / 256 < 256 ^ n := by
      rw [Nat.div_lt_iff_lt_mul (by omega)]; rw [Nat.pow_succ] at h; exact h
    rw [leBytes, fromLe, ih _ this, BitVec.toNat_ofNat]
    have := Nat.div_add_mod v 256
    omega

theorem fromLe_lt (l : List Byte) : fromLe l < 256 ^ l.length := by
  induction l with
  | nil => simp [fromLe]
  | cons b l ih =>
    have := b.isLt
    rw [fromLe, List.length_cons, Nat.pow_succ]
    omega

theorem cstr_cons (K : Nat) (x : Byte) (a : List Byte) : cstr (K + 1) (x :: a) = if x = 0 then [] else x :: cstr K a := by
  unfold cstr
  rw [List.take_succ_cons, List.takeWhile_cons]
  by_cases h : x = 0
  · rw [if_neg (by simpa using h), if_pos h]
  · rw [if_pos (by simpa using h), if_neg h]

theorem keyLoop_eq : ∀ (key tmp : List Byte), (∀ x ∈ tmp, x = 0) → (tmp.length ≤ key.length ∨ 0 ∈ key) →
    keyLoop key tmp = .ok (cstr tmp.length key ++ List.replicate (tmp.length - (cstr tmp.length key).length) 0) := by
  intro key
  induction key with
  | nil =>
    intro tmp h0 h
    cases tmp with
    | nil => rfl
    | cons x t => simp at h
  | cons c key ih =>
    intro tmp h0 h
    cases tmp with
    | nil => simp [keyLoop, cstr]
    | cons x t =>
      unfold keyLoop
      by_cases hc : c = 0
      · subst hc
        rw [if_pos rfl]
        have ht : t = List.replicate t.length 0 := List.eq_replicate_of_mem (fun b hb => h0 b (by simp [hb]))
        simp only [cstr, List.length_cons, List.take_succ_cons, ne_eq, not_true_eq_false, decide_false,
          List.takeWhile_cons, Bool.false_eq_true, if_false, List.length_nil, List.nil_append, Nat.sub_zero, List.replicate_succ]
        rw [← ht]
      · rw [if_neg hc]
        have h' : t.length ≤ key.length ∨ 0 ∈ key := by
          rcases h with h | h
          · left; simpa using h
          · right
            rcases List.mem_cons.mp h with h | h
            · exact absurd h.symm hc
            · exact h
        have e : cstr (t.length + 1) (c :: key) = c :: cstr t.length key := by
          rw [cstr_cons, if_neg hc]
        rw [ih t (fun b hb => h0 b (by simp [hb])) h']
        simp only [R.bind_ok, List.length_cons, e, List.cons_append, Nat.add_sub_add_right]

theorem keyBytes_eq {f : Fmt} {key : List Byte} (h : validKey f key) : keyBytes f key = .ok (storedKey f key) := by
  unfold keyBytes storedKey
  unfold validKey at h
  cases hf : f.arr with
  | false => rw [hf] at h; simp only [Bool.false_eq_true, if_false] at h ⊢; rw [if_pos h]
  | true =>
    rw [hf] at h
    simp only [if_true] at h ⊢
    rw [keyLoop_eq key _ (fun x hx => List.eq_of_mem_replicate hx) (by simpa using h)]
    simp

theorem cstr_length_le (K : Nat) (key : List Byte) : (cstr K key).length ≤ K := by
  unfold cstr
  have : ((key.take K).takeWhile (· ≠ 0)).length ≤ (key.take K).length := (List.takeWhile_sublist _).length_le
  have h2 : (key.take K).length ≤ K := by simp; omega
  omega

theorem storedKey_length {f : Fmt} {key : List Byte} (h : validKey f key) : (storedKey f key).length = f.K := by
  unfold storedKey
  unfold validKey at h
  cases hf : f.arr with
  | false => rw [hf] at h; simpa using h
  | true =>
    have := cstr_length_le f.K key
    simp; omega

/-! ### Writing -/

/-- Writing bytes at a position, ignoring what is outside the buffer. -/
def overlay : List Byte → Nat → List Byte → List Byte
  | buf, _, [] => buf
  | buf, p, b :: l => overlay (buf.set p b) (p + 1) l

theorem overlay_length (bs : List Byte) : ∀ (buf : List Byte) (p : Nat), (overlay buf p bs).length = buf.length := by
  induction bs with
  | nil => intro buf p; rfl
  | cons b l ih => intro buf p; rw [overlay, ih, List.length_set]

theorem overlay_getElem? (bs : List Byte) : ∀ (buf : List Byte) (p i : Nat),
    (overlay buf p bs)[i]? = if p ≤ i ∧ i < p + bs.length ∧ i < buf.length then bs[i - p]? else buf[i]? := by
  induction bs with
  | nil => intro buf p i; rw [overlay, if_neg (by simp; omega)]
  | cons b l ih =>
    intro buf p i
    rw [overlay, ih, List.length_set, List.length_cons]
    by_cases h1 : p + 1 ≤ i ∧ i < p + 1 + l.length ∧ i < buf.length
    · rw [if_pos h1, if_pos (by omega), show i - p = (i - (p + 1)) + 1 by omega, List.getElem?_cons_succ]
    · rw [if_neg h1]
      by_cases h2 : p = i
      · subst h2
        by_cases h3 : p < buf.length
        · rw [if_pos (by omega), List.getElem?_set_self h3]; simp
        · rw [if_neg (by omega), List.getElem?_eq_none (by simp; omega), List.getElem?_eq_none (by omega)]
      · rw [List.getElem?_set_ne h2, if_neg (by omega)]

theorem overlay_append (as bs : List Byte) : ∀ (buf : List Byte) (p : Nat),
    overlay (overlay buf p as) (p + as.length) bs = overlay buf p (as ++ bs) := by
  induction as with
  | nil => intro buf p; rfl
  | cons a as ih =>
    intro buf p
    rw [overlay, List.cons_append, overlay, ← ih, List.length_cons, show p + (as.length + 1) = p + 1 + as.length by omega]

/-- Back-patching a field inside what has been written. -/
theorem overlay_patch (as xs ys bs : List Byte) (h : xs.length = ys.length) (buf : List Byte) (p : Nat) :
    overlay (overlay buf p (as ++ xs ++ bs)) (p + as.length) ys = overlay buf p (as ++ ys ++ bs) := by
  apply List.ext_getElem?
  intro i
  rw [overlay_getElem?, overlay_getElem?, overlay_getElem?, overlay_length]
  simp only [List.length_append]
  by_cases hb : i < buf.length
  · by_cases h1 : i < p + as.length
    · rw [if_neg (by omega)]
      by_cases h2 : p ≤ i
      · rw [if_pos (by omega), if_pos (by omega), List.append_assoc, List.append_assoc,
          List.getElem?_append_left (by omega), List.getElem?_append_left (by omega)]
      · rw [if_neg (by omega), if_neg (by omega)]
    · by_cases h2 : i < p + as.length + ys.length
      · rw [if_pos (by omega), if_pos (by omega), List.append_assoc, List.getElem?_append_right (by omega),
          List.getElem?_append_left (by omega)]
        congr 1; omega
      · rw [if_neg (by omega)]
        by_cases h3 : i < p + (as.length + xs.length + bs.length)
        · rw [if_pos (by omega), if_pos (by omega), List.getElem?_append_right (by simp; omega),
            List.getElem?_append_right (by simp; omega)]
          congr 1; simp; omega
        · rw [if_neg (by omega), if_neg (by omega)]
  · rw [if_neg (by omega), if_neg (by omega), if_neg (by omega)]

theorem overlay_zero (buf bs : List Byte) : overlay buf 0 bs = written buf bs := by
  apply List.ext_getElem?
  intro i
  rw [overlay_getElem?, written]
  by_cases h1 : i < buf.length
  · by_cases h2 : i < bs.length
    · rw [if_pos (by omega), List.getElem?_append_left (by simp; omega), List.getElem?_take, if_pos h1]; simp
    · rw [if_neg (by omega), List.getElem?_append_right (by simp; omega), List.getElem?_drop]
      congr 1; simp; omega
  · rw [if_neg (by omega), List.getElem?_eq_none (by omega), List.getElem?_eq_none (by simp; omega)]

def Span.put (w : Span) (bs : List Byte) : Span := ⟨overlay w.buf w.pos bs, w.pos + bs.length⟩

theorem Span.put_put (w : Span) (as bs : List Byte) : (w.put as).put bs = w.put (as ++ bs) := by
  simp [Span.put, overlay_append, Nat.add_assoc]

theorem set_ge (l : List Byte) (i : Nat) (b : Byte) (h : ¬ i < l.length) : l.set i b = l := List.set_eq_of_length_le (by omega)

theorem emit_eq (bs : List Byte) : ∀ w : Span, w.emit bs = .ok (w.put bs) := by
  induction bs with
  | nil => intro w; simp [Span.emit, Span.put, overlay]
  | cons b l ih =>
    intro w
    unfold Span.emit
    split
    · next h =>
      rw [arrSet_lt h, R.bind_ok, ih]
      simp only [Span.put, overlay, List.length_cons]
      congr 2; omega
    · next h =>
      rw [ih]
      simp only [Span.put, overlay, List.length_cons, set_ge _ _ _ h]
      congr 2; omega

theorem writeAt_eq (bs : List Byte) : ∀ (buf : List Byte) (p : Nat), writeAt buf p bs = .ok (overlay buf p bs) := by
  induction bs with
  | nil => intro buf p; rfl
  | cons b l ih =>
    intro buf p
    unfold writeAt
    split
    · next h => rw [arrSet_lt h, R.bind_ok, ih]; rfl
    · next h => rw [ih, overlay, set_ge _ _ _ h]

theorem le_length (n v : Nat) : (le n v).length = n := by simp [le]

theorem measureLoop_eq (f : Fmt) (d : Desc) : ∀ n, keysOk f d → measureLoop f d n = n + (encode f d).length := by
  induction d with
  | done => intro n _; rfl
  | field k v rest ih =>
    intro n h
    rw [measureLoop, ih _ h.2]
    simp [encode, entry, storedKey_length h.1, le_length]; omega
  | raw k v rest ih =>
    intro n h
    rw [measureLoop, ih _ h.2]
    simp [encode, entry, storedKey_length h.1, le_length]; omega
  | object k sub rest ihs ih =>
    intro n h
    rw [measureLoop, ih _ h.2.2, ihs _ h.2.1]
    simp [encode, entry, storedKey_length h.1, le_length]; omega

theorem measure_eq {f : Fmt} {d : Desc} (h : keysOk f d) : measure f d = (encode f d).length := by
  rw [measure, measureLoop_eq f d 0 h, Nat.zero_add]

/-- A writer whose `emit`s compose like appending writes the encoding. -/
theorem describe_span (f : Fmt) (d : Desc) : ∀ w : Span, keysOk f d → describe f Span.emit d w = .ok (w.put (encode f d)) := by
  induction d with
  | done => intro w _; simp [describe, encode, Span.put, overlay]
  | field k v rest ih =>
    intro w h
    simp only [describe, keyBytes_eq h.1, R.bind_ok, emit_eq, Span.put_put, ih _ h.2, leBytes_eq, encode, entry, List.append_assoc]
  | raw k v rest ih =>
    intro w h
    simp only [describe, keyBytes_eq h.1, R.bind_ok, emit_eq, Span.put_put, ih _ h.2, leBytes_eq, encode, entry, List.append_assoc]
  | object k sub rest ihs ih =>
    intro w h
    simp only [describe, keyBytes_eq h.1, R.bind_ok, emit_eq, Span.put_put, ihs _ h.2.1, ih _ h.2.2, leBytes_eq, encode, entry,
      List.append_assoc, measure_eq h.2.1]

theorem describe_sink (f : Fmt) (d : Desc) : ∀ w : Sink, keysOk f d → ∃ cs, describe f Sink.emit d w = .ok ⟨w.chunks ++ cs, w.count + (encode f d).length⟩ ∧
    cs.flatten = encode f d := by
  induction d with
  | done => intro w _; exact ⟨[], by simp [describe, encode], rfl⟩
  | field k v rest ih =>
    intro w h
    obtain ⟨cs, h1, h2⟩ := ih ⟨w.chunks ++ [storedKey f k] ++ [le f.S v.length] ++ [v],
      w.count + (storedKey f k).length + (le f.S v.length).length + v.length⟩ h.2
    refine ⟨storedKey f k :: le f.S v.length :: v :: cs, ?_, by simp [encode, entry, h2]⟩
    simp only [describe, keyBytes_eq h.1, R.bind_ok, Sink.emit, leBytes_eq, h1]
    simp [encode, entry, Nat.add_assoc]
  | raw k v rest ih =>
    intro w h
    obtain ⟨cs, h1, h2⟩ := ih ⟨w.chunks ++ [storedKey f k] ++ [le f.S v.length] ++ [v],
      w.count + (storedKey f k).length + (le f.S v.length).length + v.length⟩ h.2
    refine ⟨storedKey f k :: le f.S v.length :: v :: cs, ?_, by simp [encode, entry, h2]⟩
    simp only [describe, keyBytes_eq h.1, R.bind_ok, Sink.emit, leBytes_eq, h1]
    simp [encode, entry, Nat.add_assoc]
  | object k sub rest ihs ih =>
    intro w h
    obtain ⟨cs1, g1, g2⟩ := ihs ⟨w.chunks ++ [storedKey f k] ++ [le f.S (encode f sub).length],
      w.count + (storedKey f k).length + (le f.S (encode f sub).length).length⟩ h.2.1
    obtain ⟨cs, h1, h2⟩ := ih ⟨w.chunks ++ [storedKey f k] ++ [le f.S (encode f sub).length] ++ cs1,
      w.count + (storedKey f k).length + (le f.S (encode f sub).length).length + (encode f sub).length⟩ h.2.2
    refine ⟨storedKey f k :: le f.S (encode f sub).length :: (cs1 ++ cs), ?_, by simp [encode, entry, g2, h2]⟩
    simp only [describe, keyBytes_eq h.1, R.bind_ok, Sink.emit, leBytes_eq, measure_eq h.2.1, g1, h1]
    simp [encode, entry, Nat.add_assoc]

theorem ops_append (f : Fmt) (m : Nat) (l2 : List Op) : ∀ (l1 : List Op) (c : Writer),
    Writer.ops f m c (l1 ++ l2) = (do let c ← Writer.ops f m c l1; Writer.ops f m c l2) := by
  intro l1
  induction l1 with
  | nil => intro c; rfl
  | cons o l ih =>
    intro c
    simp only [List.cons_append, Writer.ops]
    cases c.op f m o with
    | ub => rfl
    | ok c1 => simp only [R.bind_ok, ih]

/-- The imperative writer on the calls of a description: the buffer gets the encoding; depth and the lower marks are unchanged. -/
theorem ops_calls (f : Fmt) (m : Nat) (d : Desc) : ∀ c : Writer, keysOk f d → c.stack.length = m → c.depth + depth d ≤ m →
    ∃ st, Writer.ops f m c (calls d) = .ok ⟨c.w.put (encode f d), st, c.depth⟩ ∧ st.length = m ∧
      ∀ i : Nat, i < c.depth → st[i]? = c.stack[i]? := by
  induction d with
  | done => intro c _ hl _; exact ⟨c.stack, by simp [Writer.ops, calls, encode, Span.put, overlay], hl, fun _ _ => rfl⟩
  | field k v rest ih =>
    intro c h hl hd
    obtain ⟨st, h1, h2, h3⟩ := ih ⟨c.w.put (entry f k v), c.stack, c.depth⟩ h.2 hl (by simpa [depth] using hd)
    refine ⟨st, ?_, h2, h3⟩
    simp only [calls, Writer.ops, Writer.op, Writer.raw, keyBytes_eq h.1, R.bind_ok, emit_eq, Span.put_put, leBytes_eq]
    simp only [entry, List.append_assoc] at h1
    rw [h1]
    simp only [Span.put_put, encode, entry, List.append_assoc]
  | raw k v rest ih =>
    intro c h hl hd
    obtain ⟨st, h1, h2, h3⟩ := ih ⟨c.w.put (entry f k v), c.stack, c.depth⟩ h.2 hl (by simpa [depth] using hd)
    refine ⟨st, ?_, h2, h3⟩
    simp only [calls, Writer.ops, Writer.op, Writer.raw, keyBytes_eq h.1, R.bind_ok, emit_eq, Span.put_put, leBytes_eq]
    simp only [entry, List.append_assoc] at h1
    rw [h1]
    simp only [Span.put_put, encode, entry, List.append_assoc]
  | object k sub rest ihs ih =>
    intro c h hl hd
    simp only [depth] at hd
    have hdm : c.depth < m := by omega
    obtain ⟨st1, g1, g2, g3⟩ := ihs ⟨c.w.put (storedKey f k ++ le f.S 0), c.stack.set c.depth (c.w.pos + (storedKey f k).length), c.depth + 1⟩
      h.2.1 (by simp [hl]) (by simp only; omega)
    obtain ⟨st, h1, h2, h3⟩ := ih ⟨c.w.put (entry f k (encode f sub)), st1, c.depth⟩ h.2.2 g2 (by simp only; omega)
    refine ⟨st, ?_, h2, ?_⟩
    · simp only [calls, Writer.ops, Writer.op, Writer.beginObject, keyBytes_eq h.1, R.bind_ok, emit_eq, Span.put_put, leBytes_eq,
        if_pos hdm]
      rw [arrSet_lt (by omega), R.bind_ok]
      simp only [R.bind_ok]
      have hpos : (c.w.put (storedKey f k)).pos = c.w.pos + (storedKey f k).length := rfl
      rw [hpos, ops_append, g1, R.bind_ok]
      simp only [Writer.ops, Writer.op, Writer.endObject, Nat.add_one_ne_zero, if_false, Nat.add_sub_cancel, if_pos hdm]
      have hget : st1[c.depth]? = some (c.w.pos + (storedKey f k).length) := by
        rw [g3 c.depth (by simp only; omega)]
        exact List.getElem?_set_self (by omega)
      rw [arrGet_some hget]
      simp only [R.bind_ok, writeAt_eq, leBytes_eq, Span.put_put]
      have hp : (c.w.put (storedKey f k ++ le f.S 0 ++ encode f sub)).pos - (c.w.pos + (storedKey f k).length + f.S)
          = (encode f sub).length := by
        simp only [Span.put, List.length_append, le_length]; omega
      rw [hp]
      have hb : overlay (c.w.put (storedKey f k ++ le f.S 0 ++ encode f sub)).buf (c.w.pos + (storedKey f k).length)
          (le f.S (encode f sub).length) = overlay c.w.buf c.w.pos (entry f k (encode f sub)) := by
        simp only [Span.put]
        rw [overlay_patch _ _ _ _ (by simp [le_length])]
        rfl
      rw [hb]
      have hw : (⟨overlay c.w.buf c.w.pos (entry f k (encode f sub)), (c.w.put (storedKey f k ++ le f.S 0 ++ encode f sub)).pos⟩ : Span)
          = c.w.put (entry f k (encode f sub)) := by
        simp only [Span.put, entry, List.length_append, le_length]
      rw [hw, h1]
      simp only [Span.put_put, encode]
    · intro i hi
      rw [h3 i hi, g3 i (by simp only; omega)]
      simp only
      exact List.getElem?_set_ne (by omega)

/-! ### Reading -/

theorem asBytes_eq (n : Nat) : ∀ bytes : List Byte, n ≤ bytes.length → asBytes bytes n = .ok (bytes.take n) := by
  induction n with
  | zero => intro b _; simp [asBytes]
  | succ n ih =>
    intro b h
    cases b with
    | nil => simp at h
    | cons x l => simp only [asBytes]; rw [ih l (by simpa using h)]; simp

theorem compareNullterm_eq (K : Nat) : ∀ a b : List Byte, (K ≤ a.length ∨ 0 ∈ a) → (K ≤ b.length ∨ 0 ∈ b) →
    compareNullterm a b K = .ok (decide (cstr K a = cstr K b)) := by
  induction K with
  | zero => intro a b _ _; simp [compareNullterm, cstr]
  | succ K ih =>
    intro a b ha hb
    cases a with
    | nil => simp at ha
    | cons x a =>
      cases b with
      | nil => simp at hb
      | cons y b =>
        unfold compareNullterm
        by_cases h0 : x = 0 ∧ y = 0
        · rw [if_pos h0]; simp only [cstr_cons, h0.1, h0.2, if_true, decide_true]
        · rw [if_neg h0]
          by_cases hxy : x = y
          · subst hxy
            have hx : x ≠ 0 := fun h => h0 ⟨h, h⟩
            rw [if_neg (by simp)]
            rw [ih a b (by rcases ha with h | h <;> simp_all [Ne.symm]) (by rcases hb with h | h <;> simp_all [Ne.symm])]
            simp only [cstr_cons, if_neg hx, List.cons.injEq, true_and]
          · rw [if_pos hxy]
            congr 1
            symm
            rw [decide_eq_false_iff_not, cstr_cons, cstr_cons]
            by_cases hx : x = 0
            · have hy : y ≠ 0 := fun h => h0 ⟨hx, h⟩
              rw [if_pos hx, if_neg hy]; simp
            · by_cases hy : y = 0
              · rw [if_neg hx, if_pos hy]; simp
              · rw [if_neg hx, if_neg hy]; simp [hxy]

theorem cstr_stored {f : Fmt} {key : List Byte} (hf : f.arr = true) : cstr f.K (storedKey f key) = cstr f.K key := by
  have hall : ∀ x ∈ cstr f.K key, x ≠ 0 := by
    intro x hx
    have := List.all_eq_true.mp (List.all_takeWhile (p := fun x : Byte => decide (x ≠ 0)) (l := key.take f.K)) x hx
    simpa using this
  have hle := cstr_length_le f.K key
  obtain ⟨c, hc⟩ : ∃ c, cstr f.K key = c := ⟨_, rfl⟩
  rw [hc] at hall hle
  have h1 : storedKey f key = c ++ List.replicate (f.K - c.length) 0 := by simp [storedKey, hf, hc]
  rw [hc, h1]
  unfold cstr
  rw [List.take_of_length_le (by simp; omega), List.takeWhile_append_of_pos (by intro a ha; simpa using hall a ha)]
  cases f.K - c.length with
  | zero => simp
  | succ n => simp [List.replicate_succ, List.takeWhile_cons]

theorem keyCmp_stored {f : Fmt} {k key : List Byte} (h1 : validKey f k) (h2 : validKey f key) :
    keyCmp f (storedKey f k) key = .ok (decide (sameKey f k key)) := by
  have hl := storedKey_length h1
  unfold keyCmp
  unfold validKey at h2
  by_cases hf : f.arr = true
  · rw [if_pos hf] at h2
    have hs : cstr f.K (storedKey f k) = cstr f.K key ↔ sameKey f k key := by rw [cstr_stored hf, sameKey, if_pos hf]
    rw [if_pos hf, compareNullterm_eq f.K _ _ (Or.inl (by omega)) h2, decide_eq_decide.mpr hs]
  · rw [if_neg hf] at h2
    have hs : storedKey f k = key ↔ sameKey f k key := by rw [storedKey, sameKey, if_neg hf, if_neg hf]
    rw [if_neg hf, if_pos h2, decide_eq_decide.mpr hs]

theorem findLoop_nil (f : Fmt) (key : List Byte) (off : Nat) : findLoop f key [] off = .ok (0, 0) := by
  rw [findLoop.eq_def, if_neg (by have := f.S_pos; simp; omega)]

/-- The parser at an entry. -/
theorem findLoop_entry {f : Fmt} {k key data rest : List Byte} {off : Nat} (hk : validKey f k) (hkey : validKey f key)
    (hfit : data.length < 256 ^ f.S) :
    findLoop f key (entry f k data ++ rest) off =
      if data ++ rest = [] then .ok (0, 0)
      else if sameKey f k key then .ok (data.length, off + (f.K + f.S))
      else findLoop f key rest (off + (f.K + f.S) + data.length) := by
  have hl := storedKey_length hk
  have hle := le_length f.S data.length
  have he : entry f k data ++ rest = (storedKey f k ++ le f.S data.length) ++ (data ++ rest) := by simp [entry]
  have hH : (storedKey f k ++ le f.S data.length).length = f.K + f.S := by simp [hl, hle]
  rw [he, findLoop.eq_def, if_pos (by simp only [List.length_append]; omega),
    asBytes_eq _ _ (by simp only [List.length_append]; omega)]
  rw [R.bind_ok, List.take_left' hH]
  have hsz : fromLe (List.drop f.K (storedKey f k ++ le f.S data.length)) = data.length := by
    rw [List.drop_left' hl, ← leBytes_eq, fromLe_leBytes _ _ hfit]
  simp only [List.take_left' hl, keyCmp_stored hk hkey, R.bind_ok, hsz]
  split
  · next h1 =>
    unfold advance at h1
    split at h1
    · next hge =>
      rw [if_pos]
      simp only [List.length_append] at hge hH
      rw [← List.length_eq_zero_iff, List.length_append]; omega
    · cases h1
  · next p1 h1 =>
    unfold advance at h1
    split at h1
    · cases h1
    · next hge =>
      cases h1
      have hne : ¬ (data ++ rest = []) := by
        intro hh; apply hge; rw [hh, List.append_nil]; omega
      rw [if_neg hne]
      by_cases hs : sameKey f k key
      · simp [hs]
      · simp only [hs, decide_false, Bool.false_eq_true, if_false]
        split
        · next h2 =>
          rw [List.drop_left' hH, hsz] at h2
          unfold advance at h2
          split at h2
          · next hge2 =>
            have : rest = [] := by
              rw [← List.length_eq_zero_iff]; simp only [List.length_append] at hge2; omega
            rw [this, findLoop_nil]
          · cases h2
        · next p2 h2 =>
          rw [List.drop_left' hH, hsz] at h2
          unfold advance at h2
          split at h2
          · cases h2
          · cases h2
            simp only [List.drop_left]

theorem find_encode (f : Fmt) (key : List Byte) (hkey : validKey f key) (d : Desc) : ∀ off, keysOk f d → fits f d →
    (∃ data o, first f key d = some data ∧ findLoop f key (encode f d) off = .ok (data.length, off + o) ∧ 0 < o ∧
      o + data.length ≤ (encode f d).length ∧ ((encode f d).drop o).take data.length = data) ∨
    ((first f key d = none ∨ first f key d = some []) ∧ findLoop f key (encode f d) off = .ok (0, 0)) := by
  have key_step : ∀ (k data : List Byte) (d' rest : Desc) (off : Nat), validKey f k → data.length < 256 ^ f.S →
      encode f d' = entry f k data ++ encode f rest →
      first f key d' = (if sameKey f k key then some data else first f key rest) →
      (∀ off, (∃ data o, first f key rest = some data ∧ findLoop f key (encode f rest) off = .ok (data.length, off + o) ∧ 0 < o ∧
        o + data.length ≤ (encode f rest).length ∧ ((encode f rest).drop o).take data.length = data) ∨
        ((first f key rest = none ∨ first f key rest = some []) ∧ findLoop f key (encode f rest) off = .ok (0, 0))) →
      (∃ data o, first f key d' = some data ∧ findLoop f key (encode f d') off = .ok (data.length, off + o) ∧ 0 < o ∧
        o + data.length ≤ (encode f d').length ∧ ((encode f d').drop o).take data.length = data) ∨
      ((first f key d' = none ∨ first f key d' = some []) ∧ findLoop f key (encode f d') off = .ok (0, 0)) := by
    intro k data d' rest off hk hfit he hfirst ih
    have hlen : (storedKey f k ++ le f.S data.length).length = f.K + f.S := by simp [storedKey_length hk, le_length]
    have hel : (entry f k data).length = f.K + f.S + data.length := by
      rw [entry, List.length_append, hlen]
    have hpos := f.S_pos
    rw [he, findLoop_entry hk hkey hfit, hfirst]
    by_cases hempty : data ++ encode f rest = []
    · rw [if_pos hempty]
      right
      refine ⟨?_, rfl⟩
      have hd : data = [] := (List.append_eq_nil_iff.mp hempty).1
      have hr : encode f rest = [] := (List.append_eq_nil_iff.mp hempty).2
      by_cases hs : sameKey f k key
      · right; rw [if_pos hs, hd]
      · rw [if_neg hs]
        rcases ih off with ⟨x, o, _, _, ho, hle, _⟩ | h
        · rw [hr] at hle; simp at hle; omega
        · exact h.1
    · rw [if_neg hempty]
      by_cases hs : sameKey f k key
      · rw [if_pos hs, if_pos hs]
        left
        refine ⟨data, f.K + f.S, rfl, rfl, by omega, by rw [List.length_append, hel]; omega, ?_⟩
        rw [entry, List.append_assoc, List.drop_left' hlen, List.take_left]
      · rw [if_neg hs, if_neg hs]
        rcases ih (off + (f.K + f.S) + data.length) with ⟨x, o, h1, h2, h3, h4, h5⟩ | ⟨h1, h2⟩
        · left
          refine ⟨x, f.K + f.S + data.length + o, h1, by rw [h2]; congr 2; omega, by omega, by rw [List.length_append, hel]; omega, ?_⟩
          rw [← List.drop_drop, List.drop_left' hel]
          exact h5
        · right; exact ⟨h1, h2⟩
  induction d with
  | done => intro off _ _; right; exact ⟨Or.inl rfl, findLoop_nil f key off⟩
  | field k v rest ih =>
    intro off h hf
    exact key_step k v _ rest off h.1 hf.1 rfl rfl (fun off => ih off h.2 hf.2)
  | raw k v rest ih =>
    intro off h hf
    exact key_step k v _ rest off h.1 hf.1 rfl rfl (fun off => ih off h.2 hf.2)
  | object k sub rest _ ih =>
    intro off h hf
    exact key_step k (encode f sub) _ rest off h.1 hf.1 rfl rfl (fun off => ih off h.2.2 hf.2.2)

/-- Whatever the bytes: the search finishes without undefined behaviour, with an offset inside the blob. -/
theorem findLoop_safe (f : Fmt) (key : List Byte) (hkey : validKey f key) (n : Nat) : ∀ (p : List Byte) (off : Nat), p.length = n →
    ∃ sz o, findLoop f key p off = .ok (sz, o) ∧ sz < 256 ^ f.S ∧ (o ≤ off + p.length) ∧
      (o = 0 ∧ sz = 0 ∨ off + f.K + f.S ≤ o) := by
  induction n using Nat.strongRecOn with
  | ind n ih =>
    intro p off hn
    have hpos : 0 < 256 ^ f.S := Nat.pow_pos (by omega)
    rw [findLoop.eq_def]
    split
    · next hge =>
      rw [asBytes_eq _ _ hge]
      rw [R.bind_ok]
      split
      · exact ⟨0, 0, rfl, hpos, Nat.zero_le _, Or.inl ⟨rfl, rfl⟩⟩
      · next p1 h1 =>
        have hl1 := advance_length h1
        have hcmp : ∃ b, keyCmp f (List.take f.K (List.take (f.K + f.S) p)) key = .ok b := by
          unfold keyCmp
          unfold validKey at hkey
          cases hf : f.arr with
          | true =>
            simp only [hf, if_true] at hkey ⊢
            exact ⟨_, compareNullterm_eq f.K _ _ (Or.inl (by simp; omega)) hkey⟩
          | false =>
            simp only [hf, Bool.false_eq_true, if_false] at hkey ⊢
            rw [if_pos hkey]; exact ⟨_, rfl⟩
        obtain ⟨b, hb⟩ := hcmp
        rw [hb, R.bind_ok]
        have hsz : fromLe (List.drop f.K (List.take (f.K + f.S) p)) < 256 ^ f.S := by
          have := fromLe_lt (List.drop f.K (List.take (f.K + f.S) p))
          rw [show (List.drop f.K (List.take (f.K + f.S) p)).length = f.S by simp; omega] at this
          exact this
        simp only
        cases b with
        | true => exact ⟨_, _, rfl, hsz, by omega, Or.inr (by omega)⟩
        | false =>
          simp only [Bool.false_eq_true, if_false]
          split
          · exact ⟨0, 0, rfl, hpos, Nat.zero_le _, Or.inl ⟨rfl, rfl⟩⟩
          · next p2 h2 =>
            have hl2 := advance_length h2
            have := f.S_pos
            obtain ⟨sz, o, q1, q2, q3, q4⟩ := ih p2.length (by omega) p2 _ rfl
            exact ⟨sz, o, q1, q2, by omega, by omega⟩
    · exact ⟨0, 0, rfl, hpos, Nat.zero_le _, Or.inl ⟨rfl, rfl⟩⟩

end CompactBinary
