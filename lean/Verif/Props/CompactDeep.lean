import Verif.Spec.CompactDeep
import Verif.Props.CompactOpen
/-! # C264: objects nested deeper than `MaxDepth` -/
namespace CompactBinary
open CompactBinary.Spec

theorem deep_ops (f : Fmt) (m : Nat) (d : Desc) : ∀ c : Writer, keysOk f d → c.stack.length = m →
    ∃ st, Writer.ops f m c (calls d) = .ok ⟨c.w.put (encode f (limited (m - c.depth) d)), st, c.depth⟩ ∧ st.length = m ∧
      ∀ i : Nat, i < c.depth → st[i]? = c.stack[i]? := by
  induction d with
  | done => intro c _ hl; exact ⟨c.stack, by simp [Writer.ops, calls, limited, encode, Span.put, overlay], hl, fun _ _ => rfl⟩
  | field k v rest ih =>
    intro c h hl
    obtain ⟨st, h1, h2, h3⟩ := ih ⟨c.w.put (entry f k v), c.stack, c.depth⟩ h.2 hl
    refine ⟨st, ?_, h2, h3⟩
    simp only [calls, Writer.ops, Writer.op, Writer.raw, keyBytes_eq h.1, R.bind_ok, emit_eq, Span.put_put, leBytes_eq]
    simp only [entry, List.append_assoc] at h1
    rw [h1]
    simp only [Span.put_put, limited, encode, entry, List.append_assoc]
  | raw k v rest ih =>
    intro c h hl
    obtain ⟨st, h1, h2, h3⟩ := ih ⟨c.w.put (entry f k v), c.stack, c.depth⟩ h.2 hl
    refine ⟨st, ?_, h2, h3⟩
    simp only [calls, Writer.ops, Writer.op, Writer.raw, keyBytes_eq h.1, R.bind_ok, emit_eq, Span.put_put, leBytes_eq]
    simp only [entry, List.append_assoc] at h1
    rw [h1]
    simp only [Span.put_put, limited, encode, entry, List.append_assoc]
  | object k sub rest ihs ih =>
    intro c h hl
    by_cases hdm : c.depth < m
    · obtain ⟨st1, g1, g2, g3⟩ := ihs ⟨c.w.put (storedKey f k ++ le f.S 0), c.stack.set c.depth (c.w.pos + (storedKey f k).length), c.depth + 1⟩
        h.2.1 (by simp [hl])
      obtain ⟨n, hn⟩ : ∃ n, m - c.depth = n + 1 := ⟨m - c.depth - 1, by omega⟩
      have hn1 : m - (c.depth + 1) = n := by omega
      simp only [hn1] at g1
      obtain ⟨st, h1, h2, h3⟩ := ih ⟨c.w.put (entry f k (encode f (limited n sub))), st1, c.depth⟩ h.2.2 g2
      refine ⟨st, ?_, h2, ?_⟩
      · simp only [calls, Writer.ops, Writer.op, Writer.beginObject, keyBytes_eq h.1, R.bind_ok, emit_eq, Span.put_put, leBytes_eq,
          if_pos hdm]
        rw [arrSet_lt (by omega), R.bind_ok]
        simp only [R.bind_ok]
        have hpos : (c.w.put (storedKey f k)).pos = c.w.pos + (storedKey f k).length := rfl
        rw [hpos, ops_append, g1, R.bind_ok]
        simp only [Writer.ops, Writer.op, Writer.endObject, Nat.add_one_ne_zero, if_false, Nat.add_sub_cancel, if_pos hdm]
        have hget : st1[c.depth]? = some (c.w.pos + (storedKey f k).length) := by
          rw [g3 c.depth (by simp only; omega)]
          exact List.getElem?_set_self (by omega)
        rw [arrGet_some hget]
        simp only [R.bind_ok, writeAt_eq, leBytes_eq, Span.put_put]
        have hp : (c.w.put (storedKey f k ++ le f.S 0 ++ encode f (limited n sub))).pos - (c.w.pos + (storedKey f k).length + f.S)
            = (encode f (limited n sub)).length := by
          simp only [Span.put, List.length_append, le_length]; omega
        rw [hp]
        have hb : overlay (c.w.put (storedKey f k ++ le f.S 0 ++ encode f (limited n sub))).buf (c.w.pos + (storedKey f k).length)
            (le f.S (encode f (limited n sub)).length) = overlay c.w.buf c.w.pos (entry f k (encode f (limited n sub))) := by
          simp only [Span.put]
          rw [overlay_patch _ _ _ _ (by simp [le_length])]
          rfl
        rw [hb]
        have hw : (⟨overlay c.w.buf c.w.pos (entry f k (encode f (limited n sub))), (c.w.put (storedKey f k ++ le f.S 0 ++ encode f (limited n sub))).pos⟩ : Span)
            = c.w.put (entry f k (encode f (limited n sub))) := by
          simp only [Span.put, entry, List.length_append, le_length]
        rw [hw, h1]
        simp only [Span.put_put, hn, limited, encode]
      · intro i hi
        rw [h3 i hi, g3 i (by simp only; omega)]
        simp only
        exact List.getElem?_set_ne (by omega)
    · obtain ⟨st1, g1, g2, g3⟩ := ihs ⟨c.w.put (storedKey f k ++ le f.S 0), c.stack, c.depth + 1⟩ h.2.1 hl
      have hn : m - c.depth = 0 := by omega
      have hn1 : m - (c.depth + 1) = 0 := by omega
      simp only [hn1] at g1
      obtain ⟨st, h1, h2, h3⟩ := ih ⟨c.w.put (storedKey f k ++ le f.S 0 ++ encode f (limited 0 sub)), st1, c.depth⟩ h.2.2 g2
      refine ⟨st, ?_, h2, fun i hi => by rw [h3 i hi, g3 i (by simp only; omega)]⟩
      simp only [calls, Writer.ops, Writer.op, Writer.beginObject, keyBytes_eq h.1, R.bind_ok, emit_eq, Span.put_put, leBytes_eq, if_neg hdm]
      rw [ops_append, g1, R.bind_ok]
      simp only [Writer.ops, Writer.op, Writer.endObject, Nat.add_one_ne_zero, if_false, Nat.add_sub_cancel, if_neg hdm, R.bind_ok, Span.put_put]
      rw [h1]
      simp only [Span.put_put, hn, limited, encode, encode_append, entry, List.length_nil, List.append_assoc, List.nil_append]

/-- **C264**: the exact content of the buffer for a description nested as deeply as one likes: the sizes of the outer `MaxDepth` levels
are right, every object further inside is stored as empty and its entries follow it on the same level. -/
theorem C264_deep_exact (f : Fmt) (maxDepth : Nat) (d : Desc) (hk : keysOk f d) (buf : List Byte) :
    ∃ c, Writer.ops f maxDepth (Writer.make maxDepth buf) (calls d) = .ok c ∧ c.depth = 0 ∧
      c.w.buf = written buf (encode f (limited maxDepth d)) ∧ c.w.pos = (encode f (limited maxDepth d)).length := by
  obtain ⟨st, h1, _⟩ := deep_ops f maxDepth d (Writer.make maxDepth buf) hk (by simp [Writer.make])
  refine ⟨_, h1, rfl, ?_, ?_⟩
  · simp [Span.put, Writer.make, overlay_zero]
  · simp [Span.put, Writer.make]

def deepDemo : Desc := .object [1, 0] (.object [2, 0] (.raw [3, 0] [9] .done) (.raw [4, 0] [5] .done)) .done

example : keysOk fmt21 deepDemo ∧ depth deepDemo = 2 ∧ encode fmt21 (limited 1 deepDemo) = [1, 0, 11, 2, 0, 0, 3, 0, 1, 9, 4, 0, 1, 5] ∧
    encode fmt21 (limited 2 deepDemo) = [1, 0, 11, 2, 0, 4, 3, 0, 1, 9, 4, 0, 1, 5] := by
  refine ⟨by simp [keysOk, deepDemo, validKey, fmt21], by decide, by decide, by decide⟩

/-- **C264**: the number of bytes, and so what size() returns, is right at every depth. -/
theorem C264_size (f : Fmt) (d : Desc) : ∀ n, (encode f (limited n d)).length = (encode f d).length := by
  induction d with
  | done => intro n; simp only [limited]
  | field k v rest ih => intro n; simp only [limited, encode, List.length_append, ih]
  | raw k v rest ih => intro n; simp only [limited, encode, List.length_append, ih]
  | object k sub rest ihs ih =>
    intro n
    cases n with
    | zero =>
      simp only [limited, encode, encode_append, List.length_append, entry, le_length, ihs, ih, List.length_nil]; omega
    | succ n => simp only [limited, encode, List.length_append, entry, le_length, ihs, ih]

example : (encode fmt21 (limited 1 deepDemo)).length = 14 ∧ (encode fmt21 deepDemo).length = 14 := by decide

/-- **C264**: with no more than `MaxDepth` levels nothing is lost. -/
theorem C264_enough (d : Desc) : ∀ n, depth d ≤ n → limited n d = d := by
  induction d with
  | done => intro n _; simp only [limited]
  | field k v rest ih => intro n h; simp only [limited, ih n h]
  | raw k v rest ih => intro n h; simp only [limited, ih n h]
  | object k sub rest ihs ih =>
    intro n h
    simp only [depth] at h
    cases n with
    | zero => omega
    | succ n => simp only [limited, ihs n (by omega), ih (n + 1) (by omega)]

example : depth deepDemo ≤ 2 ∧ limited 2 deepDemo = deepDemo ∧ limited 1 deepDemo ≠ deepDemo := by decide

theorem keysOk_limited (f : Fmt) (d : Desc) (h : keysOk f d) : ∀ n, keysOk f (limited n d) := by
  induction d with
  | done => intro n; simp only [limited]; trivial
  | field k v rest ih => intro n; simp only [limited]; exact ⟨h.1, ih h.2 n⟩
  | raw k v rest ih => intro n; simp only [limited]; exact ⟨h.1, ih h.2 n⟩
  | object k sub rest ihs ih =>
    intro n
    cases n with
    | zero => simp only [limited]; exact ⟨h.1, keysOk_append f _ _ (ihs h.2.1 0) (ih h.2.2 0)⟩
    | succ n => simp only [limited]; exact ⟨h.1, ihs h.2.1 n, ih h.2.2 (n + 1)⟩

theorem fits_limited (f : Fmt) (d : Desc) (h : fits f d) : ∀ n, fits f (limited n d) := by
  induction d with
  | done => intro n; simp only [limited]; trivial
  | field k v rest ih => intro n; simp only [limited]; exact ⟨h.1, ih h.2 n⟩
  | raw k v rest ih => intro n; simp only [limited]; exact ⟨h.1, ih h.2 n⟩
  | object k sub rest ihs ih =>
    intro n
    cases n with
    | zero => simp only [limited]; exact ⟨Nat.pow_pos (by decide), fits_append f _ _ (ihs h.2.1 0) (ih h.2.2 0)⟩
    | succ n => simp only [limited]; exact ⟨by rw [C264_size]; exact h.1, ihs h.2.1 n, ih h.2.2 (n + 1)⟩

theorem lookup_limited (f : Fmt) (d : Desc) : ∀ (path : List (List Byte)) (n : Nat) (v : List Byte), path.length ≤ n → fieldAt f path d = some v →
    lookup f path (limited n d) = some v := by
  induction d with
  | done => intro path n v _ h; cases path <;> simp [fieldAt] at h
  | field k' w rest ih =>
    intro path n v hn h
    cases path with
    | nil => simp [fieldAt] at h
    | cons k ks =>
      rw [fieldAt] at h
      simp only [limited]
      rw [lookup]
      split
      · next hs => rw [if_pos hs] at h; exact h
      · next hs => rw [if_neg hs] at h; exact ih _ n v hn h
  | raw k' w rest ih =>
    intro path n v hn h
    cases path with
    | nil => simp [fieldAt] at h
    | cons k ks =>
      rw [fieldAt] at h
      simp only [limited]
      rw [lookup]
      split
      · next hs => rw [if_pos hs] at h; exact h
      · next hs => rw [if_neg hs] at h; exact ih _ n v hn h
  | object k' sub rest ihs ih =>
    intro path n v hn h
    cases path with
    | nil => simp [fieldAt] at h
    | cons k ks =>
      cases n with
      | zero => simp at hn
      | succ n =>
        rw [fieldAt] at h
        simp only [limited]
        rw [lookup]
        split
        · next hs => rw [if_pos hs] at h; exact ihs ks n v (by simpa using hn) h
        · next hs => rw [if_neg hs] at h; exact ih _ (n + 1) v hn h

/-- **C264 (partial)**: however deeply the description is nested, a field under a path of at most `MaxDepth` keys is read back with the
value that was written. Missing: longer paths (C264_deep_violated). -/
theorem C264_shallow_partial (f : Fmt) (W maxDepth : Nat) (d : Desc) (hk : keysOk f d) (hf : fits f d) (buf : List Byte)
    (path : List (List Byte)) (v : List Byte) (hkeys : ∀ k ∈ path, validKey f k) (hp : path.length ≤ maxDepth)
    (hb : (encode f d).length ≤ buf.length) (hW : buf.length < 2 ^ W) (hv : fieldAt f path d = some v) :
    ∃ c, Writer.ops f maxDepth (Writer.make maxDepth buf) (calls d) = .ok c ∧ nodePath f W path (c.w.buf.take c.w.pos) = .ok v := by
  obtain ⟨c, h1, _, h2, h3⟩ := C264_deep_exact f maxDepth d hk buf
  have hl := C264_size f d maxDepth
  have he : c.w.buf.take c.w.pos = encode f (limited maxDepth d) := by
    have hb' : (encode f (limited maxDepth d)).length ≤ buf.length := by omega
    rw [h2, h3, written, List.take_of_length_le hb', List.take_left]
  refine ⟨c, h1, ?_⟩
  rw [he]
  exact C42_nested f W path _ v (keysOk_limited f d hk _) (fits_limited f d hf _) hkeys (by omega) (lookup_limited f d path maxDepth v hp hv)

/-- entry 7 beside a nest of three objects, written with `MaxDepth` 2 -/
example : fieldAt fmt21 [[1, 0], [7, 0]] (.object [1, 0] (.object [2, 0] (.object [3, 0] (.raw [7, 0] [1] .done) .done) (.raw [7, 0] [5] .done)) .done) = some [5] ∧
    depth (.object [1, 0] (.object [2, 0] (.object [3, 0] (.raw [7, 0] [1] .done) .done) (.raw [7, 0] [5] .done)) .done) = 3 := by
  refine ⟨by simp [fieldAt, sameKey, fmt21], by decide⟩

/-- **C264 (violated)**: one level deeper a key is found in an object that does not have it, and not in the one that has: with
`MaxDepth` 1, key 3 is only in object 2 inside object 1. -/
theorem C264_deep_violated : ∃ c, Writer.ops fmt21 1 (Writer.make 1 (List.replicate 14 0)) (calls deepDemo) = .ok c ∧
    lookup fmt21 [[1, 0], [3, 0]] deepDemo = none ∧ nodePath fmt21 32 [[1, 0], [3, 0]] (c.w.buf.take c.w.pos) = .ok [9] ∧
    lookup fmt21 [[1, 0], [2, 0], [3, 0]] deepDemo = some [9] ∧ nodePath fmt21 32 [[1, 0], [2, 0], [3, 0]] (c.w.buf.take c.w.pos) = .ok [] := by
  have hk : keysOk fmt21 deepDemo := by simp [keysOk, deepDemo, validKey, fmt21]
  obtain ⟨c, h1, _, h2, h3⟩ := C264_deep_exact fmt21 1 deepDemo hk (List.replicate 14 0)
  have he : c.w.buf.take c.w.pos = [1, 0, 11, 2, 0, 0, 3, 0, 1, 9, 4, 0, 1, 5] := by rw [h2, h3]; decide
  refine ⟨c, h1, by simp [lookup, deepDemo, sameKey, fmt21], ?_, by simp [lookup, deepDemo, sameKey, fmt21], ?_⟩
  · rw [he]; decide +kernel
  · rw [he]; decide +kernel

end CompactBinary
