import Verif.Lemmas.CompactBinary
/-! # Properties C42 to C47: the compact binary format -/
namespace CompactBinary
open Spec

/-- Two-byte integer keys, one-byte sizes. -/
def fmt21 : Fmt := ⟨2, 1, false, by decide, by decide⟩
/-- Three-character keys, two-byte sizes. -/
def fmtChars : Fmt := ⟨3, 2, true, by decide, by decide⟩

/-- A description with a field, a sub-object holding a field and an empty raw entry, and a repeated key. -/
def demo : Desc :=
  .field [1, 0] [7, 8] (.object [2, 0] (.field [1, 0] [9] (.raw [5, 0] [] .done)) (.raw [1, 0] [3, 3, 3] .done))

def demoChars : Desc := .field [98, 112, 0] [7] (.object [120, 0] (.raw [98, 112, 109] [1, 2] .done) .done)

/-- **C44**: for every description, measure(), the result of serialize() (into a buffer of any size), the result of
stream() and the number of bytes given to the sink are all the length of the encoding, and the sink receives, in
order, exactly the encoding. -/
theorem C44_sizes (f : Fmt) (d : Desc) (hk : keysOk f d) (buf : List Byte) :
    measure f d = (encode f d).length ∧
    (∃ w, serialize f buf d = .ok w ∧ w.pos = measure f d) ∧
    (∃ s, stream f d = .ok s ∧ s.count = measure f d ∧ s.chunks.flatten = encode f d ∧ s.chunks.flatten.length = measure f d) := by
  have hm := measure_eq hk
  refine ⟨hm, ⟨_, describe_span f d _ hk, by simp [Span.put, hm]⟩, ?_⟩
  obtain ⟨cs, h1, h2⟩ := describe_sink f d ⟨[], 0⟩ hk
  exact ⟨_, h1, by simp [hm], by simpa using h2, by rw [List.nil_append, h2, hm]⟩

example : keysOk fmt21 demo ∧ measure fmt21 demo = 21 := by
  refine ⟨by simp [keysOk, demo, validKey, fmt21], by decide⟩

/-- **C44**: with a buffer that is large enough, stream() emits exactly the bytes serialize() writes. -/
theorem C44_stream_is_serialize (f : Fmt) (d : Desc) (hk : keysOk f d) (buf : List Byte) (hb : measure f d ≤ buf.length) :
    ∃ w s, serialize f buf d = .ok w ∧ stream f d = .ok s ∧ s.chunks.flatten = w.buf.take w.pos := by
  obtain ⟨cs, h1, h2⟩ := describe_sink f d ⟨[], 0⟩ hk
  refine ⟨_, _, describe_span f d _ hk, h1, ?_⟩
  rw [measure_eq hk] at hb
  simp only [List.nil_append, h2, Span.put, overlay_zero, written, Nat.zero_add]
  rw [List.take_of_length_le hb, List.take_left]

example : keysOk fmt21 demo ∧ measure fmt21 demo ≤ (List.replicate 30 (0 : Byte)).length := by
  refine ⟨by simp [keysOk, demo, validKey, fmt21], by decide⟩

/-- **C45**: serialize into a buffer of any size writes the first min(size, needed) bytes of the encoding, leaves the rest of
the buffer alone, has no undefined behaviour, and reports the full size. -/
theorem C45_serialize (f : Fmt) (d : Desc) (hk : keysOk f d) (buf : List Byte) :
    serialize f buf d = .ok ⟨written buf (encode f d), (encode f d).length⟩ := by
  rw [serialize, describe_span f d _ hk]
  simp [Span.put, overlay_zero]

/-- a buffer two bytes too short, and one with room to spare -/
example : serialize fmt21 [0xAA, 0xAA, 0xAA] (.field [1, 0] [7, 8] .done) = .ok ⟨[1, 0, 2], 5⟩ ∧
    serialize fmt21 (List.replicate 7 0xAA) (.field [1, 0] [7, 8] .done) = .ok ⟨[1, 0, 2, 7, 8, 0xAA, 0xAA], 5⟩ := by decide

/-- **C43**, **C45**: for every description nested at most MaxDepth deep, every buffer: the imperative writer ends with
the same buffer and size as serialize, namely the encoding as far as it fits. -/
theorem C43_writer_is_serializer (f : Fmt) (maxDepth : Nat) (d : Desc) (hk : keysOk f d) (hd : depth d ≤ maxDepth)
    (buf : List Byte) : ∃ c w, Writer.ops f maxDepth (Writer.make maxDepth buf) (calls d) = .ok c ∧
      serialize f buf d = .ok w ∧ c.w = w ∧ c.w.buf = written buf (encode f d) ∧ c.w.pos = (encode f d).length ∧ c.depth = 0 := by
  obtain ⟨st, h1, h2, h3⟩ := ops_calls f maxDepth d (Writer.make maxDepth buf) hk (by simp [Writer.make])
    (by simpa [Writer.make] using hd)
  refine ⟨_, _, h1, C45_serialize f d hk buf, ?_, ?_, ?_, rfl⟩ <;> simp [Writer.make, Span.put, overlay_zero]

example : keysOk fmt21 demo ∧ depth demo ≤ 8 ∧ calls demo = [.field [1, 0] [7, 8], .beginObject [2, 0], .field [1, 0] [9],
    .raw [5, 0] [], .endObject, .raw [1, 0] [3, 3, 3]] := by
  refine ⟨by simp [keysOk, demo, validKey, fmt21], by decide, by decide⟩

/-- The condition on the depth is needed: one level deeper and the writer leaves the size 0. -/
theorem C43_depth_needed : ∃ d, keysOk fmt21 d ∧ depth d = 2 ∧
    (Writer.ops fmt21 1 (Writer.make 1 (List.replicate 10 0)) (calls d)) = .ok ⟨⟨[1, 0, 7, 2, 0, 0, 3, 0, 1, 9], 10⟩, [2], 0⟩ ∧
    serialize fmt21 (List.replicate 10 0) d = .ok ⟨[1, 0, 7, 2, 0, 4, 3, 0, 1, 9], 10⟩ :=
  ⟨.object [1, 0] (.object [2, 0] (.raw [3, 0] [9] .done) .done) .done, by simp [keysOk, validKey, fmt21], by decide, by decide, by decide⟩

/-- The marks of the open objects lie before the write position. -/
structure WriterInv (f : Fmt) (m : Nat) (c : Writer) : Prop where
  len : c.stack.length = m
  marks : ∀ (i p : Nat), i < c.depth → c.stack[i]? = some p → p + f.S ≤ c.w.pos

theorem WriterInv.op {f : Fmt} {m : Nat} {c : Writer} (h : WriterInv f m c) (o : Op)
    (hk : ∀ k, (o = .beginObject k ∨ (∃ v, o = .field k v) ∨ ∃ v, o = .raw k v) → validKey f k) :
    ∃ c', c.op f m o = .ok c' ∧ WriterInv f m c' ∧ c'.w.buf.length = c.w.buf.length ∧ c.w.pos ≤ c'.w.pos ∧
      ∀ i : Nat, c'.w.pos ≤ i → c'.w.buf[i]? = c.w.buf[i]? := by
  have hraw : ∀ k v, validKey f k → ∃ c', c.raw f k v = .ok c' ∧ WriterInv f m c' ∧ c'.w.buf.length = c.w.buf.length ∧
      c.w.pos ≤ c'.w.pos ∧ ∀ i : Nat, c'.w.pos ≤ i → c'.w.buf[i]? = c.w.buf[i]? := by
    intro k v hv
    simp only [Writer.raw, keyBytes_eq hv, R.bind_ok, emit_eq, Span.put_put]
    refine ⟨_, rfl, ⟨h.len, ?_⟩, by simp [Span.put, overlay_length], by simp [Span.put], ?_⟩
    · intro i p hi hp
      have := h.marks i p hi hp
      simp only [Span.put]; omega
    · intro i hi
      simp only [Span.put] at hi ⊢
      rw [overlay_getElem?, if_neg (by omega)]
  cases o with
  | field k v => exact hraw k v (hk k (Or.inr (Or.inl ⟨v, rfl⟩)))
  | raw k v => exact hraw k v (hk k (Or.inr (Or.inr ⟨v, rfl⟩)))
  | beginObject k =>
    have hv := hk k (Or.inl rfl)
    simp only [Writer.op, Writer.beginObject, keyBytes_eq hv, R.bind_ok, emit_eq, Span.put_put]
    by_cases hd : c.depth < m
    · rw [if_pos hd, arrSet_lt (by rw [h.len]; exact hd)]
      refine ⟨_, rfl, ⟨by simp [h.len], ?_⟩, by simp [Span.put, overlay_length], by simp [Span.put], ?_⟩
      · intro i p hi hp
        simp only at hi hp
        by_cases hi2 : c.depth = i
        · subst hi2
          rw [List.getElem?_set_self (by rw [h.len]; exact hd)] at hp
          cases hp
          simp only [Span.put, List.length_append, leBytes_length]; omega
        · rw [List.getElem?_set_ne hi2] at hp
          have := h.marks i p (by omega) hp
          simp only [Span.put]; omega
      · intro i hi
        simp only [Span.put] at hi ⊢
        rw [overlay_getElem?, if_neg (by omega)]
    · rw [if_neg hd]
      refine ⟨_, rfl, ⟨h.len, ?_⟩, by simp [Span.put, overlay_length], by simp [Span.put], ?_⟩
      · intro i p hi hp
        simp only at hi hp
        have h2 := (List.getElem?_eq_some_iff.mp hp).1
        have := h.marks i p (by rw [h.len] at h2; omega) hp
        simp only [Span.put]; omega
      · intro i hi
        simp only [Span.put] at hi ⊢
        rw [overlay_getElem?, if_neg (by omega)]
  | endObject =>
    simp only [Writer.op, Writer.endObject]
    split
    · exact ⟨c, rfl, h, rfl, Nat.le_refl _, fun _ _ => rfl⟩
    · next h0 =>
      split
      · next hd =>
        have hlt : c.depth - 1 < c.stack.length := by rw [h.len]; exact hd
        rw [arrGet_lt hlt]
        simp only [R.bind_ok, writeAt_eq]
        refine ⟨_, rfl, ⟨h.len, ?_⟩, by simp [overlay_length], Nat.le_refl _, ?_⟩
        · intro i p hi hp
          exact h.marks i p (by simp only at hi; omega) hp
        · intro i hi
          simp only at hi ⊢
          have := h.marks (c.depth - 1) _ (by omega) (List.getElem?_eq_getElem hlt)
          rw [overlay_getElem?, if_neg (by simp only [leBytes_length]; omega)]
      · exact ⟨_, rfl, ⟨h.len, fun i p hi hp => h.marks i p (by simp only at hi; omega) hp⟩, rfl, Nat.le_refl _, fun _ _ => rfl⟩

/-- **C45**: whatever calls are made (unbalanced end_object, any nesting depth, any buffer): no undefined behaviour, and
bytes of the buffer from size() on are never touched. -/
theorem C45_writer_any_calls (f : Fmt) (maxDepth : Nat) (ops : List Op) (buf : List Byte)
    (hk : ∀ o ∈ ops, ∀ k, (o = .beginObject k ∨ (∃ v, o = .field k v) ∨ ∃ v, o = .raw k v) → validKey f k) :
    ∃ c, Writer.ops f maxDepth (Writer.make maxDepth buf) ops = .ok c ∧ c.w.buf.length = buf.length ∧
      ∀ i : Nat, c.w.pos ≤ i → c.w.buf[i]? = buf[i]? := by
  have key : ∀ (ops : List Op) (c : Writer), WriterInv f maxDepth c →
      (∀ o ∈ ops, ∀ k, (o = .beginObject k ∨ (∃ v, o = .field k v) ∨ ∃ v, o = .raw k v) → validKey f k) →
      ∃ c', Writer.ops f maxDepth c ops = .ok c' ∧ c'.w.buf.length = c.w.buf.length ∧ c.w.pos ≤ c'.w.pos ∧
        ∀ i : Nat, c'.w.pos ≤ i → c'.w.buf[i]? = c.w.buf[i]? := by
    intro ops
    induction ops with
    | nil => intro c _ _; exact ⟨c, rfl, rfl, Nat.le_refl _, fun _ _ => rfl⟩
    | cons o l ih =>
      intro c hc hk
      obtain ⟨c1, h1, h2, h3, h4, h5⟩ := hc.op o (hk o (by simp))
      obtain ⟨c2, g1, g2, g3, g4⟩ := ih c1 h2 (fun o ho => hk o (by simp [ho]))
      refine ⟨c2, by simp only [Writer.ops, h1, R.bind_ok, g1], by omega, by omega, ?_⟩
      intro i hi
      rw [g4 i hi, h5 i (by omega)]
  obtain ⟨c, h1, h2, _, h4⟩ := key ops (Writer.make maxDepth buf) ⟨by simp [Writer.make], by intro i p hi; simp [Writer.make] at hi⟩ hk
  exact ⟨c, h1, h2, h4⟩

example : ∀ o ∈ [Op.endObject, .beginObject [1, 0], .beginObject [2, 0], .raw [3, 0] [1]], ∀ k,
    (o = .beginObject k ∨ (∃ v, o = .field k v) ∨ ∃ v, o = .raw k v) → validKey fmt21 k := by
  simp [validKey, fmt21]

/-! ### Parsing -/

theorem getNode_of {f : Fmt} {W : Nat} {blob key : List Byte} {sz o : Nat} (h : getSizeAndOffset f blob key = .ok (sz, o))
    (hW : blob.length < 2 ^ W) (hle : o + sz ≤ blob.length) (h0 : 0 < o ∨ sz = 0 ∧ o = 0) :
    getNode f W blob key = .ok ((blob.drop o).take sz) := by
  unfold getNode
  rw [h]
  simp only [R.bind_ok]
  rw [Nat.mod_eq_of_lt (show o + sz < 2 ^ W by omega), if_pos hle, Nat.mod_eq_of_lt (show sz < 2 ^ W by omega)]
  split
  · next hc =>
    have h1 : sz = 0 := by omega
    have h2 : blob = [] := by rw [← List.length_eq_zero_iff]; omega
    simp [h1, h2]
  · rfl

theorem find_top {f : Fmt} {d : Desc} {key : List Byte} (hk : keysOk f d) (hf : fits f d) (hkey : validKey f key) :
    (∃ data o, first f key d = some data ∧ getSizeAndOffset f (encode f d) key = .ok (data.length, o) ∧ 0 < o ∧
      o + data.length ≤ (encode f d).length ∧ ((encode f d).drop o).take data.length = data) ∨
    ((first f key d = none ∨ first f key d = some []) ∧ getSizeAndOffset f (encode f d) key = .ok (0, 0)) := by
  unfold getSizeAndOffset
  rcases find_encode f key hkey d 0 hk hf with ⟨data, o, h1, h2, h3⟩ | h
  · left; rw [Nat.zero_add] at h2; exact ⟨data, o, h1, h2, h3⟩
  · right; exact h

/-- **C42**: parsing the encoding of any description whose sizes fit: get_node(key) is the data of the first entry with that key
(empty if there is none), get_size(key) its size (0 if none), and get<T>(key) its data iff the size is sizeof(T). -/
theorem C42_parse (f : Fmt) (W : Nat) (d : Desc) (key : List Byte) (hk : keysOk f d) (hf : fits f d) (hkey : validKey f key)
    (hW : (encode f d).length < 2 ^ W) :
    getNode f W (encode f d) key = .ok ((first f key d).getD []) ∧
    getSize f (encode f d) key = .ok ((first f key d).getD []).length ∧
    ∀ n, 0 < n → get f W (encode f d) n key =
      .ok (match first f key d with | some v => if v.length = n then some v else none | none => none) := by
  rcases find_top hk hf hkey with ⟨data, o, h1, h2, h3, h4, h5⟩ | ⟨h1, h2⟩
  · rw [h1]
    refine ⟨?_, ?_, ?_⟩
    · rw [getNode_of h2 hW h4 (Or.inl h3), h5]; rfl
    · simp only [getSize, h2, R.bind_ok, Option.getD_some]
    · intro n hn
      simp only [get, h2, R.bind_ok]
      by_cases hd : data.length = n
      · rw [if_pos hd, if_pos hd, Nat.mod_eq_of_lt (by omega), if_pos h4, asBytes_eq _ _ (by simp; omega), R.bind_ok, ← hd, h5]
      · rw [if_neg hd, if_neg hd]
  · have hgd : (first f key d).getD [] = [] := by rcases h1 with h | h <;> rw [h] <;> rfl
    rw [hgd]
    refine ⟨?_, ?_, ?_⟩
    · rw [getNode_of h2 hW (by omega) (Or.inr ⟨rfl, rfl⟩)]; simp
    · simp only [getSize, h2, R.bind_ok, List.length_nil]
    · intro n hn
      simp only [get, h2, R.bind_ok]
      rw [if_neg (by omega)]
      rcases h1 with h | h
      · rw [h]
      · rw [h]; simp only [List.length_nil]; rw [if_neg (by omega)]

example : keysOk fmt21 demo ∧ fits fmt21 demo ∧ validKey fmt21 [1, 0] ∧ (encode fmt21 demo).length < 2 ^ 32 ∧
    first fmt21 [1, 0] demo = some [7, 8] ∧ first fmt21 [2, 0] demo = some [1, 0, 1, 9, 5, 0, 0] ∧ first fmt21 [3, 0] demo = none := by
  refine ⟨by simp [keysOk, demo, validKey, fmt21], ?_, by simp [validKey, fmt21], by decide, by decide, by decide, by decide⟩
  simp only [fits, demo]
  exact ⟨by decide, ⟨by decide, ⟨by decide, by decide, trivial⟩, by decide, trivial⟩⟩

/-- What following a path of keys with get_node yields. -/
def nodePath (f : Fmt) (W : Nat) : List (List Byte) → List Byte → R (List Byte)
  | [], blob => .ok blob
  | k :: ks, blob => do
    let b ← getNode f W blob k
    nodePath f W ks b

/-- **C42**: nested objects: following a path of keys with get_node through sub-objects yields what the description has
under that path. -/
theorem C42_nested (f : Fmt) (W : Nat) (path : List (List Byte)) (d : Desc) (data : List Byte) (hk : keysOk f d) (hf : fits f d)
    (hkeys : ∀ k ∈ path, validKey f k) (hW : (encode f d).length < 2 ^ W) (h : lookup f path d = some data) :
    nodePath f W path (encode f d) = .ok data := by
  have hfirst : ∀ (k : List Byte) (ks : List (List Byte)) (d : Desc) (data : List Byte), keysOk f d → fits f d → lookup f (k :: ks) d = some data →
      (ks = [] ∧ first f k d = some data) ∨
      (∃ sub, first f k d = some (encode f sub) ∧ keysOk f sub ∧ fits f sub ∧ lookup f ks sub = some data) := by
    intro k ks d data
    induction d with
    | done => intro _ _ h; simp [lookup] at h
    | field k' v rest ih =>
      intro hk hf h
      rw [lookup] at h
      rw [first]
      split at h
      · next hs =>
        split at h
        · next hks => left; cases h; exact ⟨hks, by rw [if_pos hs]⟩
        · cases h
      · next hs => rw [if_neg hs]; exact ih hk.2 hf.2 h
    | raw k' v rest ih =>
      intro hk hf h
      rw [lookup] at h
      rw [first]
      split at h
      · next hs =>
        split at h
        · next hks => left; cases h; exact ⟨hks, by rw [if_pos hs]⟩
        · cases h
      · next hs => rw [if_neg hs]; exact ih hk.2 hf.2 h
    | object k' sub rest _ ih =>
      intro hk hf h
      rw [lookup] at h
      rw [first]
      split at h
      · next hs => right; exact ⟨sub, by rw [if_pos hs], hk.2.1, hf.2.1, h⟩
      · next hs => rw [if_neg hs]; exact ih hk.2.2 hf.2.2 h
  induction path generalizing d with
  | nil => rw [lookup] at h; cases h; rfl
  | cons k ks ih =>
    have hkey := hkeys k (by simp)
    have hg := (C42_parse f W d k hk hf hkey hW).1
    simp only [nodePath, hg, R.bind_ok]
    rcases hfirst k ks d data hk hf h with ⟨rfl, h1⟩ | ⟨sub, h1, h2, h3, h4⟩
    · rw [h1]; rfl
    · rw [h1]
      apply ih sub h2 h3 (fun k hk => hkeys k (by simp [hk])) _ h4
      rcases find_top hk hf hkey with ⟨data', o, g1, _, _, g4, _⟩ | ⟨g1, _⟩
      · rw [h1] at g1; cases g1; omega
      · rcases g1 with g | g
        · rw [h1] at g; cases g
        · rw [h1] at g; rw [Option.some.inj g]; exact Nat.two_pow_pos W

example : lookup fmt21 [[2, 0], [1, 0]] demo = some [9] ∧ (∀ k ∈ [[2, 0], [1, 0]], validKey fmt21 k) := by
  refine ⟨by simp [lookup, demo, sameKey, fmt21], by simp [validKey, fmt21]⟩

/-- **C42**: serialize into a large enough buffer and parse the bytes written. -/
theorem C42_round_trip (f : Fmt) (W : Nat) (d : Desc) (key buf : List Byte) (hk : keysOk f d) (hf : fits f d)
    (hkey : validKey f key) (hb : measure f d ≤ buf.length) (hW : buf.length < 2 ^ W) :
    ∃ w, serialize f buf d = .ok w ∧ getNode f W (w.buf.take w.pos) key = .ok ((first f key d).getD []) := by
  refine ⟨_, C45_serialize f d hk buf, ?_⟩
  rw [measure_eq hk] at hb
  have he : (written buf (encode f d)).take (encode f d).length = encode f d := by
    rw [written, List.take_of_length_le hb, List.take_left]
  simp only [he]
  exact (C42_parse f W d key hk hf hkey (by omega)).1

/-- a character-array key is found again -/
example : keysOk fmtChars demoChars ∧ fits fmtChars demoChars ∧ validKey fmtChars [120, 0, 55] ∧
    measure fmtChars demoChars ≤ (List.replicate 30 (0 : Byte)).length ∧ 30 < 2 ^ 16 ∧ first fmtChars [120, 0, 55] demoChars = some [98, 112, 109, 2, 0, 1, 2] := by
  refine ⟨by simp [keysOk, demoChars, validKey, fmtChars], ?_, by simp [validKey, fmtChars], by decide, by decide, by decide⟩
  simp only [fits, demoChars]
  exact ⟨by decide, by decide, ⟨by decide, trivial⟩, trivial⟩

/-- Needed: sizes that do not fit are truncated, and the rest is misread. -/
theorem C42_truncation_needed (v : List Byte) (hv : v.length = 257) : keysOk fmt21 (.raw [1, 0] v .done) ∧
    ¬ fits fmt21 (.raw [1, 0] v .done) ∧ first fmt21 [1, 0] (.raw [1, 0] v .done) = some v ∧
    getSize fmt21 (encode fmt21 (.raw [1, 0] v .done)) [1, 0] = .ok 1 := by
  refine ⟨by simp [keysOk, validKey, fmt21], by simp [fits, fmt21, hv], by simp [first, sameKey, fmt21], ?_⟩
  have he : encode fmt21 (.raw [1, 0] v .done) = 1 :: 0 :: 1 :: v := by
    simp [encode, entry, storedKey, fmt21, le, hv, List.range_succ]
  rw [he]
  simp only [getSize, getSizeAndOffset]
  rw [findLoop.eq_def, if_pos (by simp [fmt21]), asBytes_eq _ _ (by simp [fmt21]), R.bind_ok]
  split
  · next h => simp [advance, fmt21, hv] at h
  · simp [fmt21, keyCmp, fromLe]

example : (List.replicate 257 (5 : Byte)).length = 257 := List.length_replicate

/-! ### Arbitrary bytes -/

/-- **C46**: on any bytes and any key: the search terminates without reading outside the blob, with an offset inside it, and get<T>
yields nothing or sizeof(T) bytes of the blob. -/
theorem C46_get_safe (f : Fmt) (W : Nat) (blob key : List Byte) (hkey : validKey f key) :
    ∃ sz o, getSizeAndOffset f blob key = .ok (sz, o) ∧ o ≤ blob.length ∧ getSize f blob key = .ok sz ∧
      ∀ n, blob.length + n < 2 ^ W → ∃ r, get f W blob n key = .ok r ∧
        ∀ v, r = some v → o + n ≤ blob.length ∧ v = (blob.drop o).take n ∧ v.length = n := by
  obtain ⟨sz, o, h1, h2, h3, h4⟩ := findLoop_safe f key hkey blob.length blob 0 rfl
  rw [Nat.zero_add] at h3
  refine ⟨sz, o, h1, h3, by simp only [getSize, getSizeAndOffset, h1, R.bind_ok], ?_⟩
  intro n hn
  simp only [get, getSizeAndOffset, h1, R.bind_ok]
  split
  · next hs =>
    rw [Nat.mod_eq_of_lt (by omega)]
    split
    · next hle =>
      rw [asBytes_eq _ _ (by simp; omega), R.bind_ok]
      refine ⟨_, rfl, ?_⟩
      rintro v ⟨⟩
      exact ⟨by omega, rfl, by simp; omega⟩
    · exact ⟨_, rfl, by simp⟩
  · exact ⟨_, rfl, by simp⟩

/-- **C46** (partial): get_node has no undefined behaviour and yields a part of the blob, on any bytes, if DataSizeT is so
narrow that offset plus size cannot wrap. Missing: DataSizeT as wide as size_t (see below). -/
theorem C46_node_safe_partial (f : Fmt) (W : Nat) (blob key : List Byte) (hkey : validKey f key)
    (hW : blob.length + 256 ^ f.S ≤ 2 ^ W) :
    ∃ o n, getNode f W blob key = .ok ((blob.drop o).take n) ∧ o + n ≤ blob.length := by
  obtain ⟨sz, o, h1, h2, h3, h4⟩ := findLoop_safe f key hkey blob.length blob 0 rfl
  rw [Nat.zero_add] at h3
  by_cases hle : o + sz ≤ blob.length
  · refine ⟨o, sz, getNode_of h1 (by omega) hle ?_, hle⟩
    have := f.S_pos
    omega
  · refine ⟨0, 0, ?_, Nat.zero_le _⟩
    simp only [getNode, getSizeAndOffset, h1, R.bind_ok]
    rw [Nat.mod_eq_of_lt (by omega), if_neg hle]
    simp

example : validKey fmt21 [1, 0] ∧ [0xff, 0xff, 0x80, 1].length + 256 ^ fmt21.S ≤ 2 ^ 32 := by
  refine ⟨by simp [validKey, fmt21], by decide⟩

/-- One-byte keys, four-byte sizes: as wide as size_t on a 32-bit target. -/
def fmt14 : Fmt := ⟨1, 4, false, by decide, by decide⟩

/-- **C46, violated**: with 4-byte sizes on a 32-bit target a hostile size makes offset + size wrap around, the check
passes and get_node forms a span far outside the 6-byte blob. -/
theorem C46_node_violated : getNode fmt14 32 [1, 0xFC, 0xFF, 0xFF, 0xFF, 0] [1] = .ub := by
  have h : getSizeAndOffset fmt14 [1, 0xFC, 0xFF, 0xFF, 0xFF, 0] [1] = .ok (0xFFFFFFFC, 5) := by
    unfold getSizeAndOffset
    rw [findLoop.eq_def, if_pos (by decide), asBytes_eq _ _ (by decide), R.bind_ok]
    split
    · next h => revert h; decide
    · simp [fmt14, keyCmp, fromLe]
  simp only [getNode, h, R.bind_ok]
  decide

/-! ### Character-array keys -/

/-- **C47**: a stored key matches a looked-up key iff they agree on all bytes, or up to and including a NUL; no byte after
the terminator of either is read. -/
theorem C47_compare (K : Nat) (a b : List Byte) (ha : K ≤ a.length ∨ 0 ∈ a) (hb : K ≤ b.length ∨ 0 ∈ b) :
    ∃ r, compareNullterm a b K = .ok r ∧ (r = true ↔ agree K a b) := by
  induction K generalizing a b with
  | zero => exact ⟨true, by simp [compareNullterm], by simp [agree]⟩
  | succ K ih =>
    cases a with
    | nil => simp at ha
    | cons x a =>
      cases b with
      | nil => simp at hb
      | cons y b =>
        unfold compareNullterm
        by_cases h0 : x = 0 ∧ y = 0
        · rw [if_pos h0]
          exact ⟨true, rfl, by simp only [true_iff]; right; exact ⟨0, by omega, by simp [h0.1], by simp [h0.2], by intros; omega⟩⟩
        · rw [if_neg h0]
          by_cases hxy : x = y
          · subst hxy
            have hx : x ≠ 0 := fun h => h0 ⟨h, h⟩
            rw [if_neg (by simp)]
            obtain ⟨r, h1, h2⟩ := ih a b (by rcases ha with h | h <;> simp_all [Ne.symm]) (by rcases hb with h | h <;> simp_all [Ne.symm])
            refine ⟨r, h1, h2.trans ?_⟩
            constructor
            · rintro (h | ⟨n, g1, g2, g3, g4⟩)
              · left
                intro i hi
                cases i with
                | zero => rfl
                | succ i => simpa using h i (by omega)
              · right
                refine ⟨n + 1, by omega, by simpa using g2, by simpa using g3, ?_⟩
                intro i hi
                cases i with
                | zero => rfl
                | succ i => simpa using g4 i (by omega)
            · rintro (h | ⟨n, g1, g2, g3, g4⟩)
              · left; intro i hi; simpa using h (i + 1) (by omega)
              · cases n with
                | zero => simp only [List.getElem?_cons_zero, Option.some.injEq] at g2; exact absurd g2 hx
                | succ n =>
                  right
                  refine ⟨n, by omega, by simpa using g2, by simpa using g3, ?_⟩
                  intro i hi; simpa using g4 (i + 1) (by omega)
          · rw [if_pos hxy]
            refine ⟨false, rfl, by simp, ?_⟩
            rintro (h | ⟨n, g1, g2, g3, g4⟩)
            · have := h 0 (by omega); simp at this; exact absurd this hxy
            · cases n with
              | zero =>
                simp only [List.getElem?_cons_zero, Option.some.injEq] at g2 g3
                exact absurd ⟨g2, g3⟩ h0
              | succ n => have := g4 0 (by omega); simp at this; exact absurd this hxy

/-- the padding after the terminator differs, the keys match; a differing text does not -/
example : compareNullterm [120, 0, 17] [120, 0, 99] 3 = .ok true ∧ compareNullterm [120, 0, 17] [120, 0] 3 = .ok true ∧
    compareNullterm [120, 121, 0] [120, 0, 0] 3 = .ok false ∧ compareNullterm [1, 2, 3] [1, 2, 3] 3 = .ok true := by decide

/-- **C47**: a key written by writer or serializer is found again by any key with the same text, whatever follows its terminator. -/
theorem C47_written_key_matches (f : Fmt) (hf : f.arr = true) (k key : List Byte) (hk : validKey f k) (hkey : validKey f key) :
    ∃ stored r, keyBytes f k = .ok stored ∧ keyCmp f stored key = .ok r ∧ (r = true ↔ cstr f.K k = cstr f.K key) := by
  refine ⟨_, _, keyBytes_eq hk, keyCmp_stored hk hkey, ?_⟩
  rw [decide_eq_true_iff, sameKey, if_pos hf]

example : validKey fmtChars [120, 0] ∧ validKey fmtChars [120, 0, 5] ∧ cstr 3 [120, 0] = cstr 3 [120, 0, (5 : Byte)] ∧
    keyBytes fmtChars [120, 0] = .ok [120, 0, 0] := by
  refine ⟨by simp [validKey, fmtChars], by simp [validKey, fmtChars], by decide, by decide⟩

end CompactBinary
