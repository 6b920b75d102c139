import Verif.Props.CompactBinary
/-! # C262: data of the compact binary format that is cut off -/
namespace CompactBinary
open CompactBinary.Spec

theorem advance_take {p q : List Byte} {m k : Nat} (h : advance (p.take m) k = some q) :
    advance p k = some (p.drop k) ∧ q = (p.drop k).take (m - k) := by
  unfold advance at h ⊢
  split at h
  · cases h
  · next hc =>
    rw [List.length_take] at hc
    rw [if_neg (by omega)]
    cases h
    exact ⟨rfl, List.drop_take⟩

/-- In data that is cut off, a key is found where it is in the whole data, or not at all. -/
theorem findLoop_take (f : Fmt) (key : List Byte) (n : Nat) : ∀ (p : List Byte) (m off : Nat), p.length = n →
    findLoop f key (p.take m) off = findLoop f key p off ∨ findLoop f key (p.take m) off = .ok (0, 0) := by
  induction n using Nat.strongRecOn with
  | ind n ih =>
    intro p m off hn
    by_cases hl : (p.take m).length ≥ f.K + f.S
    · have hl' := hl
      rw [List.length_take] at hl'
      have hs := f.S_pos
      have e1 : asBytes (p.take m) (f.K + f.S) = .ok (p.take (f.K + f.S)) := by
        rw [asBytes_eq _ _ hl, List.take_take, Nat.min_eq_left (by omega)]
      have e2 : asBytes p (f.K + f.S) = .ok (p.take (f.K + f.S)) := asBytes_eq _ _ (by omega)
      rw [findLoop.eq_def, if_pos hl, e1, R.bind_ok]
      split
      · exact .inr rfl
      · next p1 h1 =>
        obtain ⟨a1, a2⟩ := advance_take h1
        rw [findLoop.eq_def f key p, if_pos (by omega), e2, R.bind_ok]
        split
        · next h => rw [a1] at h; cases h
        · next p1' h1' =>
          rw [a1] at h1'; cases h1'
          cases hc : keyCmp f (List.take f.K (p.take (f.K + f.S))) key with
          | ub => exact .inl rfl
          | ok cmp =>
            simp only [R.bind_ok]
            cases cmp with
            | true => exact .inl rfl
            | false =>
              simp only [Bool.false_eq_true, if_false]
              split
              · exact .inr rfl
              · next p2 h2 =>
                rw [a2] at h2
                obtain ⟨b1, b2⟩ := advance_take h2
                split
                · next h => rw [b1] at h; cases h
                · next p2' h2' =>
                  rw [b1] at h2'; cases h2'
                  rw [b2]
                  exact ih _ (by rw [List.length_drop, List.length_drop]; omega) _ _ _ rfl
    · right
      rw [findLoop.eq_def, if_neg hl]

/-- **C262**: from the first `m` bytes of any data, get<T> returns what it returns from the whole, or nothing. -/
theorem C262_get_cut (f : Fmt) (W : Nat) (blob key : List Byte) (hkey : validKey f key) (m n : Nat) (hn : 0 < n)
    (hW : blob.length + n < 2 ^ W) :
    get f W (blob.take m) n key = get f W blob n key ∨ get f W (blob.take m) n key = .ok none := by
  obtain ⟨sz, o, h1, _, h3, _⟩ := findLoop_safe f key hkey _ blob 0 rfl
  rcases findLoop_take f key _ blob m 0 rfl with h | h
  · unfold get getSizeAndOffset
    rw [h, h1]
    simp only [R.bind_ok]
    by_cases hs : sz = n
    · rw [if_pos hs, if_pos hs, Nat.mod_eq_of_lt (by omega)]
      by_cases hc : o + sz ≤ (blob.take m).length
      · have hc' := hc
        rw [List.length_take] at hc'
        left
        rw [if_pos hc, if_pos (by omega), asBytes_eq _ _ (by rw [List.length_drop]; omega), asBytes_eq _ _ (by rw [List.length_drop]; omega),
          List.drop_take, List.take_take, Nat.min_eq_left (by omega)]
      · right; rw [if_neg hc]
    · left; rw [if_neg hs, if_neg hs]
  · right
    unfold get getSizeAndOffset
    rw [h]
    simp only [R.bind_ok]
    rw [if_neg (by omega)]

example : validKey fmt21 [1, 0] ∧ (0 : Nat) < 1 ∧ (encode fmt21 demo).length + 1 < 2 ^ 32 := by
  refine ⟨by simp [validKey, fmt21], by decide, by decide⟩

/-- **C262**: the more of the data is there, the more is found, and what was found stays. -/
theorem C262_get_mono (f : Fmt) (W : Nat) (blob key : List Byte) (hkey : validKey f key) (m m' n : Nat) (hm : m ≤ m') (hn : 0 < n)
    (hW : blob.length + n < 2 ^ W) (v : List Byte) (h : get f W (blob.take m) n key = .ok (some v)) :
    get f W (blob.take m') n key = .ok (some v) := by
  have := C262_get_cut f W (blob.take m') key hkey m n hn (by rw [List.length_take]; omega)
  rw [List.take_take, Nat.min_eq_left hm, h] at this
  rcases this with h1 | h1
  · exact h1.symm
  · cases h1

example : get fmt21 32 ([1, 0, 1, 9, 5, 0].take 4) 1 [1, 0] = .ok (some [9]) := by
  have h := findLoop_entry (f := fmt21) (k := [1, 0]) (key := [1, 0]) (data := [9]) (rest := []) (off := 0) (by simp [validKey, fmt21])
    (by simp [validKey, fmt21]) (by decide)
  have he : entry fmt21 [1, 0] [9] ++ [] = [1, 0, 1, 9] := by simp [entry, storedKey, fmt21, le, List.range_succ]
  rw [he] at h
  unfold get getSizeAndOffset
  simp only [List.take_succ_cons, List.take_zero]
  rw [h]
  simp [sameKey, fmt21, asBytes]

theorem getNode_nil (f : Fmt) (W : Nat) (key : List Byte) : getNode f W [] key = .ok [] := by
  unfold getNode getSizeAndOffset
  rw [findLoop_nil]
  simp

/-- **C262**: from the first `m` bytes of any data, get_node returns what it returns from the whole, or nothing. -/
theorem C262_node_cut (f : Fmt) (W : Nat) (blob key : List Byte) (hkey : validKey f key) (m : Nat) (hW : blob.length + 256 ^ f.S ≤ 2 ^ W) :
    getNode f W (blob.take m) key = getNode f W blob key ∨ getNode f W (blob.take m) key = .ok [] := by
  obtain ⟨sz, o, h1, h2, h3, h4⟩ := findLoop_safe f key hkey _ blob 0 rfl
  have hs := f.S_pos
  have hpow : 256 ^ f.S ≥ 256 := by
    calc 256 ^ f.S ≥ 256 ^ 1 := Nat.pow_le_pow_right (by omega) hs
      _ = 256 := by omega
  rcases findLoop_take f key _ blob m 0 rfl with h | h
  · unfold getNode getSizeAndOffset
    rw [h, h1]
    simp only [R.bind_ok]
    rw [Nat.mod_eq_of_lt (show o + sz < 2 ^ W by omega), Nat.mod_eq_of_lt (show sz < 2 ^ W by omega)]
    by_cases hc : o + sz ≤ (blob.take m).length
    · have hc' := hc
      rw [List.length_take] at hc'
      have hx : ¬ sz = 2 ^ W - 1 := by omega
      left
      rw [if_pos hc, if_pos (show o + sz ≤ blob.length by omega), if_neg (fun h => hx h.2), if_pos hc, if_neg (fun h => hx h.2), if_pos (show o + sz ≤ blob.length by omega),
        List.drop_take, List.take_take, Nat.min_eq_left (by omega)]
    · right; rw [if_neg hc]
  · right
    unfold getNode getSizeAndOffset
    rw [h]
    simp only [R.bind_ok, Nat.zero_add, Nat.zero_mod, Nat.zero_le, if_true, true_and]
    rw [if_neg (by omega)]
    simp

example : validKey fmt21 [2, 0] ∧ (encode fmt21 demo).length + 256 ^ fmt21.S ≤ 2 ^ 32 := by
  refine ⟨by simp [validKey, fmt21], by decide⟩

/-- **C262**: of a description that was serialized and then cut off anywhere, get<T> returns the value that was written, or nothing. -/
theorem C262_written_or_nothing (f : Fmt) (W : Nat) (d : Desc) (key : List Byte) (hk : keysOk f d) (hf : fits f d) (hkey : validKey f key)
    (m n : Nat) (hn : 0 < n) (hW : (encode f d).length + n < 2 ^ W) :
    get f W ((encode f d).take m) n key = .ok none ∨
    ∃ v, first f key d = some v ∧ v.length = n ∧ get f W ((encode f d).take m) n key = .ok (some v) := by
  rcases C262_get_cut f W (encode f d) key hkey m n hn hW with h | h
  · rw [h, (C42_parse f W d key hk hf hkey (by omega)).2.2 n hn]
    cases hv : first f key d with
    | none => exact .inl rfl
    | some v =>
      by_cases hl : v.length = n
      · exact .inr ⟨v, rfl, hl, by simp only [if_pos hl]⟩
      · left; simp only [if_neg hl]
  · exact .inl h

example : keysOk fmt21 demo ∧ validKey fmt21 [1, 0] ∧ first fmt21 [1, 0] demo = some [7, 8] ∧ (encode fmt21 demo).length + 2 < 2 ^ 32 := by
  refine ⟨by simp [keysOk, demo, validKey, fmt21], by simp [validKey, fmt21], by decide, by decide⟩

/-- **C262**: the same below any path of sub-objects. -/
theorem C262_path_cut (f : Fmt) (W : Nat) (path : List (List Byte)) (hp : path ≠ []) (d : Desc) (data : List Byte) (hk : keysOk f d) (hf : fits f d)
    (hkeys : ∀ k ∈ path, validKey f k) (hW : (encode f d).length + 256 ^ f.S ≤ 2 ^ W) (h : lookup f path d = some data) (m : Nat) :
    nodePath f W path ((encode f d).take m) = .ok data ∨ nodePath f W path ((encode f d).take m) = .ok [] := by
  have hn : ∀ ks : List (List Byte), nodePath f W ks [] = .ok [] := by
    intro ks
    induction ks with
    | nil => rfl
    | cons k ks ih => simp only [nodePath, getNode_nil, R.bind_ok]; exact ih
  have hpos : 0 < 256 ^ f.S := Nat.pow_pos (by omega)
  have hwhole := C42_nested f W path d data hk hf hkeys (by omega) h
  cases path with
  | nil => exact absurd rfl hp
  | cons k ks =>
    rcases C262_node_cut f W (encode f d) k (hkeys k (by simp)) m hW with h1 | h1
    · left
      rw [← hwhole]
      simp only [nodePath, h1]
    · right
      simp only [nodePath, h1, R.bind_ok]
      exact hn ks

example : [[2, 0], [1, 0]] ≠ ([] : List (List Byte)) ∧ lookup fmt21 [[2, 0], [1, 0]] demo = some [9] ∧
    (encode fmt21 demo).length + 256 ^ fmt21.S ≤ 2 ^ 32 := by
  refine ⟨by simp, by simp [lookup, demo, sameKey, fmt21], by decide⟩

/-- **C262**: serializing into a buffer that is too small leaves data of which parts can be read: get<T> returns the value that was
written, or nothing. -/
theorem C262_small_buffer (f : Fmt) (W : Nat) (d : Desc) (key buf : List Byte) (hk : keysOk f d) (hf : fits f d) (hkey : validKey f key)
    (hb : buf.length ≤ measure f d) (n : Nat) (hn : 0 < n) (hW : (encode f d).length + n < 2 ^ W) :
    ∃ w, serialize f buf d = .ok w ∧ (get f W w.buf n key = .ok none ∨
      ∃ v, first f key d = some v ∧ v.length = n ∧ get f W w.buf n key = .ok (some v)) := by
  refine ⟨_, C45_serialize f d hk buf, ?_⟩
  rw [measure_eq hk] at hb
  have he : written buf (encode f d) = (encode f d).take buf.length := by
    rw [written, List.drop_eq_nil_of_le hb, List.append_nil]
  simp only [he]
  exact C262_written_or_nothing f W d key hk hf hkey buf.length n hn hW

example : (List.replicate 8 (0 : Byte)).length ≤ measure fmt21 demo := by decide

/-- **C262**, the size alone: get_size may already tell the size of data that is not there. -/
theorem C262_size_cut (f : Fmt) (blob key : List Byte) (m : Nat) :
    getSize f (blob.take m) key = getSize f blob key ∨ getSize f (blob.take m) key = .ok 0 := by
  unfold getSize getSizeAndOffset
  rcases findLoop_take f key _ blob m 0 rfl with h | h
  · rw [h]; exact .inl rfl
  · rw [h]; exact .inr rfl

/-- three bytes are announced, one is there -/
example : getSize fmt21 ([1, 0, 3, 7, 8, 9].take 4) [1, 0] = .ok 3 := by
  unfold getSize getSizeAndOffset
  rw [findLoop.eq_def, if_pos (by decide), asBytes_eq _ _ (by decide), R.bind_ok]
  split
  · next h => simp [advance, fmt21] at h
  · simp [fmt21, keyCmp, fromLe]

end CompactBinary
