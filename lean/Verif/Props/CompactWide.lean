import Verif.Model.CompactWide
import Verif.Props.CompactBinary
/-! # Property C241: the compact binary format with sizes wider than size_t -/

namespace CompactBinary
open Spec

theorem findLoopW_nil (f : Fmt) (W : Nat) (key : List Byte) (off : Nat) : findLoopW f W key [] off = .ok (0, 0) := by
  rw [findLoopW.eq_def, if_neg (by have := f.S_pos; simp; omega)]

/-- The parser at an entry. -/
theorem findLoopW_entry {f : Fmt} {W : Nat} {k key data rest : List Byte} {off : Nat} (hk : validKey f k) (hkey : validKey f key)
    (hfit : data.length < 256 ^ f.S) (hW : data.length < 2 ^ W) :
    findLoopW f W key (entry f k data ++ rest) off =
      if data ++ rest = [] then .ok (0, 0)
      else if sameKey f k key then .ok (data.length, off + (f.K + f.S))
      else findLoopW f W key rest (off + (f.K + f.S) + data.length) := by
  have hl := storedKey_length hk
  have hle := le_length f.S data.length
  have he : entry f k data ++ rest = (storedKey f k ++ le f.S data.length) ++ (data ++ rest) := by simp [entry]
  have hH : (storedKey f k ++ le f.S data.length).length = f.K + f.S := by simp [hl, hle]
  rw [he, findLoopW.eq_def, if_pos (by simp only [List.length_append]; omega),
    asBytes_eq _ _ (by simp only [List.length_append]; omega)]
  rw [R.bind_ok, List.take_left' hH]
  have hsz : fromLe (List.drop f.K (storedKey f k ++ le f.S data.length)) = data.length := by
    rw [List.drop_left' hl, ← leBytes_eq, fromLe_leBytes _ _ hfit]
  have hmod : data.length % 2 ^ W = data.length := Nat.mod_eq_of_lt hW
  simp only [List.take_left' hl, keyCmp_stored hk hkey, R.bind_ok, hsz]
  split
  · next h1 =>
    unfold advance at h1
    split at h1
    · next hge =>
      rw [if_pos]
      simp only [List.length_append] at hge hH
      rw [← List.length_eq_zero_iff, List.length_append]; omega
    · cases h1
  · next p1 h1 =>
    unfold advance at h1
    split at h1
    · cases h1
    · next hge =>
      cases h1
      have hne : ¬ (data ++ rest = []) := by
        intro hh; apply hge; rw [hh, List.append_nil]; omega
      rw [if_neg hne]
      by_cases hs : sameKey f k key
      · simp [hs]
      · simp only [hs, decide_false, Bool.false_eq_true, if_false]
        split
        · next h2 =>
          rw [List.drop_left' hH, hsz, hmod] at h2
          unfold advance at h2
          split at h2
          · next hge2 =>
            have : rest = [] := by
              rw [← List.length_eq_zero_iff]; simp only [List.length_append] at hge2; omega
            rw [this, findLoopW_nil]
          · cases h2
        · next p2 h2 =>
          rw [List.drop_left' hH, hsz, hmod] at h2
          unfold advance at h2
          split at h2
          · cases h2
          · cases h2
            simp only [List.drop_left, hmod]

/-- On an encoding that fits into memory the search finds what it would find with unbounded sizes. -/
theorem findLoopW_eq (f : Fmt) (W : Nat) (key : List Byte) (hkey : validKey f key) (d : Desc) : ∀ off, keysOk f d → fits f d → (encode f d).length < 2 ^ W →
    findLoopW f W key (encode f d) off = findLoop f key (encode f d) off := by
  have step : ∀ (k data : List Byte) (rest : Desc) (off : Nat), validKey f k → data.length < 256 ^ f.S → (entry f k data ++ encode f rest).length < 2 ^ W →
      ((encode f rest).length < 2 ^ W → ∀ off, findLoopW f W key (encode f rest) off = findLoop f key (encode f rest) off) →
      findLoopW f W key (entry f k data ++ encode f rest) off = findLoop f key (entry f k data ++ encode f rest) off := by
    intro k data rest off hk hfit hlen ih
    have hl : (entry f k data).length = f.K + f.S + data.length := by
      simp [entry, storedKey_length hk, le_length, Nat.add_assoc]
    rw [List.length_append] at hlen
    rw [findLoopW_entry hk hkey hfit (by omega), findLoop_entry hk hkey hfit]
    split
    · rfl
    · split
      · rfl
      · exact ih (by omega) _
  induction d with
  | done => intro off _ _ _; show findLoopW f W key [] off = findLoop f key [] off; rw [findLoopW_nil, findLoop_nil]
  | field k v rest ih => intro off h hf hW; exact step k v rest off h.1 hf.1 hW (fun hw off => ih off h.2 hf.2 hw)
  | raw k v rest ih => intro off h hf hW; exact step k v rest off h.1 hf.1 hW (fun hw off => ih off h.2 hf.2 hw)
  | object k sub rest _ ih => intro off h hf hW; exact step k (encode f sub) rest off h.1 hf.1 hW (fun hw off => ih off h.2.2 hf.2.2 hw)

/-- With sizes no wider than size_t nothing is cut off. -/
theorem findLoopW_narrow (f : Fmt) (W : Nat) (hS : 256 ^ f.S ≤ 2 ^ W) (key : List Byte) (n : Nat) : ∀ (p : List Byte) (off : Nat), p.length = n → findLoopW f W key p off = findLoop f key p off := by
  induction n using Nat.strongRecOn with
  | ind n ih =>
    intro p off hn
    rw [findLoopW.eq_def, findLoop.eq_def]
    split
    · next hge =>
      rw [asBytes_eq _ _ hge, R.bind_ok, R.bind_ok]
      split
      · next h1 =>
        split
        · rfl
        · next p1 h1' => rw [h1] at h1'; cases h1'
      · next p1 h1 =>
        split
        · next h1' => rw [h1] at h1'; cases h1'
        · next p1' h1' =>
          rw [h1] at h1'; cases h1'
          have hl1 := advance_length h1
          have hsz : fromLe (List.drop f.K (List.take (f.K + f.S) p)) < 256 ^ f.S := by
            have := fromLe_lt (List.drop f.K (List.take (f.K + f.S) p))
            rw [show (List.drop f.K (List.take (f.K + f.S) p)).length = f.S by simp; omega] at this
            exact this
          have hmod : fromLe (List.drop f.K (List.take (f.K + f.S) p)) % 2 ^ W = fromLe (List.drop f.K (List.take (f.K + f.S) p)) := Nat.mod_eq_of_lt (by omega)
          cases keyCmp f (List.take f.K (List.take (f.K + f.S) p)) key with
          | ub => rfl
          | ok b =>
            simp only [R.bind_ok]
            cases b with
            | true => rfl
            | false =>
              simp only [Bool.false_eq_true, if_false]
              split
              · next h2 =>
                rw [hmod] at h2
                split
                · rfl
                · next p2 h2' => rw [h2] at h2'; cases h2'
              · next p2 h2 =>
                rw [hmod] at h2
                split
                · next h2' => rw [h2] at h2'; cases h2'
                · next p2' h2' =>
                  rw [h2] at h2'; cases h2'
                  have hl2 := advance_length h2
                  have := f.S_pos
                  rw [hmod]
                  exact ih p2.length (by omega) p2 _ rfl
    · rfl

/-- **C241**: with sizes no wider than size_t the parser is that of C42 and C46, on any bytes. -/
theorem C241_narrow (f : Fmt) (W : Nat) (hS : 256 ^ f.S ≤ 2 ^ W) (blob key : List Byte) (n : Nat) :
    getW f W blob n key = get f W blob n key ∧ getNodeW f W blob key = getNode f W blob key := by
  have h := findLoopW_narrow f W hS key blob.length blob 0 rfl
  exact ⟨by simp only [getW, get, getSizeAndOffset, h], by simp only [getNodeW, getNode, getSizeAndOffset, h]⟩

/-- **C241**: with sizes of any width, data that was serialized and fits into memory parses back as in C42. -/
theorem C241_parse (f : Fmt) (W : Nat) (d : Desc) (key : List Byte) (hk : keysOk f d) (hf : fits f d) (hkey : validKey f key) (hW : (encode f d).length < 2 ^ W) :
    getNodeW f W (encode f d) key = .ok ((first f key d).getD []) ∧ getSizeW f W (encode f d) key = .ok ((first f key d).getD []).length ∧
    ∀ n, 0 < n → getW f W (encode f d) n key = .ok (match first f key d with | some v => if v.length = n then some v else none | none => none) := by
  have h := findLoopW_eq f W key hkey d 0 hk hf hW
  have c := C42_parse f W d key hk hf hkey hW
  refine ⟨?_, ?_, ?_⟩
  · rw [← c.1]; simp only [getNodeW, getNode, getSizeAndOffset, h]
  · have hs := c.2.1
    rcases find_top hk hf hkey with ⟨data, o, h1, h2, h3, h4, h5⟩ | ⟨h1, h2⟩
    · simp only [getSizeAndOffset] at h2
      simp only [getSizeW, h, h2, R.bind_ok, h1, Option.getD_some]
      rw [Nat.mod_eq_of_lt (by omega)]
    · simp only [getSizeAndOffset] at h2
      simp only [getSize, getSizeAndOffset, h2, R.bind_ok] at hs
      simp only [getSizeW, h, h2, R.bind_ok, Nat.zero_mod]
      exact hs
  · intro n hn
    refine Eq.trans ?_ (c.2.2 n hn)
    simp only [getW, get, getSizeAndOffset, h]

/-- Whatever the bytes: the search finishes without undefined behaviour, with an offset inside the blob. -/
theorem findLoopW_safe (f : Fmt) (W : Nat) (key : List Byte) (hkey : validKey f key) (n : Nat) : ∀ (p : List Byte) (off : Nat), p.length = n →
    ∃ sz o, findLoopW f W key p off = .ok (sz, o) ∧ sz < 256 ^ f.S ∧ o ≤ off + p.length := by
  induction n using Nat.strongRecOn with
  | ind n ih =>
    intro p off hn
    have hpos : 0 < 256 ^ f.S := Nat.pow_pos (by omega)
    rw [findLoopW.eq_def]
    split
    · next hge =>
      rw [asBytes_eq _ _ hge]
      rw [R.bind_ok]
      split
      · exact ⟨0, 0, rfl, hpos, Nat.zero_le _⟩
      · next p1 h1 =>
        have hl1 := advance_length h1
        have hcmp : ∃ b, keyCmp f (List.take f.K (List.take (f.K + f.S) p)) key = .ok b := by
          unfold keyCmp
          unfold validKey at hkey
          cases hf : f.arr with
          | true =>
            simp only [hf, if_true] at hkey ⊢
            exact ⟨_, compareNullterm_eq f.K _ _ (Or.inl (by simp; omega)) hkey⟩
          | false =>
            simp only [hf, Bool.false_eq_true, if_false] at hkey ⊢
            rw [if_pos hkey]; exact ⟨_, rfl⟩
        obtain ⟨b, hb⟩ := hcmp
        rw [hb, R.bind_ok]
        have hsz : fromLe (List.drop f.K (List.take (f.K + f.S) p)) < 256 ^ f.S := by
          have := fromLe_lt (List.drop f.K (List.take (f.K + f.S) p))
          rw [show (List.drop f.K (List.take (f.K + f.S) p)).length = f.S by simp; omega] at this
          exact this
        simp only
        cases b with
        | true => exact ⟨_, _, rfl, hsz, by omega⟩
        | false =>
          simp only [Bool.false_eq_true, if_false]
          split
          · exact ⟨0, 0, rfl, hpos, Nat.zero_le _⟩
          · next p2 h2 =>
            have hl2 := advance_length h2
            have := f.S_pos
            obtain ⟨sz, o, q1, q2, q3⟩ := ih p2.length (by omega) p2 _ rfl
            exact ⟨sz, o, q1, q2, by omega⟩
    · exact ⟨0, 0, rfl, hpos, Nat.zero_le _⟩

/-- **C241** (partial: get). On any bytes, with sizes of any width, get<T> is defined and yields nothing or sizeof(T) bytes of the blob. -/
theorem C241_get_partial (f : Fmt) (W : Nat) (blob key : List Byte) (hkey : validKey f key) (n : Nat) (hn : blob.length + n < 2 ^ W) :
    ∃ r, getW f W blob n key = .ok r ∧ ∀ v, r = some v → ∃ o, o + n ≤ blob.length ∧ v = (blob.drop o).take n ∧ v.length = n := by
  obtain ⟨sz, o, h1, h2, h3⟩ := findLoopW_safe f W key hkey blob.length blob 0 rfl
  rw [Nat.zero_add] at h3
  simp only [getW, h1, R.bind_ok]
  split
  · next hs =>
    rw [Nat.mod_eq_of_lt (by omega)]
    split
    · next hle =>
      rw [asBytes_eq _ _ (by simp; omega), R.bind_ok]
      refine ⟨_, rfl, ?_⟩
      rintro v ⟨⟩
      exact ⟨o, by omega, rfl, by simp; omega⟩
    · exact ⟨_, rfl, by simp⟩
  · exact ⟨_, rfl, by simp⟩

/-- One-byte keys, eight-byte sizes. -/
def fmt18 : Fmt := ⟨1, 8, false, by decide, by decide⟩

/-- **C241** violated: on a 32-bit processor, an entry whose stored size is 2^32 + 1, of which the blob holds two bytes: get_size says 1 and get_node yields the first byte, where C46 would give nothing. -/
theorem C241_size_violated : getSizeW fmt18 32 [1, 1, 0, 0, 0, 1, 0, 0, 0, 7, 8] [1] = .ok 1 ∧ getNodeW fmt18 32 [1, 1, 0, 0, 0, 1, 0, 0, 0, 7, 8] [1] = .ok [7] ∧
    getNode fmt18 64 [1, 1, 0, 0, 0, 1, 0, 0, 0, 7, 8] [1] = .ok [] ∧ getSize fmt18 [1, 1, 0, 0, 0, 1, 0, 0, 0, 7, 8] [1] = .ok (2 ^ 32 + 1) := by
  have h : findLoopW fmt18 32 [1] [1, 1, 0, 0, 0, 1, 0, 0, 0, 7, 8] 0 = .ok (2 ^ 32 + 1, 9) := by
    rw [findLoopW.eq_def, if_pos (by decide), asBytes_eq _ _ (by decide), R.bind_ok]
    split
    · next h => revert h; decide
    · simp [fmt18, keyCmp, fromLe]
  have h' : findLoop fmt18 [1] [1, 1, 0, 0, 0, 1, 0, 0, 0, 7, 8] 0 = .ok (2 ^ 32 + 1, 9) := by
    rw [findLoop.eq_def, if_pos (by decide), asBytes_eq _ _ (by decide), R.bind_ok]
    split
    · next h => revert h; decide
    · simp [fmt18, keyCmp, fromLe]
  refine ⟨?_, ?_, ?_, ?_⟩
  · simp only [getSizeW, h, R.bind_ok, Nat.reducePow, Nat.reduceAdd, Nat.reduceMod]
  · simp only [getNodeW, h, R.bind_ok]; decide
  · simp only [getNode, getSizeAndOffset, h', R.bind_ok]; decide
  · simp only [getSize, getSizeAndOffset, h', R.bind_ok]

example : keysOk fmt18 (.field [1] [7, 8] .done) ∧ fits fmt18 (.field [1] [7, 8] .done) ∧ validKey fmt18 [1] ∧ (encode fmt18 (.field [1] [7, 8] .done)).length < 2 ^ 32 := by
  refine ⟨by simp [keysOk, validKey, fmt18], ?_, by simp [validKey, fmt18], by decide⟩
  simp only [fits]
  exact ⟨by decide, trivial⟩
example := C241_get_partial fmt18 32 [1, 1, 0, 0, 0, 1, 0, 0, 0, 7, 8] [1] (by simp [validKey, fmt18]) 2 (by decide)
example := C241_narrow fmt14 32 (by decide) [1, 0xFC, 0xFF, 0xFF, 0xFF, 0] [1] 4

end CompactBinary
