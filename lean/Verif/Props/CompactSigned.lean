import Verif.Model.CompactSigned
import Verif.Props.CompactBinary
/-! # Property C178: the compact binary format with signed sizes -/
namespace CompactBinary
open Spec

/-- All data sizes fit the non-negative half of the size field. -/
def fitsHalf (f : Fmt) : Desc → Prop
  | .done => True
  | .field _ v rest => v.length < 256 ^ f.S / 2 ∧ fitsHalf f rest
  | .raw _ d rest => d.length < 256 ^ f.S / 2 ∧ fitsHalf f rest
  | .object _ sub rest => (encode f sub).length < 256 ^ f.S / 2 ∧ fitsHalf f sub ∧ fitsHalf f rest

theorem half_lt (f : Fmt) : 256 ^ f.S / 2 < 256 ^ f.S := Nat.div_lt_self (Nat.pow_pos (by omega)) (by omega)

theorem fitsHalf.fits {f : Fmt} {d : Desc} (h : fitsHalf f d) : fits f d := by
  have hh := half_lt f
  induction d with
  | done => trivial
  | field k v rest ih => exact ⟨by have := h.1; omega, ih h.2⟩
  | raw k v rest ih => exact ⟨by have := h.1; omega, ih h.2⟩
  | object k sub rest ih1 ih2 => exact ⟨by have := h.1; omega, ih1 h.2.1, ih2 h.2.2⟩

theorem toSz_nat {W n : Nat} (h : n < 2 ^ W) : toSz W (n : Int) = n := by
  unfold toSz
  have : ((n : Int) % 2 ^ W) = ((n % 2 ^ W : Nat) : Int) := by simp
  rw [this, Nat.mod_eq_of_lt h]; rfl

theorem sgn_small {n v : Nat} (h : v < 256 ^ n / 2) : sgn n v = v := by unfold sgn; rw [if_pos h]

theorem sgn_range {n v : Nat} (hn : 0 < n) (h : v < 256 ^ n) : sgn n v < ((256 ^ n / 2 : Nat) : Int) ∧ -((256 ^ n : Nat) : Int) ≤ 2 * sgn n v := by
  unfold sgn
  have h2 : ((256 ^ n : Int)) = ((256 ^ n : Nat) : Int) := by simp
  obtain ⟨m, rfl⟩ : ∃ m, n = m + 1 := ⟨n - 1, by omega⟩
  have h3 : 256 ^ (m + 1) = 256 * 256 ^ m := by rw [Nat.pow_succ]; omega
  split
  · omega
  · rw [h2]; omega

theorem findLoopS_nil (f : Fmt) (W : Nat) (key : List Byte) (off : Nat) : findLoopS f W key [] off = .ok (0, 0) := by
  rw [findLoopS.eq_def, if_neg (by have := f.S_pos; simp; omega)]

/-- The parser at an entry. -/
theorem findLoopS_entry {f : Fmt} {W : Nat} (hW : 256 ^ f.S ≤ 2 ^ W) {k key data rest : List Byte} {off : Nat} (hk : validKey f k) (hkey : validKey f key)
    (hfit : data.length < 256 ^ f.S / 2) :
    findLoopS f W key (entry f k data ++ rest) off =
      if data ++ rest = [] then .ok (0, 0)
      else if sameKey f k key then .ok ((data.length : Int), off + (f.K + f.S))
      else findLoopS f W key rest (off + (f.K + f.S) + data.length) := by
  have hl := storedKey_length hk
  have hhalf := half_lt f
  have hle := le_length f.S data.length
  have he : entry f k data ++ rest = (storedKey f k ++ le f.S data.length) ++ (data ++ rest) := by simp [entry]
  have hH : (storedKey f k ++ le f.S data.length).length = f.K + f.S := by simp [hl, hle]
  rw [he, findLoopS.eq_def, if_pos (by simp only [List.length_append]; omega),
    asBytes_eq _ _ (by simp only [List.length_append]; omega)]
  rw [R.bind_ok, List.take_left' hH]
  have hsz : fromLe (List.drop f.K (storedKey f k ++ le f.S data.length)) = data.length := by
    rw [List.drop_left' hl, ← leBytes_eq, fromLe_leBytes _ _ (by omega)]
  have hsg : toSz W (sgn f.S data.length) = data.length := by rw [sgn_small hfit, toSz_nat (by omega)]
  simp only [List.take_left' hl, keyCmp_stored hk hkey, R.bind_ok, hsz]
  split
  · next h1 =>
    unfold advance at h1
    split at h1
    · next hge =>
      rw [if_pos]
      simp only [List.length_append] at hge hH
      rw [← List.length_eq_zero_iff, List.length_append]; omega
    · cases h1
  · next p1 h1 =>
    unfold advance at h1
    split at h1
    · cases h1
    · next hge =>
      cases h1
      have hne : ¬ (data ++ rest = []) := by
        intro hh; apply hge; rw [hh, List.append_nil]; omega
      rw [if_neg hne]
      by_cases hs : sameKey f k key
      · simp [hs, sgn_small hfit]
      · simp only [hs, decide_false, Bool.false_eq_true, if_false]
        split
        · next h2 =>
          rw [List.drop_left' hH, hsz, hsg] at h2
          unfold advance at h2
          split at h2
          · next hge2 =>
            have : rest = [] := by
              rw [← List.length_eq_zero_iff]; simp only [List.length_append] at hge2; omega
            rw [this, findLoopS_nil]
          · cases h2
        · next p2 h2 =>
          rw [List.drop_left' hH, hsz, hsg] at h2
          unfold advance at h2
          split at h2
          · cases h2
          · cases h2
            simp only [List.drop_left, hsg]

/-- On an encoding whose sizes fit the half range the search with signed sizes finds what the search with unsigned ones finds. -/
theorem findLoopS_eq (f : Fmt) (W : Nat) (hW : 256 ^ f.S ≤ 2 ^ W) (key : List Byte) (hkey : validKey f key) (d : Desc) : ∀ off, keysOk f d → fitsHalf f d →
    findLoopS f W key (encode f d) off = (do let r ← findLoop f key (encode f d) off; .ok ((r.1 : Int), r.2)) := by
  have hh := half_lt f
  have step : ∀ (k data : List Byte) (rest : Desc) (off : Nat), validKey f k → data.length < 256 ^ f.S / 2 →
      (∀ off, findLoopS f W key (encode f rest) off = (do let r ← findLoop f key (encode f rest) off; .ok ((r.1 : Int), r.2))) →
      findLoopS f W key (entry f k data ++ encode f rest) off = (do let r ← findLoop f key (entry f k data ++ encode f rest) off; .ok ((r.1 : Int), r.2)) := by
    intro k data rest off hk hfit ih
    rw [findLoopS_entry hW hk hkey hfit, findLoop_entry hk hkey (by omega)]
    split
    · rfl
    · split
      · rfl
      · exact ih _
  induction d with
  | done => intro off _ _; show findLoopS f W key [] off = _; rw [findLoopS_nil]; show _ = (do let r ← findLoop f key [] off; .ok ((r.1 : Int), r.2)); rw [findLoop_nil]; rfl
  | field k v rest ih => intro off h hf; exact step k v rest off h.1 hf.1 (fun off => ih off h.2 hf.2)
  | raw k v rest ih => intro off h hf; exact step k v rest off h.1 hf.1 (fun off => ih off h.2 hf.2)
  | object k sub rest _ ih => intro off h hf; exact step k (encode f sub) rest off h.1 hf.1 (fun off => ih off h.2.2 hf.2.2)

theorem pow_half {W : Nat} (hW : 0 < W) : 2 ^ W = 2 * 2 ^ (W - 1) := by
  obtain ⟨n, rfl⟩ : ∃ n, W = n + 1 := ⟨W - 1, by omega⟩
  rw [Nat.pow_succ]; simp; omega

theorem addS_nat {W o n : Nat} (h : o + n < 2 ^ (W - 1)) : addS W o (n : Int) = .ok ((o + n : Nat) : Int) := by
  unfold addS
  have : ((2 : Int) ^ (W - 1)) = ((2 ^ (W - 1) : Nat) : Int) := by simp
  rw [this, if_pos (by omega)]
  rfl

/-- **C178** (partial): with a signed size type, if every size in the description is below half of the type's range, the parser reads everything as with unsigned sizes:
`get_node(key)` is the data of the first entry with that key (empty if there is none), `get_size(key)` its size and `get<T>(key)` its data iff the size is `sizeof(T)`. Missing: larger
sizes, below. -/
theorem C178_parse_partial (f : Fmt) (W : Nat) (d : Desc) (key : List Byte) (hk : keysOk f d) (hf : fitsHalf f d) (hkey : validKey f key)
    (hS : 256 ^ f.S ≤ 2 ^ W) (hW : (encode f d).length < 2 ^ (W - 1)) :
    getNodeS f W (encode f d) key = .ok ((first f key d).getD []) ∧
    getSizeS f W (encode f d) key = .ok ((first f key d).getD []).length ∧
    ∀ n, 0 < n → getS f W (encode f d) n key =
      .ok (match first f key d with | some v => if v.length = n then some v else none | none => none) := by
  have hW0 : 0 < W := by
    rcases Nat.eq_zero_or_pos W with rfl | h
    · have h1 : 256 ≤ 256 ^ f.S := Nat.le_self_pow (by have := f.S_pos; omega) 256
      simp at hS; omega
    · exact h
  have hp := pow_half hW0
  have hfind := findLoopS_eq f W hS key hkey d 0 hk hf
  rcases find_top hk hf.fits hkey with ⟨data, o, h1, h2, h3, h4, h5⟩ | ⟨h1, h2⟩
  · unfold getSizeAndOffset at h2
    rw [h2, R.bind_ok] at hfind
    rw [h1]
    have hsz := toSz_nat (W := W) (n := data.length) (by omega)
    have hadd := addS_nat (W := W) (o := o) (n := data.length) (by omega)
    have hsum := toSz_nat (W := W) (n := o + data.length) (by omega)
    refine ⟨?_, ?_, ?_⟩
    · simp only [getNodeS, hfind, R.bind_ok, hadd, hsum, hsz]
      rw [if_pos h4, if_neg (by omega), if_pos h4, h5]; rfl
    · simp only [getSizeS, hfind, R.bind_ok, hsz, Option.getD_some]
    · intro n hn
      simp only [getS, hfind, R.bind_ok, hsz]
      by_cases hd : data.length = n
      · rw [if_pos hd, if_pos hd, hadd, R.bind_ok, hsum, if_pos h4, asBytes_eq _ _ (by simp; omega), R.bind_ok, ← hd, h5]
      · rw [if_neg hd, if_neg hd]
  · unfold getSizeAndOffset at h2
    rw [h2, R.bind_ok] at hfind
    have hgd : (first f key d).getD [] = [] := by rcases h1 with h | h <;> rw [h] <;> rfl
    rw [hgd]
    have hsz := toSz_nat (W := W) (n := 0) (by omega)
    have hadd := addS_nat (W := W) (o := 0) (n := 0) (by have := Nat.pow_pos (a := 2) (n := W - 1) (by omega); omega)
    refine ⟨?_, ?_, ?_⟩
    · simp only [getNodeS, hfind, R.bind_ok, hadd, hsz]
      rw [if_pos (by omega)]
      split
      · next hc => exfalso; have : 1 < 2 ^ W := Nat.one_lt_two_pow (by omega); omega
      · simp
    · simp only [getSizeS, hfind, R.bind_ok, hsz, List.length_nil]
    · intro n hn
      simp only [getS, hfind, R.bind_ok, hsz]
      rw [if_neg (by omega)]
      rcases h1 with h | h
      · rw [h]
      · rw [h]; simp only [List.length_nil]; rw [if_neg (by omega)]

example : keysOk fmt21 demo ∧ fitsHalf fmt21 demo ∧ validKey fmt21 [1, 0] ∧ 256 ^ fmt21.S ≤ 2 ^ 32 ∧ (encode fmt21 demo).length < 2 ^ (32 - 1) ∧
    first fmt21 [1, 0] demo = some [7, 8] := by
  refine ⟨by simp [keysOk, demo, validKey, fmt21], ?_, by simp [validKey, fmt21], by decide, by decide, by decide⟩
  simp only [fitsHalf, demo]
  exact ⟨by decide, ⟨by decide, ⟨by decide, by decide, trivial⟩, by decide, trivial⟩⟩

/-- Whatever the bytes: the search finishes without undefined behaviour, with an offset inside the blob. -/
theorem findLoopS_safe (f : Fmt) (W : Nat) (key : List Byte) (hkey : validKey f key) (n : Nat) : ∀ (p : List Byte) (off : Nat), p.length = n →
    ∃ sz o, findLoopS f W key p off = .ok (sz, o) ∧ sz < ((256 ^ f.S / 2 : Nat) : Int) ∧ -((256 ^ f.S : Nat) : Int) ≤ 2 * sz ∧ (o ≤ off + p.length) := by
  induction n using Nat.strongRecOn with
  | ind n ih =>
    intro p off hn
    have hpos : 0 < 256 ^ f.S / 2 := by
      have h1 : 256 ≤ 256 ^ f.S := Nat.le_self_pow (by have := f.S_pos; omega) 256
      omega
    have h0 : ∃ sz o, (R.ok ((0 : Int), 0) : R (Int × Nat)) = .ok (sz, o) ∧ sz < ((256 ^ f.S / 2 : Nat) : Int) ∧ -((256 ^ f.S : Nat) : Int) ≤ 2 * sz ∧ (o ≤ off + p.length) :=
      ⟨0, 0, rfl, by omega, by omega, Nat.zero_le _⟩
    rw [findLoopS.eq_def]
    split
    · next hge =>
      rw [asBytes_eq _ _ hge]
      rw [R.bind_ok]
      split
      · exact h0
      · next p1 h1 =>
        have hl1 := advance_length h1
        have hcmp : ∃ b, keyCmp f (List.take f.K (List.take (f.K + f.S) p)) key = .ok b := by
          unfold keyCmp
          unfold validKey at hkey
          cases hf : f.arr with
          | true =>
            simp only [hf, if_true] at hkey ⊢
            exact ⟨_, compareNullterm_eq f.K _ _ (Or.inl (by simp; omega)) hkey⟩
          | false =>
            simp only [hf, Bool.false_eq_true, if_false] at hkey ⊢
            rw [if_pos hkey]; exact ⟨_, rfl⟩
        obtain ⟨b, hb⟩ := hcmp
        rw [hb, R.bind_ok]
        have hsz : fromLe (List.drop f.K (List.take (f.K + f.S) p)) < 256 ^ f.S := by
          have := fromLe_lt (List.drop f.K (List.take (f.K + f.S) p))
          rw [show (List.drop f.K (List.take (f.K + f.S) p)).length = f.S by simp; omega] at this
          exact this
        have hr := sgn_range f.S_pos hsz
        simp only
        cases b with
        | true => exact ⟨_, _, rfl, hr.1, hr.2, by omega⟩
        | false =>
          simp only [Bool.false_eq_true, if_false]
          split
          · exact h0
          · next p2 h2 =>
            have hl2 := advance_length h2
            have := f.S_pos
            obtain ⟨sz, o, q1, q2, q3, q4⟩ := ih p2.length (by omega) p2 _ rfl
            exact ⟨sz, o, q1, q2, q3, by omega⟩
    · exact h0

theorem toSz_neg {W : Nat} {i : Int} (h : i < 0) (hl : -(2 ^ W : Nat) ≤ i) : (toSz W i : Int) = i + (2 ^ W : Nat) := by
  unfold toSz
  have h2 : ((2 : Int) ^ W) = ((2 ^ W : Nat) : Int) := by simp
  rw [h2]
  have hp : 0 < 2 ^ W := Nat.two_pow_pos W
  have : i % ((2 ^ W : Nat) : Int) = i + ((2 ^ W : Nat) : Int) := by
    rw [← Int.add_emod_right]
    exact Int.emod_eq_of_lt (by omega) (by omega)
  rw [this, Int.toNat_of_nonneg (by omega)]

/-- **C178**: with a signed size type, on any bytes: the search terminates without reading outside the blob, and `get<T>` yields nothing or `sizeof(T)` bytes of the blob. -/
theorem C178_get_safe (f : Fmt) (W : Nat) (blob key : List Byte) (hkey : validKey f key) (hS : 256 ^ f.S ≤ 2 ^ W) (n : Nat) (hn : blob.length + n < 2 ^ (W - 1)) :
    ∃ r, getS f W blob n key = .ok r ∧ ∀ v, r = some v → ∃ o, o + n ≤ blob.length ∧ v = (blob.drop o).take n ∧ v.length = n := by
  obtain ⟨sz, o, h1, h2, h3, h4⟩ := findLoopS_safe f W key hkey blob.length blob 0 rfl
  rw [Nat.zero_add] at h4
  have hW0 : 0 < W := by
    rcases Nat.eq_zero_or_pos W with rfl | h
    · have h1 : 256 ≤ 256 ^ f.S := Nat.le_self_pow (by have := f.S_pos; omega) 256
      simp at hS; omega
    · exact h
  have hp := pow_half hW0
  simp only [getS, h1, R.bind_ok]
  split
  · next hs =>
    have hnn : 0 ≤ sz := by
      rcases Int.lt_or_le sz 0 with hneg | h
      · have := toSz_neg (W := W) (i := sz) hneg (by omega)
        omega
      · exact h
    obtain ⟨m, rfl⟩ : ∃ m : Nat, sz = m := ⟨sz.toNat, by omega⟩
    rw [toSz_nat (by omega)] at hs
    subst hs
    rw [addS_nat (by omega), R.bind_ok, toSz_nat (by omega)]
    split
    · rw [asBytes_eq _ _ (by simp; omega), R.bind_ok]
      refine ⟨_, rfl, ?_⟩
      rintro v ⟨⟩
      exact ⟨o, by omega, rfl, by simp; omega⟩
    · exact ⟨_, rfl, by simp⟩
  · exact ⟨_, rfl, by simp⟩

example : validKey fmt21 [1, 0] ∧ 256 ^ fmt21.S ≤ 2 ^ 32 ∧ [1, 0, 0x80, 1].length + 4 < 2 ^ (32 - 1) := by
  refine ⟨by simp [validKey, fmt21], by decide, by decide⟩

/-- **C178** (partial): `get_node` has no undefined behaviour exactly if the size found is not negative, or is -1 (then it yields the rest of the blob), or is so negative that offset and size add to
a negative number (then it yields nothing). -/
theorem C178_node_partial (f : Fmt) (W : Nat) (blob key : List Byte) (hS : 2 * 256 ^ f.S ≤ 2 ^ W) (hl : blob.length + 256 ^ f.S < 2 ^ (W - 1)) (hkey : validKey f key) :
    ∃ sz o, findLoopS f W key blob 0 = .ok (sz, o) ∧ o ≤ blob.length ∧
      getNodeS f W blob key =
        if 0 ≤ sz then (if o + sz ≤ blob.length then .ok ((blob.drop o).take sz.toNat) else .ok [])
        else if (o : Int) + sz < 0 then .ok []
        else if sz = -1 then .ok (blob.drop o)
        else .ub := by
  obtain ⟨sz, o, h1, h2, h3, h4⟩ := findLoopS_safe f W key hkey blob.length blob 0 rfl
  rw [Nat.zero_add] at h4
  have hpos : 0 < 256 ^ f.S := Nat.pow_pos (by omega)
  have hW0 : 0 < W := by
    rcases Nat.eq_zero_or_pos W with rfl | h
    · simp at hS; omega
    · exact h
  have hp := pow_half hW0
  refine ⟨sz, o, h1, h4, ?_⟩
  simp only [getNodeS, h1, R.bind_ok]
  by_cases hnn : 0 ≤ sz
  · obtain ⟨m, rfl⟩ : ∃ m : Nat, sz = m := ⟨sz.toNat, by omega⟩
    rw [if_pos hnn, addS_nat (by omega), R.bind_ok, toSz_nat (by omega), toSz_nat (by omega)]
    by_cases hle : o + m ≤ blob.length
    · rw [if_pos hle, if_neg (by omega), if_pos hle, if_pos (show (o : Int) + m ≤ blob.length by omega)]; rfl
    · rw [if_neg hle, if_neg (show ¬ ((o : Int) + m ≤ blob.length) by omega)]
  · rw [if_neg hnn]
    have hadd : addS W o sz = .ok ((o : Int) + sz) := by
      unfold addS
      rw [if_pos]
      have : ((2 : Int) ^ (W - 1)) = ((2 ^ (W - 1) : Nat) : Int) := by simp
      rw [this]; omega
    rw [hadd, R.bind_ok]
    have hs := toSz_neg (W := W) (i := sz) (by omega) (by omega)
    by_cases hneg : (o : Int) + sz < 0
    · rw [if_pos hneg, if_neg]
      have := toSz_neg (W := W) (i := (o : Int) + sz) hneg (by omega)
      omega
    · rw [if_neg hneg]
      obtain ⟨m, hm⟩ : ∃ m : Nat, (o : Int) + sz = m := ⟨((o : Int) + sz).toNat, by omega⟩
      rw [hm, toSz_nat (by omega), if_pos (by omega)]
      by_cases h1 : sz = -1
      · rw [if_pos h1, if_pos (by omega)]
      · rw [if_neg h1, if_neg (by omega), if_neg (by omega)]

example : validKey fmt21 [1, 0] ∧ 2 * 256 ^ fmt21.S ≤ 2 ^ 32 ∧ [1, 0, 0xFE, 1].length + 256 ^ fmt21.S < 2 ^ (32 - 1) := by
  refine ⟨by simp [validKey, fmt21], by decide, by decide⟩

/-- One-byte keys, one-byte sizes. -/
def fmt11 : Fmt := ⟨1, 1, false, by decide, by decide⟩

/-- **C178, violated**: with `int8_t` sizes the three bytes 1, 0xFE, 0 make `get_node` form a span of 2^32 - 2 bytes from inside the blob. -/
theorem C178_node_violated : getNodeS fmt11 32 [1, 0xFE, 0] [1] = .ub := by
  have h : findLoopS fmt11 32 [1] [1, 0xFE, 0] 0 = .ok (-2, 2) := by
    rw [findLoopS.eq_def, if_pos (by decide), asBytes_eq _ _ (by decide), R.bind_ok]
    split
    · next h => revert h; decide
    · simp [fmt11, keyCmp, fromLe, sgn]
  simp only [getNodeS, h, R.bind_ok]
  decide

/-- **C178, violated**: with `int32_t` sizes on a 32-bit machine a size of 2^31 - 5 makes the sum of offset (5) and size overflow, one less does not. -/
theorem C178_overflow_violated : getNodeS fmt14 32 [1, 0xFB, 0xFF, 0xFF, 0x7F, 0] [1] = .ub ∧ getNodeS fmt14 32 [1, 0xFA, 0xFF, 0xFF, 0x7F, 0] [1] = .ok [] := by
  have h : ∀ b : Byte, b = 0xFB ∨ b = 0xFA → findLoopS fmt14 32 [1] [1, b, 0xFF, 0xFF, 0x7F, 0] 0 = .ok (2147483392 + (b.toNat : Int), 5) := by
    intro b hb
    rcases hb with rfl | rfl <;>
    · rw [findLoopS.eq_def, if_pos (by decide), asBytes_eq _ _ (by decide), R.bind_ok]
      split
      · next h => revert h; decide
      · simp [fmt14, keyCmp, fromLe, sgn]
  constructor
  · simp only [getNodeS, h _ (.inl rfl), R.bind_ok]
    decide
  · simp only [getNodeS, h _ (.inr rfl), R.bind_ok]
    decide

/-- **C178, violated**: 128 bytes written with `int8_t` sizes are not found again (with `uint8_t` sizes they are), and hide every entry after them. -/
theorem C178_large_violated (v : List Byte) (hv : v.length = 128) : keysOk fmt11 (.raw [1] v (.field [2] [7] .done)) ∧ fits fmt11 (.raw [1] v (.field [2] [7] .done)) ∧
    first fmt11 [2] (.raw [1] v (.field [2] [7] .done)) = some [7] ∧
    getS fmt11 32 (encode fmt11 (.raw [1] v (.field [2] [7] .done))) 1 [2] = .ok none ∧
    getNodeS fmt11 32 (encode fmt11 (.raw [1] v (.field [2] [7] .done))) [1] = .ok [] := by
  have he : encode fmt11 (.raw [1] v (.field [2] [7] .done)) = 1 :: 0x80 :: (v ++ [2, 1, 7]) := by
    simp [encode, entry, storedKey, fmt11, le, hv, List.range_succ]
  refine ⟨by simp [keysOk, validKey, fmt11], ⟨by simp [hv, fmt11], by simp [fmt11], trivial⟩, by simp [first, sameKey, fmt11], ?_, ?_⟩
  · rw [he]
    have h : findLoopS fmt11 32 [2] (1 :: 0x80 :: (v ++ [2, 1, 7])) 0 = .ok (0, 0) := by
      rw [findLoopS.eq_def, if_pos (by simp [fmt11]), asBytes_eq _ _ (by simp [fmt11]), R.bind_ok]
      split
      · rfl
      · next p1 h1 =>
        have hl := advance_length h1
        simp [fmt11, keyCmp, fromLe, sgn]
        split
        · rfl
        · next p2 h2 =>
          have := advance_length h2
          simp [fmt11, hv] at hl
          simp [toSz, fromLe] at this
          omega
    simp only [getS, h, R.bind_ok]
    rw [if_neg (by decide)]
  · rw [he]
    have h : findLoopS fmt11 32 [1] (1 :: 0x80 :: (v ++ [2, 1, 7])) 0 = .ok (-128, 2) := by
      rw [findLoopS.eq_def, if_pos (by simp [fmt11]), asBytes_eq _ _ (by simp [fmt11]), R.bind_ok]
      split
      · next h => simp [advance, fmt11] at h
      · simp [fmt11, keyCmp, fromLe, sgn]
    have ha : addS 32 2 (-128) = .ok (-126) := by decide
    have hz : toSz 32 (-126) = 4294967170 := by decide
    simp only [getNodeS, h, R.bind_ok, ha, hz]
    rw [if_neg (by simp [hv])]

example : (List.replicate 128 (5 : Byte)).length = 128 := List.length_replicate

end CompactBinary
