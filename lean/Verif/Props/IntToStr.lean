import Mathlib.Data.Rat.Floor
import Verif.Lemmas.IntToStr
import Mathlib.Data.Rat.Lemmas
import Mathlib.Algebra.Order.Ring.Rat
import Mathlib.Tactic.NormNum
import Mathlib.Tactic.Linarith
/-! # Properties C48 to C52: numbers and strings as text -/
namespace IntToStr
open Digits Digits.Spec

/-- **C48**: num_digits(v) is the number of decimal digits of `v`. -/
theorem C48_num_digits (v : Nat) : numDigits v = (dec v).length := numDigits_eq v

example : dec 40507 = [4, 0, 5, 0, 7] := by simp [dec, digits]

/-- `s` written into `buf` from position `len` on. -/
def writeSeq (buf : List Nat) (len : Nat) (s : List Nat) : List Nat := buf.take len ++ s ++ buf.drop (len + s.length)

theorem writeSeq_cons {buf s : List Nat} {len c : Nat} (h : len < buf.length) :
    writeSeq (buf.set len c) (len + 1) s = writeSeq buf len (c :: s) := by
  unfold writeSeq
  rw [List.take_add_one, List.take_set_of_le (Nat.le_refl _), List.getElem?_set_self h,
    List.drop_set_of_lt (by omega), List.length_cons, show len + 1 + s.length = len + (s.length + 1) by omega]
  simp

theorem writeSeq_zero {buf : List Nat} {len : Nat} (h : len < buf.length) : arrSet buf len 0 = .ok (writeSeq buf len [0]) := by
  rw [arrSet_lt h]
  congr 1
  have := writeSeq_cons (s := []) (c := 0) h
  rw [← this, writeSeq]
  simp

theorem filter_pad (n v : Nat) (h : v < 10 ^ n) :
    (pad 10 (n + 1) v).filter (· ≠ 0) = (pad 10 n v).filter (· ≠ 0) := by
  rw [pad_zero_succ 10 n v (by omega) h]; simp

/-- int_to_str writes the digits that are not zero. -/
theorem strLoop_eq (n : Nat) : ∀ (v len : Nat) (buf : List Nat), v < 10 ^ n → len + ((pad 10 n v).filter (· ≠ 0)).length < buf.length →
    strLoop (places 10 n) v len buf = .ok (writeSeq buf len (((pad 10 n v).filter (· ≠ 0)).map chr ++ [0])) := by
  induction n with
  | zero =>
    intro v len buf _ hl
    simp only [places, strLoop, pad, List.filter_nil, List.map_nil, List.nil_append]
    exact writeSeq_zero (by simp [pad] at hl; omega)
  | succ n ih =>
    intro v len buf hv hl
    simp only [places, strLoop, digit']
    by_cases hge : v ≥ 10 ^ n
    · have hpos : 0 < 10 ^ n := Nat.pow_pos (by omega)
      have hd1 : 1 ≤ v / 10 ^ n := by rw [Nat.le_div_iff_mul_le hpos]; omega
      have hd9 : v / 10 ^ n < 10 := by rw [Nat.div_lt_iff_lt_mul hpos, ← Nat.pow_succ']; exact hv
      have hpad := pad_msd 10 n v (by omega) hv
      have hfil : (pad 10 (n + 1) v).filter (· ≠ 0) = (v / 10 ^ n) :: (pad 10 n (v % 10 ^ n)).filter (· ≠ 0) := by
        rw [hpad, List.filter_cons, if_pos (by simp; omega)]
      rw [hfil] at hl ⊢
      simp only [List.length_cons] at hl
      rw [if_pos hge]
      simp only
      rw [if_pos (by omega), arrSet_lt (by omega), R.bind_ok, sub_div_mul,
        ih _ _ _ (mod_lt_pow v 10 n (by omega)) (by rw [List.length_set]; omega), writeSeq_cons (by omega)]
      congr 2
      simp [chr, hd9]
    · rw [if_neg hge]
      simp only [ne_eq, not_true_eq_false, if_false]
      have hf := filter_pad n v (by omega)
      rw [hf] at hl ⊢
      exact ih v len buf (by omega) hl

theorem neg32_ok {v : Int} (h : -2147483648 < v) : neg32 v = .ok (-v) := by
  rw [neg32, if_neg (by omega)]

theorem places10_eq : places10 = places 10 10 := by decide

/-- **C49** (exact behaviour): for every value but the most negative and 0, and every buffer: int_to_str returns true iff sign,
all decimal digits and terminator fit; then the buffer holds the sign, the digits that are *not zero*, and the
terminator; nothing else is written except the sign. -/
theorem intToStr_eq (v : Int) (buf : List Nat) (h0 : v ≠ 0) (h1 : -2147483648 < v) (h2 : v < 2147483648) :
    let sign := if v < 0 then [45] else []
    let ds := dec v.natAbs
    if sign.length + ds.length + 1 ≤ buf.length then
      intToStr v buf = .ok (written buf (sign ++ (ds.filter (· ≠ 0)).map chr ++ [0]), true)
    else intToStr v buf = .ok (written buf (sign.take buf.length), false) := by
  have hpos : 0 < v.natAbs := by omega
  have hlt : v.natAbs < 10 ^ 10 := by omega
  obtain ⟨k, hk, hk1, hk2⟩ := dec_length_places v.natAbs hpos hlt
  have hdec : dec v.natAbs = pad 10 (k + 1) v.natAbs := digits_eq_pad 8 k _ hk1 hk2
  have hlen : (dec v.natAbs).length = k + 1 := by rw [hdec, pad_length]
  have hfil : ∀ n, k + 1 ≤ n → (pad 10 n v.natAbs).filter (· ≠ 0) = (dec v.natAbs).filter (· ≠ 0) := by
    intro n hn
    induction n with
    | zero => omega
    | succ n ih =>
      by_cases he : k = n
      · subst he; rw [hdec]
      · rw [filter_pad n _ (Nat.lt_of_lt_of_le hk2 (Nat.pow_le_pow_right (by omega) (by omega))), ih (by omega)]
  have hfl : ((dec v.natAbs).filter (· ≠ 0)).length ≤ k + 1 := by rw [← hlen]; exact List.length_filter_le _ _
  have hnd : numDigits v.natAbs = k + 1 := by rw [numDigits_eq, hlen]
  have hloop : ∀ (len : Nat) (buf : List Nat), len + (k + 1) < buf.length →
      strLoop places10 v.natAbs len buf = .ok (writeSeq buf len (((dec v.natAbs).filter (· ≠ 0)).map chr ++ [0])) := by
    intro len buf hb
    rw [places10_eq, strLoop_eq 10 _ _ _ hlt (by rw [hfil 10 (by omega)]; omega), hfil 10 (by omega)]
  simp only
  by_cases hneg : v < 0
  · have hv : (-v).toNat = v.natAbs := by omega
    simp only [hneg, if_true, List.length_singleton, hlen]
    simp only [intToStr, hneg, if_true]
    by_cases hb0 : buf.length = 0
    · rw [if_pos hb0, if_neg (by omega)]; simp [hb0, written]
    · rw [if_neg hb0, arrSet_lt (by omega), R.bind_ok, neg32_ok h1, R.bind_ok, strTail, if_neg (show ¬ (-v = 0) by omega)]
      simp only [hv, hnd, List.length_set]
      split
      · next hle =>
        rw [if_neg (by omega), hloop 1 _ (by rw [List.length_set]; omega), R.bind_ok]
        rw [show (1 : Nat) = 0 + 1 from rfl, writeSeq_cons (by omega)]
        simp [writeSeq, written]
      · next hle =>
        rw [if_pos (by omega)]
        cases buf with
        | nil => simp at hb0
        | cons x l => simp [written]
  · have hv : v.toNat = v.natAbs := by omega
    simp only [hneg, if_false, List.length_nil, hlen, List.nil_append, List.take_nil]
    simp only [intToStr, hneg, if_false, strTail, hv, hnd]
    rw [if_neg h0]
    split
    · next hle =>
      rw [if_neg (by omega), hloop 0 _ (by omega), R.bind_ok]
      simp [writeSeq, written]
    · next hle => rw [if_pos (by omega)]; simp [written]

/-- **C49** (partial): for every value (other than the most negative one) none of whose decimal digits is zero, and every buffer: int_to_str
returns true with the terminated decimal representation if it fits, and false otherwise; it never writes outside
the buffer. Missing: values with a digit 0, and 0 itself in buffers of fewer than 2 characters (see below). -/
theorem C49_int_to_str_partial (v : Int) (buf : List Nat) (h1 : -2147483648 < v) (h2 : v < 2147483648)
    (hd : (∀ d ∈ dec v.natAbs, d ≠ 0) ∨ (v = 0 ∧ 2 ≤ buf.length)) :
    if (decStr v).length + 1 ≤ buf.length then intToStr v buf = .ok (written buf (decStr v ++ [0]), true)
    else ∃ b, intToStr v buf = .ok (b, false) ∧ b.length = buf.length := by
  by_cases h0 : v = 0
  · subst h0
    have hb : 2 ≤ buf.length := by
      rcases hd with h | h
      · exact absurd rfl (h 0 (by simp [dec, digits]))
      · exact h.2
    have hs : decStr 0 = [48] := by simp [decStr, dec, digits, chr]
    rw [hs, if_pos (by simpa using hb)]
    simp only [intToStr, strTail, Int.lt_irrefl, if_false, if_true]
    rw [arrSet_lt (by omega), R.bind_ok, arrSet_lt (by rw [List.length_set]; omega), R.bind_ok]
    match buf, hb with
    | a :: b :: l, _ => simp [written]
  · have hd' : ∀ d ∈ dec v.natAbs, d ≠ 0 := by
      rcases hd with h | h
      · exact h
      · exact absurd h.1 h0
    have hf : (dec v.natAbs).filter (· ≠ 0) = dec v.natAbs := List.filter_eq_self.mpr (by simpa using hd')
    have key := intToStr_eq v buf h0 h1 h2
    simp only [hf] at key
    by_cases hneg : v < 0
    · simp only [hneg, if_true, List.length_singleton] at key
      simp only [decStr, hneg, if_true, List.length_cons, List.length_map]
      split
      · next hle => rw [if_pos (by omega)] at key; simpa using key
      · next hle =>
        rw [if_neg (by omega)] at key
        refine ⟨_, key, ?_⟩
        cases buf with
        | nil => rfl
        | cons x l => simp [written]
    · simp only [hneg, if_false, List.length_nil] at key
      simp only [decStr, hneg, if_false, List.length_map]
      split
      · next hle => rw [if_pos (by omega)] at key; simpa using key
      · next hle =>
        rw [if_neg (by omega)] at key
        exact ⟨_, key, by simp [written]⟩

example : (∀ d ∈ dec (-12345 : Int).natAbs, d ≠ 0) := by simp [dec, digits]

/-- **C49, violated**: 100 comes out as "1", 205 as "25"; for 0 a buffer of one character is overrun; the most negative value
negates with overflow. -/
theorem C49_int_to_str_violated :
    intToStr 100 [0, 0, 0, 0] = .ok ([49, 0, 0, 0], true) ∧ decStr 100 = [49, 48, 48] ∧
    intToStr 205 [0, 0, 0, 0] = .ok ([50, 53, 0, 0], true) ∧
    intToStr 0 [7] = .ub ∧ (∀ x buf, intToStr (-2147483648) (x :: buf) = .ub) := by
  refine ⟨?_, by simp [decStr, dec, digits, chr], ?_, by decide, fun x buf => rfl⟩
  · have := intToStr_eq 100 [0, 0, 0, 0] (by decide) (by decide) (by decide)
    simpa [dec, digits, chr, written] using this
  · have := intToStr_eq 205 [0, 0, 0, 0] (by decide) (by decide) (by decide)
    simpa [dec, digits, chr, written] using this

/-! ### int_to_str_chop -/

theorem log10_pow (n : Nat) : log10 (10 ^ n) = n + 1 := by
  induction n with
  | zero => simp [log10]
  | succ n ih =>
    rw [log10, if_neg (by have := Nat.pow_pos (n := n) (show 0 < 10 by omega); rw [Nat.pow_succ]; omega), Nat.pow_succ,
      Nat.mul_div_cancel _ (by omega), ih]

theorem log10_pos (p : Nat) : 1 ≤ log10 p := by
  rw [log10]; split <;> omega

/-- The safe part of `C50`: whatever the value, the loop stays inside the buffer and terminates the text. -/
theorem chopLoop_safe (ps : List Nat) : ∀ (v len : Nat) (buf : List Nat), len < buf.length →
    ∃ b, chopLoop ps v len buf = .ok b ∧ b.length = buf.length ∧ b.take len = buf.take len ∧ ∃ i, len ≤ i ∧ b[i]? = some 0 := by
  induction ps with
  | nil =>
    intro v len buf h
    refine ⟨buf.set len 0, by rw [chopLoop, arrSet_lt h], by simp, List.take_set_of_le (Nat.le_refl _), len, Nat.le_refl _, List.getElem?_set_self h⟩
  | cons p ps ih =>
    intro v len buf h
    rw [chopLoop]
    split
    · next hne =>
      have hroom : buf.length - len > 1 := by
        have := log10_pos p
        unfold digit at hne
        split at hne
        · simp only at hne
          split at hne
          · omega
          · simp at hne
        · simp at hne
      rw [arrSet_lt h, R.bind_ok]
      obtain ⟨b, h1, h2, h3, i, h4, h5⟩ := ih (digit p v (buf.length - len)).1 (len + 1) (buf.set len (digit p v (buf.length - len)).2)
        (by rw [List.length_set]; omega)
      refine ⟨b, h1, by rw [h2, List.length_set], ?_, i, by omega, h5⟩
      have := congrArg (List.take len) h3
      rw [List.take_take, List.take_take, Nat.min_eq_left (by omega), List.take_set_of_le (Nat.le_refl _)] at this
      exact this
    · exact ih _ len buf h

/-- **C50**: for every value but the most negative, and every buffer: int_to_str_chop stays inside the buffer; with at
least two characters the result is terminated; a negative number starts with '-'. -/
theorem C50_chop_safe_partial (v : Int) (buf : List Nat) (h1 : -2147483648 < v) :
    ∃ b, chop v buf = .ok b ∧ b.length = buf.length ∧ (2 ≤ buf.length → (0 ∈ b) ∧ (v < 0 → b[0]? = some 45)) := by
  unfold chop
  split
  · exact ⟨buf, rfl, rfl, by intro h; omega⟩
  · next hb =>
    split
    · rw [arrSet_lt (by omega), R.bind_ok, arrSet_lt (by rw [List.length_set]; omega)]
      refine ⟨_, rfl, by simp, fun _ => ⟨?_, by intro h; omega⟩⟩
      exact List.mem_of_getElem? (i := 1) (List.getElem?_set_self (by rw [List.length_set]; omega))
    · split
      · rw [arrSet_lt (by omega), R.bind_ok, neg32_ok h1, R.bind_ok]
        obtain ⟨b, g1, g2, g3, i, g4, g5⟩ := chopLoop_safe places10 (-v).toNat 1 (buf.set 0 45) (by rw [List.length_set]; omega)
        refine ⟨b, g1, by rw [g2, List.length_set], fun _ => ⟨List.mem_of_getElem? g5, fun _ => ?_⟩⟩
        have : b[0]? = (b.take 1)[0]? := by rw [List.getElem?_take, if_pos (by omega)]
        rw [this, g3, List.getElem?_take, if_pos (by omega), List.getElem?_set_self (by omega)]
      · obtain ⟨b, g1, g2, g3, i, g4, g5⟩ := chopLoop_safe places10 v.toNat 0 buf (by omega)
        exact ⟨b, g1, g2, fun _ => ⟨List.mem_of_getElem? g5, by intro h; omega⟩⟩

example := C50_chop_safe_partial (-123) (List.replicate 7 170) (by decide)

theorem pad_last (n v : Nat) (h : v < 10 ^ (n + 1)) (hl : 2 ≤ v % 10) : (v % 10 ^ n) % 10 = v % 10 ∨ n = 0 := by
  cases n with
  | zero => right; rfl
  | succ n => left; rw [Nat.pow_succ', Nat.mod_mul_right_mod]

/-- The digits part, when no digit is zero and the last is at least 2. -/
theorem chopLoop_eq (n : Nat) : ∀ (v len : Nat) (buf : List Nat), v < 10 ^ n → len < buf.length →
    (∀ d ∈ pad 10 n v, d ≠ 0) → (n ≠ 0 → 2 ≤ v % 10) →
    chopLoop (places 10 n) v len buf =
      .ok (writeSeq buf len (((pad 10 n v).drop (n - (buf.length - len - 1))).map chr ++ [0])) := by
  induction n with
  | zero =>
    intro v len buf _ hl _ _
    simp only [places, chopLoop, pad, List.drop_nil, List.map_nil, List.nil_append]
    exact writeSeq_zero hl
  | succ n ih =>
    intro v len buf hv hl hd hlast
    have hpos : 0 < 10 ^ n := Nat.pow_pos (by omega)
    have hpad := pad_msd 10 n v (by omega) hv
    have hd0 : v / 10 ^ n ≠ 0 := hd _ (by rw [hpad]; simp)
    have hd9 : v / 10 ^ n < 10 := by rw [Nat.div_lt_iff_lt_mul hpos, ← Nat.pow_succ']; exact hv
    have hge : 10 ^ n ≤ v := by
      rcases Nat.lt_or_ge v (10 ^ n) with h | h
      · exact absurd (Nat.div_eq_of_lt h) hd0
      · exact h
    have hl2 := hlast (by omega)
    have hgt : v > 10 ^ n := by
      rcases Nat.lt_or_eq_of_le hge with h | h
      · exact h
      · exfalso
        cases n with
        | zero => simp at h; omega
        | succ n => rw [← h, Nat.pow_succ, Nat.mul_mod_left] at hl2; omega
    have hrec : ∀ (len : Nat) (buf : List Nat), len < buf.length → chopLoop (places 10 n) (v % 10 ^ n) len buf =
      .ok (writeSeq buf len (((pad 10 n (v % 10 ^ n)).drop (n - (buf.length - len - 1))).map chr ++ [0])) := by
      intro len buf hl
      apply ih _ _ _ (mod_lt_pow v 10 n (by omega)) hl
      · intro d hd'; exact hd d (by rw [hpad]; simp [hd'])
      · intro hn
        rcases pad_last n v hv hl2 with h | h
        · omega
        · exact absurd h hn
    simp only [places, chopLoop, digit, if_pos hgt, log10_pow, sub_div_mul]
    by_cases hroom : buf.length - len > n + 1
    · rw [if_pos hroom, if_pos (show 48 + v / 10 ^ n ≠ 0 by simp), arrSet_lt hl, R.bind_ok, hrec _ _ (by rw [List.length_set]; omega),
        writeSeq_cons hl]
      congr 2
      rw [List.length_set, hpad, show n + 1 - (buf.length - len - 1) = 0 by omega,
        show n - (buf.length - (len + 1) - 1) = 0 by omega]
      simp [chr, hd9]
    · rw [if_neg hroom]
      simp only [ne_eq, not_true_eq_false, if_false]
      rw [hrec _ _ hl, hpad, show n + 1 - (buf.length - len - 1) = (n - (buf.length - len - 1)) + 1 by omega, List.drop_succ_cons]

theorem chopLoop_skip (n k : Nat) (v len : Nat) (buf : List Nat) (hk : k ≤ n) (h : v < 10 ^ k) (h0 : 0 < v) (hk0 : 0 < k) :
    chopLoop (places 10 n) v len buf = chopLoop (places 10 k) v len buf := by
  induction n with
  | zero => have : k = 0 := by omega
            rw [this]
  | succ n ih =>
    by_cases hk' : k = n + 1
    · rw [hk']
    · have hle : v < 10 ^ n := Nat.lt_of_lt_of_le h (Nat.pow_le_pow_right (by omega) (by omega))
      rw [places, chopLoop]
      simp only [digit]
      rw [if_neg (show ¬ v > 10 ^ n by omega)]
      simp only [ne_eq, not_true_eq_false, if_false]
      exact ih (by omega)

/-- **C50** (partial): for values whose decimal digits are all non-zero with last digit at least 2, and for 0, and every buffer of at least
2 characters: the buffer holds the sign, then the decimal digits, the most significant ones dropped as far as needed,
then the terminator. Missing: all other values, and buffers of one character, which are not terminated (see below). -/
theorem C50_chop_partial (v : Int) (buf : List Nat) (h1 : -2147483648 < v) (h2 : v < 2147483648) (hb : 2 ≤ buf.length)
    (hd : v = 0 ∨ ((∀ d ∈ dec v.natAbs, d ≠ 0) ∧ 2 ≤ v.natAbs % 10)) :
    let sign := if v < 0 then [45] else []
    let room := buf.length - 1 - sign.length
    let ds := (dec v.natAbs).map chr
    chop v buf = .ok (written buf (sign ++ ds.drop (ds.length - room) ++ [0])) := by
  rcases hd with rfl | ⟨hd, hlast⟩
  · match buf, hb with
    | a :: b :: l, _ =>
      simp [chop, written, dec, digits, chr, arrSet]
  · have hpos : 0 < v.natAbs := by
      rcases Nat.eq_zero_or_pos v.natAbs with h | h
      · rw [h] at hlast; simp at hlast
      · exact h
    have hlt : v.natAbs < 10 ^ 10 := by omega
    obtain ⟨k, hk, hk1, hk2⟩ := dec_length_places v.natAbs hpos hlt
    have hdec : dec v.natAbs = pad 10 (k + 1) v.natAbs := digits_eq_pad 8 k _ hk1 hk2
    rw [hdec] at hd
    have hloop : ∀ (len : Nat) (buf : List Nat), len < buf.length → chopLoop places10 v.natAbs len buf =
        .ok (writeSeq buf len (((pad 10 (k + 1) v.natAbs).drop (k + 1 - (buf.length - len - 1))).map chr ++ [0])) := by
      intro len buf hl
      rw [places10_eq, chopLoop_skip 10 (k + 1) _ _ _ (by omega) hk2 hpos (by omega)]
      exact chopLoop_eq (k + 1) _ _ _ hk2 hl hd (fun _ => hlast)
    have hv0 : v ≠ 0 := by omega
    simp only [hdec, List.length_map, pad_length]
    unfold chop
    rw [if_neg (by omega), if_neg hv0]
    by_cases hneg : v < 0
    · have hv : (-v).toNat = v.natAbs := by omega
      simp only [hneg, if_true, List.length_singleton]
      rw [arrSet_lt (by omega), R.bind_ok, neg32_ok h1, R.bind_ok, hv, hloop 1 _ (by rw [List.length_set]; omega)]
      rw [show (1 : Nat) = 0 + 1 from rfl, writeSeq_cons (by omega), List.length_set]
      congr 1
      simp only [writeSeq, written, List.take_zero, List.nil_append, Nat.zero_add, List.map_drop,
        show buf.length - 1 - 1 = buf.length - (0 + 1) - 1 by omega]
      rfl
    · have hv : v.toNat = v.natAbs := by omega
      simp only [hneg, if_false, List.length_nil]
      rw [hv, hloop 0 _ (by omega)]
      congr 1
      simp only [writeSeq, written, List.take_zero, List.nil_append, Nat.zero_add, Nat.sub_zero, List.map_drop]

/-- -98765 in a buffer of 5: "-765" -/
example : (∀ d ∈ dec (-98765 : Int).natAbs, d ≠ 0) ∧ 2 ≤ (-98765 : Int).natAbs % 10 ∧
    (∀ l : List Nat, l.length = 5 → chop (-98765) l = .ok [45, 55, 54, 53, 0]) := by
  have hd : ∀ d ∈ dec (-98765 : Int).natAbs, d ≠ 0 := by simp [dec, digits]
  refine ⟨hd, by decide, ?_⟩
  intro l hl
  rw [C50_chop_partial _ _ (by decide) (by decide) (by omega) (Or.inr ⟨hd, by decide⟩)]
  simp [hl, dec, digits, chr, written]

/-- **C50, violated**: 1 comes out empty, 10 as ":", 101 as "1:" without a middle digit's place ("1", then 1 is dropped); a
buffer of one character is left without terminator. -/
theorem C50_chop_violated :
    chop 1 [7, 7, 7] = .ok [0, 7, 7] ∧ chop 10 [7, 7, 7] = .ok [58, 0, 7] ∧ chop 105 [7, 7, 7, 7] = .ok [49, 53, 0, 7] ∧
    chop 0 [7] = .ok [7] ∧ (∀ x y buf, chop (-2147483648) (x :: y :: buf) = .ub) := by
  refine ⟨?_, ?_, ?_, by decide, ?_⟩
  · simp [chop, places10, chopLoop, digit, arrSet]
  · simp [chop, places10, chopLoop, digit, arrSet, log10]
  · simp [chop, places10, chopLoop, digit, arrSet, log10]
  · intro x y buf
    simp [chop, arrSet, neg32]

end IntToStr

namespace Print
open Digits Digits.Spec

theorem digits_true (B n : Nat) (hB : 0 < B) : ∀ v, v < B ^ n → Print.digits (places B n) v true = (pad B n v).map chr := by
  induction n with
  | zero => intro v _; rfl
  | succ n ih =>
    intro v hv
    rw [places, Print.digits, pad_msd B n v hB hv]
    simp only [Bool.true_or, if_true, List.map_cons, sub_div_mul]
    rw [ih _ (mod_lt_pow v B n hB)]
    congr 1
    unfold chr; split <;> omega

theorem digits_false (b n : Nat) : ∀ v, v < (b + 2) ^ n →
    Print.digits (places (b + 2) n) v false = if v = 0 then [] else (Spec.digits b v).map chr := by
  induction n with
  | zero => intro v hv; simp at hv; simp [hv, places, Print.digits]
  | succ n ih =>
    intro v hv
    have hpos : 0 < (b + 2) ^ n := Nat.pow_pos (by omega)
    rw [places, Print.digits]
    by_cases hge : v ≥ (b + 2) ^ n
    · simp only [hge, decide_true, Bool.or_true, if_true, sub_div_mul]
      rw [if_neg (show ¬ v = 0 by omega), digits_eq_pad b n v hge hv, pad_msd (b + 2) n v (by omega) hv, List.map_cons,
        digits_true (b + 2) n (by omega) _ (mod_lt_pow v (b + 2) n (by omega))]
      congr 1
      unfold chr; split <;> omega
    · simp only [hge, decide_false, Bool.or_false, Bool.false_eq_true, if_false]
      exact ih v (by omega)

/-- **C51** (partial): print of an int32 emits exactly its decimal representation, for every value but the most negative one. -/
theorem C51_int_partial (v : Int) (h1 : -2147483648 < v) (h2 : v < 2147483648) : int v = .ok (decStr v) := by
  have key : ∀ n : Nat, 0 < n → n < 10 ^ 10 → Print.digits IntToStr.places10 n false = (dec n).map chr := by
    intro n hn hlt
    have : IntToStr.places10 = places (8 + 2) 10 := by decide
    rw [this, digits_false 8 10 n hlt, if_neg (by omega)]; rfl
  unfold int decStr
  split
  · next h => subst h; simp [dec, Spec.digits, chr]
  · split
    · rw [IntToStr.neg32_ok h1, R.bind_ok, show (-v).toNat = v.natAbs by omega, key _ (by omega) (by omega)]
    · rw [show v.toNat = v.natAbs by omega, key _ (by omega) (by omega)]

example : decStr (-1020) = [45, 49, 48, 50, 48] := by simp [decStr, dec, Spec.digits, chr]

/-- **C51, violated**: printing the most negative value negates it with overflow. -/
theorem C51_int_min_violated : int (-2147483648) = .ub := rfl

theorem trunc_eq (x : ℚ) (i : Int) (hpos : 0 ≤ x → (i : ℚ) ≤ x ∧ x < i + 1) (hneg : x < 0 → (i : ℚ) - 1 < x ∧ x ≤ i) : x.num.tdiv x.den = i := by
  have hd : (0 : Int) < x.den := by exact_mod_cast x.den_pos
  have hdq : (0 : ℚ) < (x.den : ℚ) := by exact_mod_cast x.den_pos
  have hx : x * x.den = x.num := Rat.mul_den_eq_num x
  by_cases h0 : 0 ≤ x
  · obtain ⟨h1, h2⟩ := hpos h0
    have hn : 0 ≤ x.num := Rat.num_nonneg.mpr h0
    rw [Int.tdiv_eq_ediv_of_nonneg hn]
    have e1 : i * x.den ≤ x.num := by
      have := mul_le_mul_of_nonneg_right h1 hdq.le
      rw [hx] at this; exact_mod_cast this
    have e2 : x.num < (i + 1) * x.den := by
      have := mul_lt_mul_of_pos_right h2 hdq
      rw [hx] at this; exact_mod_cast this
    exact le_antisymm (Int.lt_add_one_iff.mp (Int.ediv_lt_of_lt_mul hd e2)) (Int.le_ediv_of_mul_le hd e1)
  · have h0' : x < 0 := not_le.mp h0
    obtain ⟨h1, h2⟩ := hneg h0'
    have hn : x.num < 0 := Rat.num_neg.mpr h0'
    have e1 : x.num ≤ i * x.den := by
      have := mul_le_mul_of_nonneg_right h2 hdq.le
      rw [hx] at this; exact_mod_cast this
    have e2 : (i - 1) * x.den < x.num := by
      have := mul_lt_mul_of_pos_right h1 hdq
      rw [hx] at this; exact_mod_cast this
    have : x.num.tdiv x.den = -((-x.num).tdiv x.den) := by rw [Int.neg_tdiv]; simp
    rw [this, Int.tdiv_eq_ediv_of_nonneg (by omega)]
    have a1 : -i ≤ (-x.num) / x.den := Int.le_ediv_of_mul_le hd (by linarith)
    have a2 : (-x.num) / x.den < -i + 1 := Int.ediv_lt_of_lt_mul hd (by linarith)
    omega

/-- **C51** (partial): print of a float emits, between question marks, its integer part `i` (rounded toward zero) in decimal, if `i` is in the range of `int32_t` without its lowest value. -/
theorem C51_float_partial (x : ℚ) (i : Int) (hpos : 0 ≤ x → (i : ℚ) ≤ x ∧ x < i + 1) (hneg : x < 0 → (i : ℚ) - 1 < x ∧ x ≤ i) (h1 : -2147483648 < i) (h2 : i < 2147483648) :
    one (.flt (some x)) = .ok (63 :: (decStr i ++ [63])) := by
  simp only [one, flt, toInt32]
  rw [trunc_eq x i hpos hneg, if_pos (by omega), R.bind_ok, C51_int_partial i h1 h2, R.bind_ok]

/-- **C51, violated**: a float beyond the range of `int32_t`, an infinity, NaN, or a value that truncates to the lowest `int32_t`, is undefined behaviour; 0.75 prints as "?0?". -/
theorem C51_float_violated : one (.flt (some 2147483648)) = .ub ∧ one (.flt (some (-2147483648))) = .ub ∧ one (.flt none) = .ub ∧ one (.flt (some (3 / 4))) = .ok [63, 48, 63] := by
  refine ⟨?_, ?_, rfl, ?_⟩
  · simp only [one, flt, toInt32]
    rw [trunc_eq 2147483648 2147483648 (by norm_num) (by norm_num), if_neg (by omega), R.bind_ub]
  · simp only [one, flt, toInt32]
    rw [trunc_eq (-2147483648) (-2147483648) (by norm_num) (by norm_num), if_pos (by omega), R.bind_ok, C51_int_min_violated, R.bind_ub]
  · rw [C51_float_partial (3 / 4) 0 (by norm_num) (by norm_num) (by omega) (by omega)]
    simp [decStr, dec, Spec.digits, chr]

/-- **C51** (exactly): print of a finite number is undefined exactly for those at most -2^31 or at least 2^31. -/
theorem C51_float_exact (x : ℚ) : one (.flt (some x)) = .ub ↔ x ≤ -2147483648 ∨ 2147483648 ≤ x := by
  obtain ⟨i, hpos, hneg⟩ : ∃ i : Int, (0 ≤ x → (i : ℚ) ≤ x ∧ x < i + 1) ∧ (x < 0 → (i : ℚ) - 1 < x ∧ x ≤ i) := by
    by_cases h : 0 ≤ x
    · exact ⟨⌊x⌋, fun _ => ⟨Int.floor_le x, Int.lt_floor_add_one x⟩, fun h' => absurd h (not_le.mpr h')⟩
    · exact ⟨⌈x⌉, fun h' => absurd h' h, fun _ => ⟨by have := Int.ceil_lt_add_one x; linarith, Int.le_ceil x⟩⟩
  by_cases hb : -2147483648 < i ∧ i < 2147483648
  · rw [C51_float_partial x i hpos hneg hb.1 hb.2]
    refine ⟨fun h => by (cases h), fun h => absurd h ?_⟩
    have b1 : (-2147483647 : ℚ) ≤ i := by exact_mod_cast (show (-2147483647 : Int) ≤ i by omega)
    have b2 : (i : ℚ) ≤ 2147483647 := by exact_mod_cast (show i ≤ 2147483647 by omega)
    by_cases h0 : 0 ≤ x
    · have := hpos h0
      rintro (h | h) <;> linarith
    · have := hneg (not_le.mp h0)
      rintro (h | h) <;> linarith
  · have hu : one (.flt (some x)) = .ub := by
      simp only [one, flt, toInt32]
      rw [trunc_eq x i hpos hneg]
      by_cases hm : i = -2147483648
      · rw [if_pos (by omega), hm, R.bind_ok, C51_int_min_violated, R.bind_ub]
      · rw [if_neg (by omega), R.bind_ub]
    refine ⟨fun _ => ?_, fun _ => hu⟩
    by_cases h0 : 0 ≤ x
    · have h := hpos h0
      have : (-1 : ℚ) < i := by linarith
      have : (-1 : Int) < i := by exact_mod_cast this
      have : (2147483648 : ℚ) ≤ i := by exact_mod_cast (show (2147483648 : Int) ≤ i by omega)
      right; linarith
    · have h := hneg (not_le.mp h0)
      have : (i : ℚ) < 1 := by linarith
      have : i < (1 : Int) := by exact_mod_cast this
      have : (i : ℚ) ≤ -2147483648 := by exact_mod_cast (show i ≤ (-2147483648 : Int) by omega)
      left; linarith

example : one (.flt (some (-2147483647 - 1 / 2))) ≠ .ub := by
  rw [Ne, C51_float_exact]; norm_num

/-- -5.5 -/
example : one (.flt (some (-11 / 2))) = .ok [63, 45, 53, 63] := by
  rw [C51_float_partial (-11 / 2) (-5) (by norm_num) (by norm_num) (by omega) (by omega)]
  simp [decStr, dec, Spec.digits, chr]

/-- **C51**: print of a Hex emits exactly the upper-case hexadecimal representation, for every 32-bit value. -/
theorem C51_hex (x : Nat) (h : x < 2 ^ 32) : hex x = hexStr x := by
  unfold hex hexStr
  have : places16 = places (14 + 2) 8 := by decide
  split
  · next h => subst h; simp [Spec.digits, chr]
  · next h0 => rw [this, digits_false 14 8 x (by omega), if_neg h0]

example : hexStr 0xC0FE = [67, 48, 70, 69] := by simp [hexStr, Spec.digits, chr]

theorem cstr_eq (s rest : List Nat) (hs : ∀ c ∈ s, c ≠ 0) : cstr (s ++ 0 :: rest) = .ok s := by
  induction s with
  | nil => simp [cstr]
  | cons c s ih =>
    rw [List.cons_append, cstr, if_neg (hs c (by simp)), ih (fun c hc => hs c (by simp [hc])), R.bind_ok]

/-- **C52**: print of a C string emits exactly the characters before its terminator. -/
theorem C52_cstr (s rest : List Nat) (hs : ∀ c ∈ s, c ≠ 0) : one (.cstr (s ++ 0 :: rest)) = .ok s := cstr_eq s rest hs

/-- **C52** (partial): a string_view is printed exactly if it has no NUL and the memory after it has one right behind. -/
theorem C52_view_partial (s rest : List Nat) (hs : ∀ c ∈ s, c ≠ 0) : one (.view (s ++ 0 :: rest) s.length) = .ok s := cstr_eq s rest hs

example : ∀ c ∈ [72, 105], c ≠ 0 := by decide

/-- **C52, violated**: a view of the first two characters of "abc" prints "abc"; a view that no NUL follows runs
past the end of its memory; a view with an embedded NUL is cut short. -/
theorem C52_view_violated : one (.view [97, 98, 99, 0] 2) = .ok [97, 98, 99] ∧ one (.view [97, 98] 2) = .ub ∧
    one (.view [97, 0, 98, 0] 3) = .ok [97] := by decide

/-- **C51**, **C52**: several arguments are printed one after the other. -/
theorem C52_print_args (args : List Arg) (outs : List (List Nat)) (h : args.length = outs.length)
    (ho : ∀ i : Nat, ∀ (a : Arg) (o : List Nat), args[i]? = some a → outs[i]? = some o → one a = .ok o) :
    print args = .ok outs.flatten := by
  induction args generalizing outs with
  | nil => cases outs with
    | nil => rfl
    | cons => simp at h
  | cons a l ih =>
    cases outs with
    | nil => simp at h
    | cons o outs =>
      rw [print, ho 0 a o (by simp) (by simp), R.bind_ok, ih outs (by simpa using h)
        (fun i a' o' ha hoo => ho (i + 1) a' o' (by simpa using ha) (by simpa using hoo)), R.bind_ok]
      rfl

example : print [.cstr [120, 61, 0], .int (-5), .hex 31] = .ok [120, 61, 45, 53, 49, 70] := by decide

end Print
