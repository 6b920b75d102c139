import Verif.Spec.Version
import Verif.Lemmas.IntToStr
/-! # Properties C53 to C56: versions -/
namespace Version
open Spec

/-- **C53**: `<=>` yields less exactly for precedence, equal exactly for `==`. -/
theorem C53_cmp (a b : Version) : (cmp a b = .lt ↔ Precedes a b) ∧ (cmp a b = .eq ↔ eq a b = true) ∧ (cmp a b = .gt ↔ Precedes b a) ∧
    (isLater a b = true ↔ Precedes b a) := by
  have hlt : ∀ a b, Precedes a b ↔ (a.major < b.major ∨ (a.major = b.major ∧ a.minor < b.minor) ∨
      (a.major = b.major ∧ a.minor = b.minor ∧ a.revision < b.revision) ∨
      (a.major = b.major ∧ a.minor = b.minor ∧ a.revision = b.revision ∧ a.isNormal = false ∧ b.isNormal = true)) := by
    intro a b
    constructor
    · rintro (h | ⟨h1, h2⟩ | ⟨h1, h2, h3⟩ | ⟨h1, h2, h3, h4, h5⟩)
      · exact Or.inl h
      · exact Or.inr (Or.inl ⟨h1, h2⟩)
      · exact Or.inr (Or.inr (Or.inl ⟨h1, h2, h3⟩))
      · exact Or.inr (Or.inr (Or.inr ⟨h1, h2, h3, h4, h5⟩))
    · rintro (h | ⟨h1, h2⟩ | ⟨h1, h2, h3⟩ | ⟨h1, h2, h3, h4, h5⟩)
      · exact .major h
      · exact .minor h1 h2
      · exact .revision h1 h2 h3
      · exact .prerelease h1 h2 h3 h4 h5
  have heq : eq a b = true ↔ (a.major = b.major ∧ a.minor = b.minor ∧ a.revision = b.revision ∧ a.isNormal = b.isNormal) := by
    obtain ⟨a1, a2, a3, a4⟩ := a
    obtain ⟨b1, b2, b3, b4⟩ := b
    simp [eq]
  have hcmp : (cmp a b = .lt ↔ Precedes a b) ∧ (cmp a b = .eq ↔ eq a b = true) ∧ (cmp a b = .gt ↔ Precedes b a) := by
    rw [hlt, hlt, heq]
    unfold cmp
    cases ha : a.isNormal <;> cases hb : b.isNormal <;> (split <;> (try split)) <;> simp_all <;> omega
  refine ⟨hcmp.1, hcmp.2.1, hcmp.2.2, ?_⟩
  rw [← hcmp.2.2, isLater]; simp

/-- **C53**: precedence is a strict total order whose equality is `==`. -/
theorem C53_total_order : (∀ a, ¬ Precedes a a) ∧ (∀ a b c, Precedes a b → Precedes b c → Precedes a c) ∧
    (∀ a b, Precedes a b ∨ a = b ∨ Precedes b a) ∧ (∀ a b, Precedes a b → ¬ Precedes b a) ∧ (∀ a b, eq a b = true ↔ a = b) := by
  have heq : ∀ a b, eq a b = true ↔ a = b := by intro a b; simp [eq]
  have htrans : ∀ a b c, Precedes a b → Precedes b c → Precedes a c := by
    intro a b c h1 h2
    cases h1 <;> cases h2 <;> first
      | exact .major (by omega)
      | exact .minor (by omega) (by omega)
      | exact .revision (by omega) (by omega) (by omega)
      | simp_all
  have hirr : ∀ a, ¬ Precedes a a := by
    intro a h
    cases h <;> first | omega | simp_all
  refine ⟨hirr, htrans, ?_, fun a b h1 h2 => hirr a (htrans _ _ _ h1 h2), heq⟩
  intro a b
  cases h : cmp a b with
  | lt => left; exact (C53_cmp a b).1.mp h
  | eq => right; left; exact (heq a b).mp ((C53_cmp a b).2.1.mp h)
  | gt => right; right; exact (C53_cmp a b).2.2.1.mp h

example : Precedes ⟨1, 0, 0, false⟩ ⟨1, 0, 0, true⟩ ∧ Precedes ⟨1, 9, 9, true⟩ ⟨2, 0, 0, false⟩ :=
  ⟨.prerelease rfl rfl rfl rfl rfl, .major (by decide)⟩

/-- **C55**: the hosting rule. -/
theorem C55_can_host : (∀ a b, canHost a b = true ↔ a.major = b.major ∧ b.minor ≤ a.minor) ∧ (∀ a, canHost a a = true) ∧
    (∀ a b c, canHost a b = true → canHost b c = true → canHost a c = true) ∧
    (∀ (a a' b : Version), a.major = a'.major → a.minor ≤ a'.minor → canHost a b = true → canHost a' b = true) := by
  have h : ∀ a b, canHost a b = true ↔ a.major = b.major ∧ b.minor ≤ a.minor := by intro a b; simp [canHost]
  refine ⟨h, fun a => (h a a).mpr ⟨rfl, Nat.le_refl _⟩, ?_, ?_⟩
  · intro a b c h1 h2
    rw [h] at *; omega
  · intro a a' b h1 h2 h3
    rw [h] at *; omega

example : canHost ⟨2, 5, 0, true⟩ ⟨2, 3, 7, false⟩ = true ∧ canHost ⟨2, 3, 0, true⟩ ⟨2, 5, 0, true⟩ = false := by decide

/-! ### Parsing -/
open Digits Digits.Spec

theorem digits_lt (b v : Nat) : ∀ d ∈ Digits.Spec.digits b v, d < b + 2 := by
  induction v using Nat.strongRecOn with
  | ind v ih =>
    intro d hd
    rw [Digits.Spec.digits] at hd
    split at hd
    · simp at hd; omega
    · rcases List.mem_append.mp hd with h | h
      · exact ih _ (Nat.div_lt_self (by omega) (by omega)) d h
      · simp at h; rw [h]; exact Nat.mod_lt _ (by omega)

theorem dec_chr (v : Nat) : ∀ c ∈ (dec v).map chr, 48 ≤ c ∧ c ≤ 57 := by
  intro c hc
  obtain ⟨d, hd, rfl⟩ := List.mem_map.mp hc
  have := digits_lt 8 v d hd
  unfold chr
  split <;> omega

theorem strtolDigits_append (s : List Nat) (c : Nat) (rest : List Nat) (hs : ∀ x ∈ s, 48 ≤ x ∧ x ≤ 57) (hc : ¬ (48 ≤ c ∧ c ≤ 57)) :
    ∀ acc, strtolDigits (s ++ c :: rest) acc = .ok (s.foldl (fun a x => a * 10 + (x - 48)) acc) := by
  induction s with
  | nil => intro acc; simp only [List.nil_append, strtolDigits, if_neg hc, List.foldl_nil]
  | cons x s ih =>
    intro acc
    rw [List.cons_append, strtolDigits, if_pos (hs x (by simp)), ih (fun x hx => hs x (by simp [hx])), List.foldl_cons]

theorem foldl_dec (v : Nat) : ((dec v).map chr).foldl (fun a x => a * 10 + (x - 48)) 0 = v := by
  induction v using Nat.strongRecOn with
  | ind v ih =>
    rw [dec, Digits.Spec.digits]
    split
    · next h => simp [chr, show v < 10 by omega]
    · next h =>
      have := ih (v / 10) (Nat.div_lt_self (by omega) (by omega))
      rw [dec] at this
      rw [List.map_append, List.foldl_append, this]
      have hm : v % 10 < 10 := Nat.mod_lt _ (by omega)
      simp only [List.map_cons, List.map_nil, List.foldl_cons, List.foldl_nil, chr, Nat.reduceAdd, if_pos hm]
      omega

theorem dec_ne_nil (v : Nat) : (dec v).map chr ≠ [] := by
  rw [dec, Digits.Spec.digits]; split <;> simp

theorem strtol_dec (L v c : Nat) (rest : List Nat) (hc : ¬ (48 ≤ c ∧ c ≤ 57)) :
    strtol L ((dec v).map chr ++ c :: rest) = .ok (min (v : Int) (2 ^ (L - 1) - 1)) := by
  have key := strtolDigits_append ((dec v).map chr) c rest (dec_chr v) hc 0
  rw [foldl_dec] at key
  obtain ⟨x, s, hx⟩ : ∃ x s, (dec v).map chr = x :: s := by
    cases h : (dec v).map chr with
    | nil => exact absurd h (dec_ne_nil v)
    | cons x s => exact ⟨x, s, rfl⟩
  have hr := dec_chr v x (by rw [hx]; simp)
  rw [hx] at key ⊢
  rw [List.cons_append] at key ⊢
  rw [strtol, if_neg (by omega), strtolSign, if_neg (by omega), if_neg (by omega), key, R.bind_ok]

/-- What a list of fields starting at index `i` makes of a version. -/
def setAll (L : Nat) : List Nat → Nat → Version → Version
  | [], _, v => v
  | n :: l, i, v => setAll L l (i + 1) (setField v i (toUnsigned (min (n : Int) (2 ^ (L - 1) - 1))))

theorem dot_not_mem_dec (v : Nat) : 46 ∉ (dec v).map chr := fun h => by have := dec_chr v 46 h; omega

theorem take_len_append (a b : List Nat) : (a ++ b).take a.length = a := by simp

theorem findIdx?_dot (a b : List Nat) (ha : 46 ∉ a) : (a ++ 46 :: b).findIdx? (· == 46) = some a.length := by
  induction a with
  | nil => rfl
  | cons x a ih =>
    have hx : (x == 46) = false := by
      simp only [beq_eq_false_iff_ne]; intro h; exact ha (by simp [h])
    rw [List.cons_append, List.findIdx?_cons, hx, ih (fun h => ha (by simp [h]))]
    simp

/-- The parser on the dotted text of `ns`, then a suffix, then something that is not a digit. -/
theorem parse_dotted (L : Nat) (suf rest : List Nat) (hs : suffix suf) (c : Nat) (hc : ¬ (48 ≤ c ∧ c ≤ 57)) :
    ∀ (ns : List Nat) (i : Nat) (v : Version), ns ≠ [] →
    parseLoop L (dotted ns ++ suf ++ c :: rest) (dotted ns ++ suf).length i v =
      .ok { setAll L ns i v with isNormal := decide (suf = []) } := by
  intro ns
  induction ns with
  | nil => intro i v h; exact absurd rfl h
  | cons n l ih =>
    intro i v _
    cases l with
    | nil =>
      simp only [dotted]
      rw [parseLoop]
      have htake : ((dec n).map chr ++ suf ++ c :: rest).take ((dec n).map chr ++ suf).length = (dec n).map chr ++ suf :=
        take_len_append _ _
      have hno : 46 ∉ (dec n).map chr ++ suf := by
        rw [List.mem_append]
        rintro (h | h)
        · exact dot_not_mem_dec n h
        · rcases hs with rfl | ⟨t, rfl, ht⟩
          · cases h
          · rcases List.mem_cons.mp h with h | h
            · omega
            · exact ht h
      have hstr : strtol L ((dec n).map chr ++ suf ++ c :: rest) = .ok (min (n : Int) (2 ^ (L - 1) - 1)) := by
        rcases hs with rfl | ⟨t, rfl, ht⟩
        · rw [List.append_nil]; exact strtol_dec L n c rest hc
        · rw [List.append_assoc]; exact strtol_dec L n 45 _ (by omega)
      split
      · next pos h =>
        rw [htake] at h
        obtain ⟨h1, h2, _⟩ := List.findIdx?_eq_some_iff_getElem.mp h
        exfalso
        apply hno
        have : ((dec n).map chr ++ suf)[pos] = 46 := by simpa using h2
        rw [← this]; exact List.getElem_mem _
      · next h =>
        rw [hstr, R.bind_ok]
        simp only [htake, setAll]
        congr 2
        rcases hs with rfl | ⟨t, rfl, ht⟩
        · have : 45 ∉ (dec n).map chr := fun h => by have := dec_chr n 45 h; omega
          rw [List.append_nil]
          have hb : ((dec n).map chr).contains 45 = false := by
            rw [← Bool.not_eq_true, List.contains_iff_mem]; exact this
          rw [hb]; rfl
        · simp
    | cons m l =>
      have hd : dotted (n :: m :: l) = (dec n).map chr ++ 46 :: dotted (m :: l) := rfl
      rw [parseLoop]
      have htake : (dotted (n :: m :: l) ++ suf ++ c :: rest).take (dotted (n :: m :: l) ++ suf).length
          = (dec n).map chr ++ 46 :: (dotted (m :: l) ++ suf) := by
        rw [take_len_append, hd]; simp
      have hfind : ((dotted (n :: m :: l) ++ suf ++ c :: rest).take (dotted (n :: m :: l) ++ suf).length).findIdx? (· == 46)
          = some ((dec n).map chr).length := by
        rw [htake]; exact findIdx?_dot _ _ (dot_not_mem_dec n)
      split
      · next pos h =>
        rw [hfind] at h
        cases h
        rw [show dotted (n :: m :: l) ++ suf ++ c :: rest = (dec n).map chr ++ 46 :: (dotted (m :: l) ++ suf ++ c :: rest) by rw [hd]; simp,
          strtol_dec L n 46 _ (by omega), R.bind_ok]
        have hdrop : ((dec n).map chr ++ 46 :: (dotted (m :: l) ++ suf ++ c :: rest)).drop (((dec n).map chr).length + 1)
            = dotted (m :: l) ++ suf ++ c :: rest := by
          rw [← List.drop_drop, List.drop_left]; rfl
        have hlen : (dotted (n :: m :: l) ++ suf).length - (((dec n).map chr).length + 1) = (dotted (m :: l) ++ suf).length := by
          rw [hd]; simp only [List.length_append, List.length_cons]; omega
        rw [hdrop, hlen, ih (i + 1) _ (by simp)]
        rfl
      · next h => rw [hfind] at h; cases h

theorem toUnsigned_small (L n : Nat) (hL : 32 ≤ L) (hn : n < 2147483648) : toUnsigned (min (n : Int) (2 ^ (L - 1) - 1)) = n := by
  have h1 : (2147483648 : Int) ≤ 2 ^ (L - 1) := by
    have h := Nat.pow_le_pow_right (show 0 < 2 by omega) (show 31 ≤ L - 1 by omega)
    have h2 : ((2 ^ (L - 1) : Nat) : Int) = (2 : Int) ^ (L - 1) := Int.natCast_pow 2 (L - 1)
    rw [← h2]
    have h3 : (2 : Nat) ^ 31 = 2147483648 := by decide
    rw [h3] at h
    exact Int.ofNat_le.mpr h
  unfold toUnsigned
  rw [Int.min_eq_left (by omega)]
  omega

theorem parseLoop_some (L : Nat) (mem : List Nat) (len i pos : Nat) (v : Version) (num : Int)
    (h : (mem.take len).findIdx? (· == 46) = some pos) (hn : strtol L mem = .ok num) :
    parseLoop L mem len i v = parseLoop L (mem.drop (pos + 1)) (len - (pos + 1)) (i + 1) (setField v i (toUnsigned num)) := by
  rw [parseLoop]
  split
  · next p hp => rw [h] at hp; cases hp; rw [hn, R.bind_ok]
  · next hp => rw [h] at hp; cases hp

theorem parseLoop_none (L : Nat) (mem : List Nat) (len i : Nat) (v : Version) (num : Int)
    (h : (mem.take len).findIdx? (· == 46) = none) (hn : strtol L mem = .ok num) :
    parseLoop L mem len i v = .ok { setField v i (toUnsigned num) with isNormal := !(mem.take len).contains 45 } := by
  rw [parseLoop]
  split
  · next p hp => rw [h] at hp; cases hp
  · next hp => rw [hn, R.bind_ok]

theorem setAll_ge (L : Nat) (ns : List Nat) : ∀ i v, 3 ≤ i → setAll L ns i v = v := by
  induction ns with
  | nil => intro i v _; rfl
  | cons n l ih =>
    intro i v hi
    have hset : ∀ x, setField v i x = v := by
      intro x
      unfold setField
      rw [if_neg (show ¬ i = 0 by omega)]
      simp only
      rw [if_neg (show ¬ i = 1 by omega), if_neg (show ¬ i = 2 by omega)]
      split <;> rfl
    rw [setAll, hset, ih (i + 1) v (by omega)]

theorem fields (L : Nat) (hL : 32 ≤ L) (ns : List Nat) (hn : ∀ n ∈ ns, n < 2147483648) :
    setAll L ns 0 {} = ⟨fieldOf ns 0, fieldOf ns 1, fieldOf ns 2, true⟩ := by
  have key : ∀ n ∈ ns, toUnsigned (min (n : Int) (2 ^ (L - 1) - 1)) = n := fun n h => toUnsigned_small L n hL (hn n h)
  match ns, key with
  | [], _ => rfl
  | [a], key =>
    rw [setAll, setAll, key a (by simp)]
    simp only [setField, fieldOf]
    by_cases ha : a > 255
    · simp [ha]; try omega
    · simp [ha]; try omega
  | [a, b], key =>
    rw [setAll, setAll, setAll, key a (by simp), key b (by simp)]
    simp only [setField, fieldOf]
    by_cases ha : a > 255 <;> by_cases hb : b > 255 <;> simp [ha, hb] <;> omega
  | a :: b :: c :: l, key =>
    rw [setAll, setAll, setAll, setAll_ge L l _ _ (by omega), key a (by simp), key b (by simp), key c (by simp)]
    simp only [setField, fieldOf]
    by_cases ha : a > 255 <;> by_cases hb : b > 255 <;> by_cases hc : c > 255 <;> simp [ha, hb, hc] <;> omega

/-- **C54** (partial): parsing the text of any numbers below 2^31 separated by dots, then an optional suffix (a dash and anything
without a dot), in memory where a non-digit follows: each of the first three numbers that is at most 255 is in its field,
the other fields are 0, and is_normal iff there is no suffix. Missing: longer numbers (see below). -/
theorem C54_parse_partial (L : Nat) (hL : 32 ≤ L) (ns suf rest : List Nat) (c : Nat) (hns : ns ≠ [])
    (hn : ∀ n ∈ ns, n < 2147483648) (hs : suffix suf) (hc : ¬ (48 ≤ c ∧ c ≤ 57)) :
    parse L (dotted ns ++ suf ++ c :: rest) (dotted ns ++ suf).length =
      .ok ⟨fieldOf ns 0, fieldOf ns 1, fieldOf ns 2, decide (suf = [])⟩ := by
  rw [parse, parse_dotted L suf rest hs c hc ns 0 {} hns, fields L hL ns hn]

/-- "1.20.300-b": the third field is out of range -/
example : ∃ ns suf, dotted ns ++ suf = [49, 46, 50, 48, 46, 51, 48, 48, 45, 98] ∧ (∀ n ∈ ns, n < 2147483648) ∧ suffix suf ∧
    parse 64 ([49, 46, 50, 48, 46, 51, 48, 48, 45, 98] ++ 0 :: []) 10 = .ok ⟨1, 20, 0, false⟩ := by
  have hd : dotted [1, 20, 300] ++ [45, 98] = [49, 46, 50, 48, 46, 51, 48, 48, 45, 98] := by simp [dotted, dec, Digits.Spec.digits, chr]
  refine ⟨[1, 20, 300], [45, 98], hd, by decide, Or.inr ⟨[98], rfl, by decide⟩, ?_⟩
  have := C54_parse_partial 64 (by decide) [1, 20, 300] [45, 98] [] 0 (by decide) (by decide) (Or.inr ⟨[98], rfl, by decide⟩) (by decide)
  rw [hd] at this
  simpa [fieldOf] using this

/-- **C54**, the round trip: "M.m.r" with each number in 0..255. -/
theorem C54_round_trip (L : Nat) (hL : 32 ≤ L) (maj min rev : Nat) (suf rest : List Nat) (h1 : maj ≤ 255) (h2 : min ≤ 255) (h3 : rev ≤ 255)
    (hs : suffix suf) : parse L (dotted [maj, min, rev] ++ suf ++ 0 :: rest) (dotted [maj, min, rev] ++ suf).length =
      .ok ⟨maj, min, rev, decide (suf = [])⟩ := by
  rw [C54_parse_partial L hL _ _ _ 0 (by simp) (by intro n hn; simp at hn; omega) hs (by omega)]
  simp [fieldOf, h1, h2, h3]

example : suffix [45, 114, 99, 49] ∧ suffix [] := ⟨Or.inr ⟨[114, 99, 49], rfl, by decide⟩, Or.inl rfl⟩

/-- **C54, violated**: with a 64-bit `long`, the number 4294967298 (2^32 + 2) is stored as 2 instead of being left out; and the text
"1.2" taken as a view of "1.25" is read as 1.25, beyond the view. -/
theorem C54_parse_violated :
    (∀ rest, parse 64 (dotted [4294967298] ++ [] ++ 0 :: rest) (dotted [4294967298] ++ []).length = .ok ⟨2, 0, 0, true⟩) ∧
    parse 64 [49, 46, 50, 53, 0] 3 = .ok ⟨1, 25, 0, true⟩ := by
  constructor
  · intro rest
    rw [parse, parse_dotted 64 [] rest (Or.inl rfl) 0 (by omega) _ 0 {} (by simp)]
    decide
  · rw [parse, parseLoop_some 64 _ 3 0 1 {} 1 rfl rfl, parseLoop_none 64 _ _ _ _ 25 rfl rfl]
    rfl

theorem parseLoop_normal (L : Nat) : ∀ (n : Nat) (mem : List Nat) (len i : Nat) (v w : Version), len = n → parseLoop L mem len i v = .ok w →
    ∃ pre lst, mem.take len = pre ++ lst ∧ 46 ∉ lst ∧ (pre = [] ∨ pre.getLast? = some 46) ∧ (w.isNormal = true ↔ 45 ∉ lst) := by
  intro n
  induction n using Nat.strongRecOn with
  | ind n ih =>
    intro mem len i v w hn h
    rw [parseLoop] at h
    split at h
    · next pos hp =>
      obtain ⟨h1, h2, h3⟩ := List.findIdx?_eq_some_iff_getElem.mp hp
      have hlen : pos < len := by simp at h1; omega
      have hpm : pos < mem.length := by simp at h1; omega
      cases hst : strtol L mem with
      | ub => rw [hst] at h; cases h
      | ok num =>
        rw [hst, R.bind_ok] at h
        obtain ⟨pre, lst, g1, g2, g3, g4⟩ := ih (len - (pos + 1)) (by omega) _ _ _ _ w rfl h
        refine ⟨mem.take (pos + 1) ++ pre, lst, ?_, g2, Or.inr ?_, g4⟩
        · rw [List.append_assoc, ← g1, ← List.take_add, show pos + 1 + (len - (pos + 1)) = len by omega]
        · have hl : (mem.take (pos + 1)).getLast? = some 46 := by
            rw [List.take_add_one, List.getElem?_eq_getElem hpm]
            have : mem[pos] = 46 := by simpa using h2
            simp [this]
          rcases g3 with rfl | g3
          · rw [List.append_nil]; exact hl
          · rw [List.getLast?_append, g3]; rfl
    · next hp =>
      cases hst : strtol L mem with
      | ub => rw [hst] at h; cases h
      | ok num =>
        rw [hst, R.bind_ok] at h
        cases h
        refine ⟨[], mem.take len, rfl, ?_, Or.inl rfl, ?_⟩
        · intro hm
          have := List.findIdx?_eq_none_iff.mp hp 46 hm
          simp at this
        · simp only [Bool.not_eq_true', ← Bool.not_eq_true]
          rw [List.contains_iff_mem]

/-- **C56** (partial): is_normal is false exactly if there is a dash in the part of the text after its last dot. Missing: a dash
before that (see below). -/
theorem C56_prerelease_partial (L : Nat) (mem : List Nat) (len : Nat) (w : Version) (h : parse L mem len = .ok w) :
    ∃ pre lst, mem.take len = pre ++ lst ∧ 46 ∉ lst ∧ (pre = [] ∨ pre.getLast? = some 46) ∧ (w.isNormal = true ↔ 45 ∉ lst) :=
  parseLoop_normal L len mem len 0 {} w rfl h

example := C56_prerelease_partial 64 ([49, 46, 50, 48, 46, 51, 48, 48, 45, 98] ++ 0 :: []) 10 ⟨1, 20, 0, false⟩ (by
  have hd : dotted [1, 20, 300] ++ [45, 98] = [49, 46, 50, 48, 46, 51, 48, 48, 45, 98] := by simp [dotted, dec, Digits.Spec.digits, chr]
  have := C54_parse_partial 64 (by decide) [1, 20, 300] [45, 98] [] 0 (by decide) (by decide) (Or.inr ⟨[98], rfl, by decide⟩) (by decide)
  rw [hd] at this
  simpa [fieldOf] using this)

/-- **C56, violated**: "1.0-rc.1" counts as a normal version (and its revision is 1). -/
theorem C56_prerelease_violated : parse 64 [49, 46, 48, 45, 114, 99, 46, 49, 0] 8 = .ok ⟨1, 0, 1, true⟩ := by
  rw [parse, parseLoop_some 64 _ 8 0 1 {} 1 rfl rfl, parseLoop_some 64 _ _ _ 4 _ 0 rfl rfl, parseLoop_none 64 _ _ _ _ 1 rfl rfl]
  rfl

end Version
