import Verif.Props.IntToStr
import Verif.Spec.ChopText
/-! # Property C50: the text of int_to_str_chop, for every value -/
namespace IntToStr
open Digits Digits.Spec ChopText.Spec

/-- The loop's characters, with the value allowed to be one power of ten too large. -/
def emitted : Nat → Nat → List (Nat × Nat)
  | 0, _ => []
  | n + 1, v => if v > 10 ^ n then (n, 48 + v / 10 ^ n) :: emitted n (v % 10 ^ n) else emitted n v

theorem emitted_zero (n : Nat) : emitted n 0 = [] := by
  induction n with
  | zero => rfl
  | succ n ih => rw [emitted, if_neg (Nat.not_lt_zero _), ih]

theorem emitted_pow (n : Nat) : emitted n (10 ^ n) = if n = 0 then [] else [(n - 1, 58)] := by
  cases n with
  | zero => rfl
  | succ n =>
    have hpos : 0 < 10 ^ n := Nat.pow_pos (by omega)
    rw [emitted, if_pos (by rw [Nat.pow_succ]; omega), Nat.pow_succ, Nat.mul_div_cancel_left _ hpos, Nat.mul_mod_right, emitted_zero,
      if_neg (by omega)]
    rfl

theorem emitted_eq (n : Nat) : ∀ v, v < 10 ^ n → emitted n v = kept n v := by
  induction n with
  | zero => intro v _; rfl
  | succ n ih =>
    intro v hv
    have hpos : 0 < 10 ^ n := Nat.pow_pos (by omega)
    rw [emitted, kept]
    by_cases he : v = 10 ^ n
    · rw [if_neg (by omega), if_pos he, he, emitted_pow]
    · rw [if_neg he]
      by_cases hg : v > 10 ^ n
      · rw [if_pos hg, if_neg (by rw [Nat.div_eq_zero_iff]; omega), ih _ (Nat.mod_lt _ hpos)]
      · rw [if_neg hg, if_pos (Nat.div_eq_of_lt (by omega)), ih _ (by omega)]

theorem emitted_place (n : Nat) : ∀ v, ∀ x ∈ emitted n v, x.1 < n := by
  induction n with
  | zero => intro v x hx; simp [emitted] at hx
  | succ n ih =>
    intro v x hx
    rw [emitted] at hx
    split at hx
    · rcases List.mem_cons.mp hx with rfl | hx
      · exact Nat.lt_succ_self _
      · exact Nat.lt_succ_of_lt (ih _ x hx)
    · exact Nat.lt_succ_of_lt (ih _ x hx)

theorem filter_all {l : List (Nat × Nat)} {n a : Nat} (h : ∀ x ∈ l, x.1 < n) (ha : n < a) :
    l.filter (fun x => decide (x.1 + 1 < a)) = l := by
  rw [List.filter_eq_self]
  intro x hx
  have := h x hx
  exact decide_eq_true (by omega)

/-- The loop of int_to_str_chop on every value. -/
theorem chopLoop_all (n : Nat) : ∀ (v len : Nat) (buf : List Nat), len < buf.length →
    chopLoop (places 10 n) v len buf =
      .ok (writeSeq buf len (((emitted n v).filter (fun x => decide (x.1 + 1 < buf.length - len))).map Prod.snd ++ [0])) := by
  induction n with
  | zero =>
    intro v len buf hl
    simp only [places, chopLoop, emitted, List.filter_nil, List.map_nil, List.nil_append]
    exact writeSeq_zero hl
  | succ n ih =>
    intro v len buf hl
    simp only [places, chopLoop, digit, log10_pow, emitted]
    by_cases hg : v > 10 ^ n
    · simp only [if_pos hg, sub_div_mul]
      have hp := emitted_place n (v % 10 ^ n)
      by_cases hroom : buf.length - len > n + 1
      · rw [if_pos hroom, if_pos (show 48 + v / 10 ^ n ≠ 0 by simp), arrSet_lt hl, R.bind_ok,
          ih _ _ _ (by rw [List.length_set]; omega), List.length_set, writeSeq_cons hl,
          filter_all hp (show n < buf.length - (len + 1) by omega), List.filter_cons,
          if_pos (by simpa using hroom), filter_all hp (show n < buf.length - len by omega)]
        rfl
      · rw [if_neg hroom]
        simp only [ne_eq, not_true_eq_false, if_false]
        rw [ih _ _ _ hl, List.filter_cons, if_neg (by simpa using hroom)]
    · simp only [if_neg hg, ne_eq, not_true_eq_false, if_false]
      exact ih _ _ _ hl

/-- **C50** (exact behaviour): for every value but 0 and the most negative, and every buffer of at least 2 characters,
int_to_str_chop writes the sign, then of the characters of `kept` those whose place is within the room left, then the terminator,
and nothing else. -/
theorem C50_chop_exact (v : Int) (buf : List Nat) (h1 : -2147483648 < v) (h2 : v < 2147483648) (h0 : v ≠ 0)
    (hb : 2 ≤ buf.length) :
    let sign := if v < 0 then [45] else []
    let room := buf.length - 1 - sign.length
    chop v buf = .ok (written buf (sign ++ ((kept 10 v.natAbs).filter (fun x => decide (x.1 < room))).map Prod.snd ++ [0])) := by
  have hlt : v.natAbs < 10 ^ 10 := by omega
  have hloop : ∀ (len : Nat) (buf : List Nat), len < buf.length → chopLoop places10 v.natAbs len buf =
      .ok (writeSeq buf len (((kept 10 v.natAbs).filter (fun x => decide (x.1 < buf.length - 1 - len))).map Prod.snd ++ [0])) := by
    intro len buf hl
    rw [places10_eq, chopLoop_all 10 _ _ _ hl, emitted_eq 10 _ hlt]
    congr 5
    funext x
    congr 1
    apply propext
    omega
  intro sign room
  unfold chop
  rw [if_neg (show ¬ buf.length ≤ 1 by omega), if_neg h0]
  subst room
  subst sign
  by_cases hneg : v < 0
  · have hv : (-v).toNat = v.natAbs := by omega
    simp only [hneg, if_true, List.length_singleton]
    rw [arrSet_lt (by omega), R.bind_ok, neg32_ok h1, R.bind_ok, hv, hloop 1 _ (by rw [List.length_set]; omega)]
    rw [show writeSeq (buf.set 0 45) 1 = writeSeq (buf.set 0 45) (0 + 1) from rfl, writeSeq_cons (by omega), List.length_set]
    congr 1
    simp only [writeSeq, written, List.take_zero, List.nil_append, Nat.zero_add]
    rfl
  · have hv : v.toNat = v.natAbs := by omega
    simp only [hneg, if_false, List.length_nil]
    rw [hv, hloop 0 _ (by omega)]
    congr 1
    simp only [writeSeq, written, List.take_zero, List.nil_append, Nat.zero_add, Nat.sub_zero]

/-- 3100 in a buffer of 6 comes out as "3:" (the hundreds and tens run together); -3100 in a buffer of 4 as "-:"; 7001 as "7". -/
example : (∀ l : List Nat, l.length = 6 → ∃ t, chop 3100 l = .ok (51 :: 58 :: 0 :: t)) ∧
    (∀ l : List Nat, l.length = 4 → ∃ t, chop (-3100) l = .ok (45 :: 58 :: 0 :: t)) ∧
    (∀ l : List Nat, l.length = 6 → ∃ t, chop 7001 l = .ok (55 :: 0 :: t)) := by
  refine ⟨fun l hl => ?_, fun l hl => ?_, fun l hl => ?_⟩
  · rw [C50_chop_exact _ _ (by decide) (by decide) (by decide) (by omega)]
    exact ⟨_, by simp [hl, kept, written]; rfl⟩
  · rw [C50_chop_exact _ _ (by decide) (by decide) (by decide) (by omega)]
    exact ⟨_, by simp [hl, kept, written]; rfl⟩
  · rw [C50_chop_exact _ _ (by decide) (by decide) (by decide) (by omega)]
    exact ⟨_, by simp [hl, kept, written]; rfl⟩

theorem kept_place (n v : Nat) (h : v < 10 ^ n) : ∀ x ∈ kept n v, x.1 < n := by
  rw [← emitted_eq n v h]; exact emitted_place n v

/-- **C50, violated** for every power of ten: 10 ^ k is written as the single character ':' when it fits, 1 as the empty text. -/
theorem C50_power_violated (k : Nat) (buf : List Nat) (hk : k ≤ 9) (hb : k + 1 < buf.length) :
    chop (10 ^ k : Nat) buf = .ok (written buf ((if k = 0 then [] else [58]) ++ [0])) := by
  have hp : 10 ^ k ≤ 10 ^ 9 := Nat.pow_le_pow_right (by omega) hk
  have hpos : 0 < 10 ^ k := Nat.pow_pos (by omega)
  have hkept : ∀ n, k < n → kept n (10 ^ k) = if k = 0 then [] else [(k - 1, 58)] := by
    intro n hn
    induction n with
    | zero => omega
    | succ n ih =>
      by_cases he : k = n
      · rw [kept, he, if_pos rfl]
      · have : 10 ^ k < 10 ^ n := Nat.pow_lt_pow_right (by omega) (by omega)
        rw [kept, if_neg (by omega), if_pos (Nat.div_eq_of_lt this), ih (by omega)]
  have := C50_chop_exact ((10 ^ k : Nat) : Int) buf (by omega) (by omega) (by omega) (by omega)
  rw [this, Int.natAbs_natCast, hkept 10 (by omega)]
  rw [if_neg (show ¬ (((10 ^ k : Nat) : Int) < 0) by omega)]
  by_cases h : k = 0
  · simp [h]
  · rw [if_neg h, List.filter_cons, if_pos (by simp; omega)]
    simp [h]

example := C50_power_violated 3 (List.replicate 8 170) (by decide) (by decide)

end IntToStr
