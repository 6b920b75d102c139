import Verif.Lemmas.Tables
import Verif.Flt
/-! # Properties C117, C118 and C132: table based functions, random numbers -/

namespace MathFns
open Interp Interp.Spec InterpArray MathTables Tables

/-! ## Lemmas -/

theorem sin_len : sinTable.length = 2048 := by unfold sinTable; rw [tab_length]; decide +kernel
theorem tan_len : tanTable.length = 2048 := by unfold tanTable; rw [tab_length]; decide +kernel
theorem exp5_len : exp5Table.length = 2048 := by unfold exp5Table; rw [tab_length]; decide +kernel
theorem exp10_len : exp10Table.length = 2048 := by unfold exp10Table; rw [tab_length]; decide +kernel
theorem pow9_len : pow9Table.length = 2048 := by unfold pow9Table; rw [tab_length]; decide +kernel
theorem log_len : logTable.length = 2048 := by unfold logTable; rw [tab_length]; decide +kernel

attribute [local irreducible] sinTable tanTable exp5Table exp10Table pow9Table logTable

theorem exp5_strict : ∀ i j, i < j → j < exp5Table.length → at' exp5Table i < at' exp5Table j := by
  intro i j h1 h2
  unfold exp5Table at *
  rw [tab_length] at h2
  exact tab_strict exp5Data (by decide +kernel) i j h1 h2

theorem exp10_strict : ∀ i j, i < j → j < exp10Table.length → at' exp10Table i < at' exp10Table j := by
  intro i j h1 h2
  unfold exp10Table at *
  rw [tab_length] at h2
  exact tab_strict exp10Data (by decide +kernel) i j h1 h2

theorem log_strict : ∀ i j, i < j → j < logTable.length → at' logTable i < at' logTable j := by
  intro i j h1 h2
  unfold logTable at *
  rw [tab_length] at h2
  exact tab_strict logData (by decide +kernel) i j h1 h2

theorem pow9_mono : ∀ i j, i ≤ j → j < pow9Table.length → at' pow9Table i ≤ at' pow9Table j := by
  intro i j h1 h2
  unfold pow9Table at *
  rw [tab_length] at h2
  exact tab_mono pow9Data (by decide +kernel) i j h1 h2

theorem exp5_ends : at' exp5Table 0 = 1 ∧ at' exp5Table 2047 = 32 := by
  unfold exp5Table
  rw [tab_at, tab_at, show exp5Data.getD 0 0 = 1000000 by decide +kernel, show exp5Data.getD 2047 0 = 32000000 by decide +kernel]
  norm_num

theorem exp10_ends : at' exp10Table 0 = 1 ∧ at' exp10Table 2047 = 1024 := by
  unfold exp10Table
  rw [tab_at, tab_at, show exp10Data.getD 0 0 = 1000000 by decide +kernel, show exp10Data.getD 2047 0 = 1024000000 by decide +kernel]
  norm_num

theorem log_ends : at' logTable 0 = 2995732 / 1000000 ∧ at' logTable 2047 = 9903487 / 1000000 := by
  unfold logTable
  rw [tab_at, tab_at, show logData.getD 0 0 = 2995732 by decide +kernel, show logData.getD 2047 0 = 9903487 by decide +kernel]
  norm_num

theorem pow9_ends : at' pow9Table 0 = 0 ∧ at' pow9Table 2047 = 1 := by
  unfold pow9Table
  rw [tab_at, tab_at, show pow9Data.getD 0 0 = 0 by decide +kernel, show pow9Data.getD 2047 0 = 1000000 by decide +kernel]
  norm_num

theorem sin_ne : sinTable ≠ [] := by intro h; have := sin_len; rw [h] at this; simp at this
theorem tan_ne : tanTable ≠ [] := by intro h; have := tan_len; rw [h] at this; simp at this
theorem exp5_ne : exp5Table ≠ [] := by intro h; have := exp5_len; rw [h] at this; simp at this

theorem sin_bound (i : Nat) : -1 ≤ at' sinTable i ∧ at' sinTable i ≤ 1 := by
  unfold sinTable
  rw [tab_at]
  by_cases hi : i < sinData.length
  · have := all_get (fun n => decide (-1000000 ≤ n) && decide (n ≤ 1000000)) sinData (by decide +kernel) i hi
    rw [Bool.and_eq_true, decide_eq_true_eq, decide_eq_true_eq] at this
    have h1 : (-1000000 : ℚ) ≤ (sinData.getD i 0 : ℚ) := by exact_mod_cast this.1
    have h2 : (sinData.getD i 0 : ℚ) ≤ 1000000 := by exact_mod_cast this.2
    constructor
    · rw [le_div_iff₀ (by norm_num)]; linarith
    · rw [div_le_iff₀ (by norm_num)]; linarith
  · rw [List.getD_eq_getElem?_getD, List.getElem?_eq_none (by omega)]
    norm_num

/-- Interpolation at a fraction of [0,1] in `exp5Table`. -/
theorem exp5_val (p : ℚ) (h0 : 0 ≤ p) (h1 : p ≤ 1) : ∃ v, interp exp5Table p = .ok v ∧ 1 ≤ v ∧ v ≤ 32 ∧ (p < 1 → v < 32) := by
  have hl := exp5_len
  have he := exp5_ends
  rcases eq_or_lt_of_le h1 with h | h
  · refine ⟨32, ?_, by norm_num, le_rfl, fun h' => absurd h (ne_of_lt h')⟩
    have := (C101_interp exp5Table (by rw [hl]; norm_num) exp5_ne p h0 h1).2.2.2
    rw [h, this, hl, he.2]
  · obtain ⟨a, b, ha, hb, hab, h0a, hb1⟩ := interp_strict exp5Table (by rw [hl]; norm_num) (by rw [hl]; norm_num) exp5_strict p 1 h0 h le_rfl
    rw [he.1] at h0a
    rw [hl, he.2] at hb1
    exact ⟨a, ha, h0a, by linarith, fun _ => by linarith⟩

theorem exp5_lt (p q : ℚ) (h0 : 0 ≤ p) (hpq : p < q) (h1 : q ≤ 1) (a b : ℚ) (ha : interp exp5Table p = .ok a) (hb : interp exp5Table q = .ok b) : a < b := by
  have hl := exp5_len
  obtain ⟨a', b', ha', hb', hab, _⟩ := interp_strict exp5Table (by rw [hl]; norm_num) (by rw [hl]; norm_num) exp5_strict p q h0 hpq h1
  rw [ha] at ha'; rw [hb] at hb'
  cases ha'; cases hb'
  exact hab

theorem exp5_interp_ends : interp exp5Table 0 = .ok 1 ∧ interp exp5Table 1 = .ok 32 := by
  have hl := exp5_len
  have he := exp5_ends
  have h := C101_interp exp5Table (by rw [hl]; norm_num) exp5_ne 0 le_rfl (by norm_num)
  rw [h.2.2.1, h.2.2.2, hl, he.1, he.2]
  exact ⟨rfl, rfl⟩

/-! ## The tables -/

/-- **C117**: every table has 2048 entries. -/
theorem C117_sizes : sinTable.length = 2048 ∧ tanTable.length = 2048 ∧ exp5Table.length = 2048 ∧ exp10Table.length = 2048 ∧ pow9Table.length = 2048 ∧ logTable.length = 2048 :=
  ⟨sin_len, tan_len, exp5_len, exp10_len, pow9_len, log_len⟩

/-- **C117**: the sine table lies in [-1,1], half a period later the value is opposite up to one millionth, the second quarter mirrors the first up to one millionth, and the quarter points are exact. -/
theorem C117_sin_table : (∀ i, -1 ≤ at' sinTable i ∧ at' sinTable i ≤ 1) ∧
    (∀ i, i < 1024 → |at' sinTable (i + 1024) + at' sinTable i| ≤ 1 / 1000000) ∧
    (∀ i, 1 ≤ i → i < 1024 → |at' sinTable (1024 - i) - at' sinTable i| ≤ 1 / 1000000) ∧
    (∀ i j, i < j → j ≤ 512 → at' sinTable i < at' sinTable j) ∧
    at' sinTable 0 = 0 ∧ at' sinTable 512 = 1 ∧ at' sinTable 1024 = 0 ∧ at' sinTable 1536 = -1 := by
  refine ⟨sin_bound, ?_, ?_, ?_, ?_⟩
  · intro i hi
    have h : ((List.zipWith (fun a b : Int => a + b) (sinData.drop 1024) sinData).all (fun s => decide (-1 ≤ s) && decide (s ≤ 1))) = true := by decide +kernel
    have hl : (List.zipWith (fun a b : Int => a + b) (sinData.drop 1024) sinData).length = 1024 := by decide +kernel
    have := all_get _ _ h i (by omega)
    have hs := sin_len
    unfold sinTable at hs
    rw [tab_length] at hs
    have e : (List.zipWith (fun a b : Int => a + b) (sinData.drop 1024) sinData).getD i 0 = sinData.getD (i + 1024) 0 + sinData.getD i 0 := by
      rw [List.getD_eq_getElem?_getD, List.getD_eq_getElem?_getD, List.getD_eq_getElem?_getD, List.getElem?_zipWith, List.getElem?_drop, Nat.add_comm 1024 i,
        List.getElem?_eq_getElem (show i + 1024 < sinData.length by omega), List.getElem?_eq_getElem (show i < sinData.length by omega)]
      rfl
    rw [e, Bool.and_eq_true, decide_eq_true_eq, decide_eq_true_eq] at this
    unfold sinTable
    rw [tab_at, tab_at, ← add_div, abs_div, abs_of_pos (by norm_num : (0 : ℚ) < 1000000)]
    apply div_le_div_of_nonneg_right _ (by norm_num)
    rw [abs_le]
    constructor
    · have := this.1; exact_mod_cast this
    · have := this.2; exact_mod_cast this
  · intro i h1 hi
    have h : ((List.zipWith (fun a b : Int => a - b) ((sinData.take 1025).reverse) sinData).all (fun s => decide (-1 ≤ s) && decide (s ≤ 1))) = true := by decide +kernel
    have hl : (List.zipWith (fun a b : Int => a - b) ((sinData.take 1025).reverse) sinData).length = 1025 := by decide +kernel
    have := all_get _ _ h i (by omega)
    have hs := sin_len
    unfold sinTable at hs
    rw [tab_length] at hs
    have hlt : (sinData.take 1025).length = 1025 := by rw [List.length_take, hs]; rfl
    have e : (List.zipWith (fun a b : Int => a - b) ((sinData.take 1025).reverse) sinData).getD i 0 = sinData.getD (1024 - i) 0 - sinData.getD i 0 := by
      rw [List.getD_eq_getElem?_getD, List.getD_eq_getElem?_getD, List.getD_eq_getElem?_getD, List.getElem?_zipWith, List.getElem?_reverse (by omega), hlt,
        List.getElem?_take, if_pos (by omega), show 1025 - 1 - i = 1024 - i by omega,
        List.getElem?_eq_getElem (show 1024 - i < sinData.length by omega), List.getElem?_eq_getElem (show i < sinData.length by omega)]
      rfl
    rw [e, Bool.and_eq_true, decide_eq_true_eq, decide_eq_true_eq] at this
    unfold sinTable
    rw [tab_at, tab_at, ← sub_div, abs_div, abs_of_pos (by norm_num : (0 : ℚ) < 1000000)]
    apply div_le_div_of_nonneg_right _ (by norm_num)
    rw [abs_le]
    constructor
    · have := this.1; exact_mod_cast this
    · have := this.2; exact_mod_cast this
  · intro i j hij hj
    have h := tab_strict (sinData.take 513) (by decide +kernel) i j hij (by
      rw [show (sinData.take 513).length = 513 by decide +kernel]; omega)
    unfold sinTable
    rw [tab_at, tab_at] at h ⊢
    have e : ∀ k, k ≤ 512 → (sinData.take 513).getD k 0 = sinData.getD k 0 := by
      intro k hk
      rw [List.getD_eq_getElem?_getD, List.getD_eq_getElem?_getD, List.getElem?_take, if_pos (by omega)]
    rwa [e i (by omega), e j hj] at h
  · unfold sinTable
    rw [tab_at, tab_at, tab_at, tab_at, show sinData.getD 0 0 = 0 by decide +kernel, show sinData.getD 512 0 = 1000000 by decide +kernel, show sinData.getD 1024 0 = 0 by decide +kernel,
      show sinData.getD 1536 0 = -1000000 by decide +kernel]
    norm_num

example := C117_sin_table.2.1 17 (by norm_num)

/-- **C117**: the exponential and logarithm tables increase strictly between their documented end points, the ninth-power table never decreases. -/
theorem C117_increasing :
    (∀ i j, i < j → j < 2048 → at' exp5Table i < at' exp5Table j ∧ at' exp10Table i < at' exp10Table j ∧ at' logTable i < at' logTable j ∧ at' pow9Table i ≤ at' pow9Table j) ∧
    (at' exp5Table 0 = 1 ∧ at' exp5Table 2047 = 32) ∧ (at' exp10Table 0 = 1 ∧ at' exp10Table 2047 = 1024) ∧ (at' logTable 0 = 2995732 / 1000000 ∧ at' logTable 2047 = 9903487 / 1000000) ∧
    (at' pow9Table 0 = 0 ∧ at' pow9Table 2047 = 1) := by
  refine ⟨fun i j h1 h2 => ⟨?_, ?_, ?_, ?_⟩, exp5_ends, exp10_ends, log_ends, pow9_ends⟩
  · exact exp5_strict i j h1 (by rw [exp5_len]; exact h2)
  · exact exp10_strict i j h1 (by rw [exp10_len]; exact h2)
  · exact log_strict i j h1 (by rw [log_len]; exact h2)
  · exact pow9_mono i j h1.le (by rw [pow9_len]; exact h2)

example := C117_increasing.1 17 1000 (by norm_num) (by norm_num)

/-- **C117**: the tangent table increases strictly on each of its two branches; it is 0, 1 and -1 where it should be. -/
theorem C117_tan_table : (∀ i j, i < j → j < 1024 → at' tanTable i < at' tanTable j) ∧ (∀ i j, 1024 ≤ i → i < j → j < 2048 → at' tanTable i < at' tanTable j) ∧
    at' tanTable 0 = 0 ∧ at' tanTable 512 = 1 ∧ at' tanTable 1536 = -1 := by
  refine ⟨?_, ?_, ?_⟩
  · intro i j hij hj
    have h := tab_strict (tanData.take 1024) (by decide +kernel) i j hij (by
      rw [show (tanData.take 1024).length = 1024 by decide +kernel]; omega)
    unfold tanTable
    rw [tab_at, tab_at] at h ⊢
    have e : ∀ k, k < 1024 → (tanData.take 1024).getD k 0 = tanData.getD k 0 := by
      intro k hk
      rw [List.getD_eq_getElem?_getD, List.getD_eq_getElem?_getD, List.getElem?_take, if_pos (by omega)]
    rwa [e i (by omega), e j hj] at h
  · intro i j hi hij hj
    have h := tab_strict (tanData.drop 1024) (by decide +kernel) (i - 1024) (j - 1024) (by omega) (by
      rw [show (tanData.drop 1024).length = 1024 by decide +kernel]; omega)
    unfold tanTable
    rw [tab_at, tab_at] at h ⊢
    have e : ∀ k, 1024 ≤ k → (tanData.drop 1024).getD (k - 1024) 0 = tanData.getD k 0 := by
      intro k hk
      rw [List.getD_eq_getElem?_getD, List.getD_eq_getElem?_getD, List.getElem?_drop, show 1024 + (k - 1024) = k by omega]
    rwa [e i hi, e j (by omega)] at h
  · unfold tanTable
    rw [tab_at, tab_at, tab_at, show tanData.getD 0 0 = 0 by decide +kernel, show tanData.getD 512 0 = 1000000 by decide +kernel, show tanData.getD 1536 0 = -1000000 by decide +kernel]
    norm_num

example := C117_tan_table.1 17 1000 (by norm_num) (by norm_num)

/-- **C117**: reading these tables by `interp` is strictly increasing on [0,1] (non-decreasing for the ninth power) and stays between the end points. -/
theorem C117_interp (p q : ℚ) (h0 : 0 ≤ p) (hpq : p < q) (h1 : q ≤ 1) :
    (∃ a b, interp exp5Table p = .ok a ∧ interp exp5Table q = .ok b ∧ 1 ≤ a ∧ a < b ∧ b ≤ 32) ∧
    (∃ a b, interp exp10Table p = .ok a ∧ interp exp10Table q = .ok b ∧ 1 ≤ a ∧ a < b ∧ b ≤ 1024) ∧
    (∃ a b, interp logTable p = .ok a ∧ interp logTable q = .ok b ∧ 2995732 / 1000000 ≤ a ∧ a < b ∧ b ≤ 9903487 / 1000000) ∧
    (∃ a b, interp pow9Table p = .ok a ∧ interp pow9Table q = .ok b ∧ 0 ≤ a ∧ a ≤ b ∧ b ≤ 1) := by
  refine ⟨?_, ?_, ?_, ?_⟩
  · have hl := exp5_len
    have he := exp5_ends
    obtain ⟨a, b, h⟩ := interp_strict exp5Table (by rw [hl]; norm_num) (by rw [hl]; norm_num) exp5_strict p q h0 hpq h1
    rw [hl, he.1, he.2] at h
    exact ⟨a, b, h.1, h.2.1, h.2.2.2.1, h.2.2.1, h.2.2.2.2⟩
  · have hl := exp10_len
    have he := exp10_ends
    obtain ⟨a, b, h⟩ := interp_strict exp10Table (by rw [hl]; norm_num) (by rw [hl]; norm_num) exp10_strict p q h0 hpq h1
    rw [hl, he.1, he.2] at h
    exact ⟨a, b, h.1, h.2.1, h.2.2.2.1, h.2.2.1, h.2.2.2.2⟩
  · have hl := log_len
    have he := log_ends
    obtain ⟨a, b, h⟩ := interp_strict logTable (by rw [hl]; norm_num) (by rw [hl]; norm_num) log_strict p q h0 hpq h1
    rw [hl, he.1, he.2] at h
    exact ⟨a, b, h.1, h.2.1, h.2.2.2.1, h.2.2.1, h.2.2.2.2⟩
  · have hl := pow9_len
    have he := pow9_ends
    obtain ⟨a, b, h⟩ := interp_mono pow9Table (by rw [hl]; norm_num) (by rw [hl]; norm_num) pow9_mono p q h0 hpq.le h1
    rw [hl, he.1, he.2] at h
    exact ⟨a, b, h.1, h.2.1, h.2.2.2.1, h.2.2.1, h.2.2.2.2⟩

/-! ## Pitch, frequency, powers of two -/

/-- **C117**: setPitchMultiple is defined everywhere, between 1/32 and 32; opposite arguments give reciprocal results; 0 gives 1, everything from 1 upwards 32 and everything from -1 downwards 1/32. -/
theorem C117_pitch (v : ℚ) : ∃ a b, setPitchMultiple v = .ok a ∧ setPitchMultiple (-v) = .ok b ∧ a * b = 1 ∧ 1 / 32 ≤ a ∧ a ≤ 32 ∧ (v = 0 → a = 1) ∧ (1 ≤ v → a = 32) ∧ (v ≤ -1 → a = 1 / 32) ∧ (0 ≤ v → 1 ≤ a) := by
  have hE := exp5_interp_ends
  -- non-negative arguments
  have pos : ∀ w : ℚ, 0 ≤ w → ∃ a, setPitchMultiple w = .ok a ∧ 1 ≤ a ∧ a ≤ 32 ∧ setPitchMultiple (-w) = .ok (1 / a) ∧ (w = 0 → a = 1) ∧ (1 ≤ w → a = 32) := by
    intro w hw
    have hc : 0 ≤ constrain w 0 1 ∧ constrain w 0 1 ≤ 1 := by unfold constrain; split <;> [norm_num; (split <;> constructor <;> linarith)]
    obtain ⟨a, ha, h1, h2, _⟩ := exp5_val _ hc.1 hc.2
    have ha' : setPitchMultiple w = .ok a := by unfold setPitchMultiple; rw [if_pos hw, ha]
    have hz : w = 0 → a = 1 := by
      rintro rfl
      have : constrain 0 0 1 = (0 : ℚ) := by unfold constrain; norm_num
      rw [this, hE.1] at ha
      cases ha; rfl
    have ho : 1 ≤ w → a = 32 := by
      intro h
      have : constrain w 0 1 = (1 : ℚ) := by unfold constrain; rw [if_neg (by linarith)]; split <;> linarith
      rw [this, hE.2] at ha
      cases ha; rfl
    refine ⟨a, ha', h1, h2, ?_, hz, ho⟩
    rcases eq_or_lt_of_le hw with h | h
    · subst h
      rw [hz rfl] at ha' ⊢
      rw [neg_zero, ha']; norm_num
    · unfold setPitchMultiple
      rw [if_neg (by intro h'; linarith), show -w * -1 = w by ring]
      simp only []
      rw [ha, R.bind_ok, if_neg (by intro h'; linarith)]
  rcases le_total 0 v with h | h
  · obtain ⟨a, h1, h2, h3, h4, h5, h6⟩ := pos v h
    refine ⟨a, 1 / a, h1, h4, by rw [mul_one_div, div_self (by linarith)], by linarith, h3, h5, h6, fun h' => by linarith, fun _ => h2⟩
  · obtain ⟨a, h1, h2, h3, h4, h5, h6⟩ := pos (-v) (by linarith)
    rw [neg_neg] at h4
    refine ⟨1 / a, a, h4, h1, by rw [one_div, inv_mul_cancel₀ (by linarith)], ?_, ?_, ?_, fun h' => by linarith, ?_, ?_⟩
    · exact one_div_le_one_div_of_le (by linarith) h3
    · rw [div_le_iff₀ (by linarith)]; linarith
    · intro h'; rw [h5 (by linarith)]; norm_num
    · intro h'; rw [h6 (by linarith)]
    · intro h'; rw [h5 (by linarith)]; norm_num

/-- **C117**: setPitchMultiple is strictly increasing on [-1,1]. -/
theorem C117_pitch_increasing (v w : ℚ) (h0 : -1 ≤ v) (hvw : v < w) (h1 : w ≤ 1) : ∃ a b, setPitchMultiple v = .ok a ∧ setPitchMultiple w = .ok b ∧ a < b := by
  have pos : ∀ v w : ℚ, 0 ≤ v → v < w → w ≤ 1 → ∃ a b, setPitchMultiple v = .ok a ∧ setPitchMultiple w = .ok b ∧ a < b := by
    intro v w h0 hvw h1
    have hcv : constrain v 0 1 = v := by unfold constrain; rw [if_neg (by linarith), if_neg (by linarith)]
    have hcw : constrain w 0 1 = w := by unfold constrain; rw [if_neg (by linarith), if_neg (by linarith)]
    obtain ⟨a, ha, _⟩ := exp5_val v h0 (by linarith)
    obtain ⟨b, hb, _⟩ := exp5_val w (by linarith) h1
    refine ⟨a, b, ?_, ?_, exp5_lt v w h0 hvw h1 a b ha hb⟩
    · unfold setPitchMultiple; rw [if_pos h0, hcv, ha]
    · unfold setPitchMultiple; rw [if_pos (show w ≥ 0 by linarith), hcw, hb]
  rcases le_total 0 v with h | h
  · exact pos v w h hvw h1
  · rcases le_total w 0 with h' | h'
    · obtain ⟨a, b, ha, hb, hab⟩ := pos (-w) (-v) (by linarith) (by linarith) (by linarith)
      obtain ⟨a1, b1, e1, e2, e3, e4, e5, -, -, -, -⟩ := C117_pitch (-w)
      obtain ⟨a2, b2, f1, f2, f3, f4, f5, -, -, -, -⟩ := C117_pitch (-v)
      rw [neg_neg] at e2 f2
      rw [ha] at e1; rw [hb] at f1
      cases e1; cases f1
      refine ⟨b2, b1, f2, e2, ?_⟩
      have g1 : b1 = 1 / a := by rw [eq_div_iff (by linarith), mul_comm]; exact e3
      have g2 : b2 = 1 / b := by rw [eq_div_iff (by linarith), mul_comm]; exact f3
      rw [g1, g2]
      exact one_div_lt_one_div_of_lt (by linarith) hab
    · -- v ≤ 0 ≤ w, one strict
      obtain ⟨a1, b1, e1, e2, e3, e4, e5, e6, -, -, -⟩ := C117_pitch v
      obtain ⟨a2, b2, f1, f2, f3, f4, f5, f6, -, -, f7⟩ := C117_pitch w
      refine ⟨a1, a2, e1, f1, ?_⟩
      obtain ⟨z, z', g1, -⟩ := C117_pitch 0
      have hz : setPitchMultiple 0 = .ok 1 := by
        obtain ⟨z, z', g1, -, -, -, -, g6, -⟩ := C117_pitch 0
        rw [g1, g6 rfl]
      rcases eq_or_lt_of_le h with hv0 | hv0
      · obtain ⟨a, b, ha, hb, hab⟩ := pos v w (by linarith) hvw h1
        rw [e1] at ha; rw [f1] at hb; cases ha; cases hb; exact hab
      · obtain ⟨a, b, ha, hb, hab⟩ := pos 0 (-v) le_rfl (by linarith) (by linarith)
        rw [hz] at ha; cases ha
        rw [e2] at hb; cases hb
        have : a1 < 1 := by nlinarith
        linarith [f7 h']

example : setPitchMultiple 3 = .ok 32 ∧ setPitchMultiple (-1) = .ok (1 / 32) := by
  obtain ⟨a, b, h1, -, -, -, -, -, h7, -⟩ := C117_pitch 3
  obtain ⟨c, d, g1, -, -, -, -, -, -, g8, -⟩ := C117_pitch (-1)
  rw [h1, h7 (by norm_num), g1, g8 le_rfl]
  exact ⟨rfl, rfl⟩

/-- **C117**: audioFreqToNorm is defined everywhere, non-decreasing (strictly between 20 and 20000), stays in [0,1], and is within a millionth of 0 and 1 at the ends. -/
theorem C117_freq (x y : ℚ) (hxy : x < y) : ∃ a b, audioFreqToNorm x = .ok a ∧ audioFreqToNorm y = .ok b ∧ 0 ≤ a ∧ a ≤ b ∧ b ≤ 1 ∧ (20 ≤ x → y ≤ 20000 → a < b) ∧ (x ≤ 20 → a ≤ 1 / 1000000) ∧ (20000 ≤ y → 1 - 1 / 1000000 ≤ b) := by
  have hl := log_len
  have hne : logTable ≠ [] := by intro h; rw [h] at hl; simp at hl
  have hEnds := C101_interp logTable (by rw [hl]; norm_num) hne 0 le_rfl (by norm_num)
  have hle := log_ends
  have hm : ∀ z : ℚ, RatMath.mapValue z 20 20000 0 1 = (z - 20) / 19980 := by intro z; unfold RatMath.mapValue; norm_num
  have hc : ∀ z : ℚ, 20 ≤ constrain z 20 20000 ∧ constrain z 20 20000 ≤ 20000 := by
    intro z; unfold constrain; split <;> [norm_num; (split <;> constructor <;> linarith)]
  have hcm : constrain x 20 20000 ≤ constrain y 20 20000 := by unfold constrain; split <;> split <;> (try split) <;> (try split) <;> linarith
  have main : ∀ u w : ℚ, 20 ≤ u → u < w → w ≤ 20000 → ∃ a b, interp logTable (RatMath.mapValue u 20 20000 0 1) = .ok a ∧ interp logTable (RatMath.mapValue w 20 20000 0 1) = .ok b ∧
      2995732 / 1000000 ≤ a ∧ a < b ∧ b ≤ 9903487 / 1000000 := by
    intro u w hu huw hw
    rw [hm, hm]
    exact (C117_interp _ _ (div_nonneg (by linarith) (by norm_num)) (div_lt_div_of_pos_right (by linarith) (by norm_num)) (by rw [div_le_iff₀ (by norm_num)]; linarith)).2.2.1
  -- values at the ends
  have e20 : interp logTable (RatMath.mapValue 20 20 20000 0 1) = .ok (2995732 / 1000000) := by
    rw [hm, show ((20 : ℚ) - 20) / 19980 = 0 by norm_num, hEnds.2.2.1, hle.1]
  have e20k : interp logTable (RatMath.mapValue 20000 20 20000 0 1) = .ok (9903487 / 1000000) := by
    rw [hm, show ((20000 : ℚ) - 20) / 19980 = 1 by norm_num, hEnds.2.2.2, hl, hle.2]
  -- any clamped value
  have val : ∀ u : ℚ, 20 ≤ u → u ≤ 20000 → ∃ a, interp logTable (RatMath.mapValue u 20 20000 0 1) = .ok a ∧ 2995732 / 1000000 ≤ a ∧ a ≤ 9903487 / 1000000 := by
    intro u h1 h2
    rcases eq_or_lt_of_le h2 with h | h
    · subst h; exact ⟨_, e20k, by norm_num, le_rfl⟩
    · obtain ⟨a, b, h1', h2', h3, h4, h5⟩ := main u 20000 h1 h le_rfl
      exact ⟨a, h1', h3, by linarith⟩
  obtain ⟨a, ha, ha1, ha2⟩ := val _ (hc x).1 (hc x).2
  obtain ⟨b, hb, hb1, hb2⟩ := val _ (hc y).1 (hc y).2
  have hab : a ≤ b ∧ (20 ≤ x → y ≤ 20000 → a < b) := by
    rcases eq_or_lt_of_le hcm with h | h
    · rw [h, hb] at ha
      cases ha
      refine ⟨le_rfl, fun h1 h2 => ?_⟩
      exfalso
      unfold constrain at h
      rw [if_neg (by linarith), if_neg (by linarith), if_neg (by linarith), if_neg (by linarith)] at h
      linarith
    · obtain ⟨a', b', e1, e2, -, e4, -⟩ := main _ _ (hc x).1 h (hc y).2
      rw [ha] at e1; rw [hb] at e2; cases e1; cases e2
      exact ⟨e4.le, fun _ _ => e4⟩
  refine ⟨(a - 299573 / 100000) / (690776 / 100000), (b - 299573 / 100000) / (690776 / 100000), ?_, ?_, ?_, ?_, ?_, ?_, ?_, ?_⟩
  · unfold audioFreqToNorm; simp only []; rw [ha, R.bind_ok]
  · unfold audioFreqToNorm; simp only []; rw [hb, R.bind_ok]
  · apply div_nonneg _ (by norm_num); linarith
  · apply div_le_div_of_nonneg_right _ (by norm_num); linarith [hab.1]
  · rw [div_le_iff₀ (by norm_num)]; linarith
  · intro h1 h2
    apply div_lt_div_of_pos_right _ (by norm_num); linarith [hab.2 h1 h2]
  · intro h
    have : constrain x 20 20000 = 20 := by unfold constrain; split <;> [rfl; (split <;> linarith)]
    rw [this, e20] at ha; cases ha
    norm_num
  · intro h
    have : constrain y 20 20000 = 20000 := by unfold constrain; rw [if_neg (by linarith)]; split <;> linarith
    rw [this, e20k] at hb; cases hb
    norm_num

example := C117_freq 100 440 (by norm_num)

/-- The loop of `pow2`: each whole unit multiplies by 32. -/
theorem pow2Loop_eq (n : Nat) (f res : ℚ) (h1 : f < 1) (h0 : 0 ≤ f) (e : ℚ) (he : interp exp5Table f = .ok e) : pow2Loop (f + n) res = .ok (res * 32 ^ n * e) := by
  induction n generalizing res with
  | zero =>
    rw [pow2Loop, if_pos (by push_cast; linarith)]
    rw [Nat.cast_zero, add_zero, he]
    simp
  | succ n ih =>
    rw [pow2Loop, if_neg (by push_cast; have : (0 : ℚ) ≤ n := Nat.cast_nonneg _
                             intro h; linarith)]
    rw [show f + ((n + 1 : Nat) : ℚ) - 1 = f + n by push_cast; ring, ih]
    congr 1; ring

/-- **C117**: pow2 for non-negative arguments: always ends with a value of at least 1, is strictly increasing, five more multiplies by 32, and multiples of five are exact. -/
theorem C117_pow2 (x y : ℚ) (h0 : 0 ≤ x) (hxy : x < y) (n : Nat) :
    ∃ a b, pow2 x = .ok a ∧ pow2 y = .ok b ∧ 1 ≤ a ∧ a < b ∧ pow2 (x + 5 * n) = .ok (32 ^ n * a) ∧ pow2 (5 * n) = .ok (32 ^ n) := by
  have split : ∀ z : ℚ, 0 ≤ z → ∃ (k : Nat) (f e : ℚ), z / 5 = f + k ∧ 0 ≤ f ∧ f < 1 ∧ interp exp5Table f = .ok e ∧ 1 ≤ e ∧ e < 32 := by
    intro z hz
    obtain ⟨k, hk0, hk1⟩ := cell (z / 5) (by positivity)
    obtain ⟨e, he, h1, -, h3⟩ := exp5_val (z / 5 - k) (by linarith) (by linarith)
    exact ⟨k, z / 5 - k, e, by ring, by linarith, by linarith, he, h1, h3 (by linarith)⟩
  obtain ⟨j, f, a, hf, hf0, hf1, ha, ha1, ha32⟩ := split x h0
  obtain ⟨k, g, b, hg, hg0, hg1, hb, hb1, hb32⟩ := split y (by linarith)
  have hz := exp5_interp_ends.1
  have hj : (1 : ℚ) ≤ 32 ^ j := one_le_pow₀ (by norm_num)
  have hk : (1 : ℚ) ≤ 32 ^ k := one_le_pow₀ (by norm_num)
  refine ⟨32 ^ j * a, 32 ^ k * b, ?_, ?_, by nlinarith, ?_, ?_, ?_⟩
  · unfold pow2; rw [hf, pow2Loop_eq j f 1 hf1 hf0 a ha, one_mul]
  · unfold pow2; rw [hg, pow2Loop_eq k g 1 hg1 hg0 b hb, one_mul]
  · have hlt : f + j < g + k := by rw [← hf, ← hg]; linarith
    rcases Nat.lt_trichotomy j k with h | h | h
    · have : (32 : ℚ) ^ (j + 1) ≤ 32 ^ k := pow_le_pow_right₀ (by norm_num) h
      rw [pow_succ] at this
      nlinarith
    · subst h
      have := exp5_lt f g hf0 (by linarith) (by linarith) a b ha hb
      nlinarith
    · have : ((k + 1 : Nat) : ℚ) ≤ j := by exact_mod_cast h
      push_cast at this
      linarith
  · unfold pow2
    rw [show (x + 5 * (n : ℚ)) / 5 = f + ((j + n : Nat) : ℚ) by push_cast; rw [← sub_eq_iff_eq_add'] at *; linarith, pow2Loop_eq _ f 1 hf1 hf0 a ha, pow_add]
    congr 1; ring
  · unfold pow2
    rw [show (5 * (n : ℚ)) / 5 = 0 + n by field_simp; ring, pow2Loop_eq n 0 1 (by norm_num) le_rfl 1 hz]
    congr 1; ring

example := C117_pow2 (7 / 2) 8 (by norm_num) (by norm_num) 3

/-- **C117** violated: pow2 ("Returns 2^x") of every x at or below -5/2047, such as -1, converts a negative float to unsigned. -/
theorem C117_pow2_negative_violated (x : ℚ) (h : x ≤ -5 / 2047) : pow2 x = .ub := by
  unfold pow2
  rw [pow2Loop, if_pos (by linarith)]
  unfold interp interpByIndex Color.trunc
  rw [exp5_len, if_neg, R.bind_ub, R.bind_ub]
  rintro ⟨h1, -⟩
  norm_num at h1
  linarith

/-- **C117** violated: in binary32 the loop of pow2 does not end for large finite arguments: from 2^26 upwards subtracting one gives the same float again. -/
theorem C117_pow2_large_violated (rnd : ℚ → ℚ) (hr : Flt.Nearest rnd) (x res : ℚ) (hx : Flt.F32 x) (h : 2 ^ 26 ≤ x) (n : Nat) : ((pow2Step rnd)^[n] (x, res)).1 = x ∧ ¬ ((pow2Step rnd)^[n] (x, res)).1 < 1 := by
  have hfix : rnd (x - 1) = x := by
    -- the float nearest to x - 1 is x: floats near x are multiples of 8, or of 4 just below 2^26
    have h1 : rnd (x - 1) ≤ x := hr.le hx (by linarith)
    have h2 := hr.nearest (x - 1) x hx
    rw [show x - (x - 1) = 1 by ring, abs_one, abs_le] at h2
    have h25 : (2 : ℚ) ^ (2 + 23 : ℤ) ≤ |rnd (x - 1)| := by
      have : (0 : ℚ) ≤ rnd (x - 1) := by
        have : (2 : ℚ) ^ 26 - 2 ≤ rnd (x - 1) := by linarith
        norm_num at this ⊢; linarith
      rw [abs_of_nonneg this]
      have : (2 : ℚ) ^ 26 - 2 ≤ rnd (x - 1) := by linarith
      norm_num at this ⊢; linarith
    obtain ⟨m, hm⟩ := Flt.f32_multiple (hr.f32 (x - 1)) 2 h25
    obtain ⟨k, hk⟩ := Flt.f32_multiple hx 2 (by rw [abs_of_pos (by norm_num at h; linarith)]; norm_num at h ⊢; linarith)
    rw [hm, hk] at h1 h2
    have e4 : (2 : ℚ) ^ (2 : ℤ) = 4 := by norm_num
    rw [e4] at h1 h2 hm hk
    have a1 : (m : ℚ) ≤ k := by linarith
    have a2 : (k : ℚ) * 4 - 2 ≤ m * 4 := by linarith [h2.1]
    have b1 : m ≤ k := by exact_mod_cast a1
    have b2 : k * 4 - 2 ≤ m * 4 := by exact_mod_cast a2
    have : m = k := by omega
    rw [hm, hk, this]
  have main : ∀ (n : Nat) (res : ℚ), ((pow2Step rnd)^[n] (x, res)).1 = x := by
    intro n
    induction n with
    | zero => intro res; rfl
    | succ n ih => intro res; rw [Function.iterate_succ, Function.comp, pow2Step, hfix]; exact ih _
  rw [main]
  exact ⟨rfl, by norm_num at h; intro h'; linarith⟩

/-! ## Sine, cosine, tangent -/

/-- **C117**: sin01 is defined for arguments from 0 upwards (below 2^21), bounded by 1 and has period 1. -/
theorem C117_sin01 (x : ℚ) (h0 : 0 ≤ x) (h1 : x < 2 ^ 21) (n : Nat) : ∃ v, sin01 x = .ok v ∧ -1 ≤ v ∧ v ≤ 1 ∧ (x + n < 2 ^ 21 → sin01 (x + n) = .ok v) := by
  have hl := sin_len
  obtain ⟨k, hk0, hk1⟩ := cell (x * sinTable.length) (by positivity)
  have hk2 : k < 2 ^ 32 := by
    rw [hl] at hk0
    have h1' : x < 2097152 := by norm_num at h1; exact h1
    have : (k : ℚ) < 4294967296 := by push_cast at hk0; linarith
    have : k < 4294967296 := by exact_mod_cast this
    omega
  obtain ⟨h2, h3, h4⟩ := C101_wrap_index sinTable sin_ne _ k hk0 hk1 hk2 _ _ rfl rfl
  refine ⟨_, h2, ?_, ?_, ?_⟩
  · exact le_trans (le_min (sin_bound _).1 (sin_bound _).1) h3
  · exact le_trans h4 (max_le (sin_bound _).2 (sin_bound _).2)
  · intro hn
    have := (C101_wrap_partial sinTable sin_ne x h0 n 0).2.1 (by rw [hl]; push_cast; norm_num at hn ⊢; linarith)
    unfold sin01
    rw [this]
    exact h2

example := C117_sin01 (7 / 2) (by norm_num) (by norm_num) 3

/-- Twice pi is positive. -/
theorem pif_pos : 0 < pif := by unfold pif; norm_num

/-- **C118** (partial): sin and cos are defined, bounded by 1 and have the same period 2·M_PIF (for exact arithmetic) for arguments from 0 up to 2^21 periods; cos is sin a quarter period later; the quarter points are exact. Missing: negative arguments, see below. -/
theorem C118_partial (x : ℚ) (h0 : 0 ≤ x) (h1 : x < (2 ^ 21 - 1) * (2 * pif)) (n : Nat) :
    ∃ s c, sin x = .ok s ∧ cos x = .ok c ∧ (-1 ≤ s ∧ s ≤ 1) ∧ (-1 ≤ c ∧ c ≤ 1) ∧ sin (x + pif / 2) = .ok c ∧
      (x + n * (2 * pif) < (2 ^ 21 - 1) * (2 * pif) → sin (x + n * (2 * pif)) = .ok s ∧ cos (x + n * (2 * pif)) = .ok c) := by
  have hp := pif_pos
  have hx0 : 0 ≤ x / (2 * pif) := by positivity
  have hx1 : x / (2 * pif) < 2 ^ 21 - 1 := by rw [div_lt_iff₀ (by positivity)]; exact h1
  obtain ⟨s, hs, hs1, hs2, hs3⟩ := C117_sin01 (x / (2 * pif)) hx0 (by linarith) n
  obtain ⟨c, hc, hc1, hc2, hc3⟩ := C117_sin01 (x / (2 * pif) + 1 / 4) (by linarith) (by linarith) n
  refine ⟨s, c, hs, hc, ⟨hs1, hs2⟩, ⟨hc1, hc2⟩, ?_, ?_⟩
  · unfold sin
    rw [show (x + pif / 2) / (2 * pif) = x / (2 * pif) + 1 / 4 by field_simp; ring]
    exact hc
  · intro hn
    have e : (x + n * (2 * pif)) / (2 * pif) = x / (2 * pif) + n := by field_simp
    have hn' : x / (2 * pif) + n < 2 ^ 21 - 1 := by rw [← e, div_lt_iff₀ (by positivity)]; exact hn
    unfold sin cos
    rw [e]
    refine ⟨hs3 (by linarith), ?_⟩
    rw [show x / (2 * pif) + n + 1 / 4 = x / (2 * pif) + 1 / 4 + n by ring]
    exact hc3 (by linarith)

/-- The quarter points. -/
theorem C118_quarters : sin 0 = .ok 0 ∧ sin (pif / 2) = .ok 1 ∧ sin pif = .ok 0 ∧ sin (3 * pif / 2) = .ok (-1) ∧ cos 0 = .ok 1 ∧ cos (pif / 2) = .ok 0 ∧ cos pif = .ok (-1) := by
  have hp := pif_pos
  have hl := sin_len
  have hq := C117_sin_table.2.2.2.2
  have key : ∀ (k : Nat) (v : ℚ), k < 2048 → at' sinTable k = v → interpWrap sinTable ((k : ℚ) / 2048) = .ok v := by
    intro k v hk hv
    have := (C101_wrap_partial sinTable sin_ne 0 le_rfl 0 k).2.2 (by omega) (by
      rw [hl]; push_cast
      have : (k : ℚ) < 2048 := by exact_mod_cast hk
      rw [zero_add, div_mul_cancel₀ _ (by norm_num)]; norm_num; linarith)
    rw [hl, hv] at this
    push_cast at this
    rw [zero_add] at this
    exact this
  have k0 := key 0 0 (by norm_num) hq.1
  have k1 := key 512 1 (by norm_num) hq.2.1
  have k2 := key 1024 0 (by norm_num) hq.2.2.1
  have k3 := key 1536 (-1) (by norm_num) hq.2.2.2
  norm_num at k0 k1 k2 k3
  unfold sin cos
  refine ⟨?_, ?_, ?_, ?_, ?_, ?_, ?_⟩
  · rw [zero_div]; exact k0
  · rw [show pif / 2 / (2 * pif) = 1 / 4 by field_simp; norm_num]; exact k1
  · rw [show pif / (2 * pif) = 1 / 2 by field_simp]; exact k2
  · rw [show 3 * pif / 2 / (2 * pif) = 3 / 4 by field_simp; norm_num]; exact k3
  · rw [zero_div, zero_add]; exact k1
  · rw [show pif / 2 / (2 * pif) + 1 / 4 = 1 / 2 by field_simp; norm_num]; exact k2
  · rw [show pif / (2 * pif) + 1 / 4 = 3 / 4 by field_simp; norm_num]; exact k3

/-- **C118** violated: sin ("for any x") of every argument at or below -2·M_PIF/2048, and cos of every argument at or below that minus a quarter period, converts a negative float to unsigned. -/
theorem C118_negative_violated (x : ℚ) (h : x ≤ -(2 * pif) / 2048) : sin x = .ub ∧ cos (x - pif / 2) = .ub := by
  have hp := pif_pos
  have hle : x / (2 * pif) ≤ -1 / 2048 := by rw [div_le_iff₀ (by positivity)]; linarith
  have key : ∀ p : ℚ, p ≤ -1 / 2048 → interpWrap sinTable p = .ub := by
    intro p hp
    unfold interpWrap interpByIndexWrap Color.trunc
    rw [sin_len, if_neg, R.bind_ub]
    rintro ⟨h1, -⟩
    push_cast at h1
    linarith
  unfold sin cos
  rw [show (x - pif / 2) / (2 * pif) + 1 / 4 = x / (2 * pif) by field_simp; ring]
  exact ⟨key _ hle, key _ hle⟩

/-- **C118** violated: so are arguments from 2^21 periods (about 13 million) upwards. -/
theorem C118_large_violated (x : ℚ) (h : 2 ^ 21 * (2 * pif) ≤ x) : sin x = .ub := by
  have hp := pif_pos
  have hle : 2 ^ 21 ≤ x / (2 * pif) := by rw [le_div_iff₀ (by positivity)]; exact h
  unfold sin interpWrap interpByIndexWrap Color.trunc
  rw [sin_len, if_neg, R.bind_ub]
  rintro ⟨-, h2⟩
  push_cast at h2
  norm_num at hle
  linarith

/-- The hypotheses of these theorems are met: pi is 3.14159274..., and 100 is a legal argument while -1 is not. -/
example : (∃ v, sin 100 = .ok v) ∧ sin (-1) = .ub := by
  refine ⟨?_, (C118_negative_violated (-1) (by unfold pif; norm_num)).1⟩
  obtain ⟨s, c, h, -⟩ := C118_partial 100 (by norm_num) (by unfold pif; norm_num) 0
  exact ⟨s, h⟩

/-- **C118**: cos_close gives the table entry at or before the argument, so it is within one step of the interpolated value: it differs from cos by at most 3069 millionths. -/
theorem C118_cos_close (x : ℚ) (h0 : 0 ≤ x) (h1 : x < (2 ^ 21 - 1) * (2 * pif)) : ∃ a b, cosClose x = .ok a ∧ cos x = .ok b ∧ |a - b| ≤ 3069 / 1000000 := by
  have hl := sin_len
  have hp := pif_pos
  have hx0 : 0 ≤ x / (2 * pif) := by positivity
  have hx1 : x / (2 * pif) < 2 ^ 21 - 1 := by rw [div_lt_iff₀ (by positivity)]; exact h1
  obtain ⟨p, hpd⟩ : ∃ p, x / (2 * pif) + 1 / 4 = p := ⟨_, rfl⟩
  have hp0 : 0 ≤ p := by linarith
  have hp1 : p < 2 ^ 21 := by linarith
  obtain ⟨k, hk0, hk1⟩ := cell (p * sinTable.length) (by positivity)
  have hk2 : k < 2 ^ 32 := by
    rw [hl] at hk0
    have h1' : p < 2097152 := by norm_num at hp1; exact hp1
    have : (k : ℚ) < 4294967296 := by push_cast at hk0; linarith
    have : k < 4294967296 := by exact_mod_cast this
    omega
  have e1 := (C101_wrap_index sinTable sin_ne _ k hk0 hk1 hk2 _ _ rfl rfl).1
  have e2 := (C101_closest sinTable (by rw [hl]; norm_num) p k).1 hk0 hk1 hk2 sin_ne
  unfold cosClose cos
  rw [hpd]
  refine ⟨_, _, e2, e1, ?_⟩
  unfold lerp
  have step : ∀ i, i < 2048 → |at' sinTable ((i + 1) % 2048) - at' sinTable i| ≤ 3069 / 1000000 := by
    intro i hi
    have hlen : sinData.length = 2048 := by decide +kernel
    unfold sinTable
    rw [tab_at, tab_at, ← sub_div, abs_div, abs_of_pos (by norm_num : (0 : ℚ) < 1000000)]
    apply div_le_div_of_nonneg_right _ (by norm_num)
    rcases Nat.lt_or_ge (i + 1) 2048 with h | h
    · rw [Nat.mod_eq_of_lt h]
      have := chk_get (fun a b => decide (-3069 ≤ b - a) && decide (b - a ≤ 3069)) sinData (by decide +kernel) i (by omega)
      rw [Bool.and_eq_true, decide_eq_true_eq, decide_eq_true_eq] at this
      rw [abs_le]
      exact ⟨by exact_mod_cast this.1, by exact_mod_cast this.2⟩
    · have : i = 2047 := by omega
      subst this
      rw [show (2047 + 1) % 2048 = 0 from rfl, show sinData.getD 0 0 = 0 by decide +kernel, show sinData.getD 2047 0 = -3068 by decide +kernel]
      norm_num
  rw [hl] at hk0 hk1 ⊢
  have hs := step (k % 2048) (Nat.mod_lt _ (by norm_num))
  rw [Nat.mod_add_mod] at hs
  rw [show ∀ a b t : ℚ, a - (a + (b - a) * t) = -((b - a) * t) by intros; ring, abs_neg, abs_mul]
  have ht : |p * ((2048 : Nat) : ℚ) - k| ≤ 1 := by rw [abs_le]; constructor <;> linarith
  calc _ ≤ 3069 / 1000000 * 1 := mul_le_mul hs ht (abs_nonneg _) (by norm_num)
    _ = _ := by norm_num

/-- **C118**: tan and tan_close are defined for non-negative arguments and have period M_PIF; on the first half of the period tan is strictly increasing (up to the last table point before the pole). -/
theorem C118_tan (x y : ℚ) (h0 : 0 ≤ x) (hxy : x < y) (h1 : y ≤ 1023 / 2048 * pif) (n : Nat) (hn : (n : ℚ) < 2 ^ 20) :
    ∃ a b, tan x = .ok a ∧ tan y = .ok b ∧ a < b ∧ 0 ≤ a ∧ tan (x + n * pif) = .ok a ∧ ∃ c, tanClose x = .ok c ∧ c ≤ a := by
  have hl := tan_len
  have hp := pif_pos
  have hT := C117_tan_table
  have val : ∀ z : ℚ, 0 ≤ z → z ≤ 1023 / 2048 * pif → ∃ (k : Nat), k ≤ 1023 ∧ (k : ℚ) ≤ z / pif * 2048 ∧ z / pif * 2048 < k + 1 ∧ tan z = .ok (lerp (at' tanTable k) (at' tanTable (k + 1)) (z / pif * 2048 - k)) ∧ tanClose z = .ok (at' tanTable k) ∧ z / pif * 2048 ≤ 1023 := by
    intro z hz hz1
    have hz' : z / pif ≤ 1023 / 2048 := by rw [div_le_iff₀ hp]; exact hz1
    have hle : z / pif * 2048 ≤ 1023 := by linarith
    obtain ⟨k, hk0, hk1⟩ := cell (z / pif * 2048) (by positivity)
    have hk : k ≤ 1023 := by
      have : (k : ℚ) ≤ 1023 := by linarith
      exact_mod_cast this
    have hcast : z / pif * (tanTable.length : ℚ) = z / pif * 2048 := by rw [hl]; norm_num
    refine ⟨k, hk, hk0, hk1, ?_, ?_, hle⟩
    · have := (C101_wrap_index tanTable tan_ne (z / pif * tanTable.length) k (by rw [hcast]; exact hk0) (by rw [hcast]; exact hk1) (by omega) _ _ rfl rfl).1
      rw [hcast, hl, Nat.mod_eq_of_lt (by omega), Nat.mod_eq_of_lt (by omega)] at this
      unfold tan interpWrap
      rw [hcast]
      exact this
    · have := (C101_closest tanTable (by rw [hl]; norm_num) (z / pif) k).1 (by rw [hcast]; exact hk0) (by rw [hcast]; exact hk1) (by omega) tan_ne
      rw [hl, Nat.mod_eq_of_lt (by omega)] at this
      exact this
  obtain ⟨j, hj, hj0, hj1, ex, ec, hx1⟩ := val x h0 (by linarith)
  obtain ⟨k, hk, hk0, hk1, ey, -, hy1⟩ := val y (by linarith) h1
  have hlt : x / pif * 2048 < y / pif * 2048 := by
    have := div_lt_div_of_pos_right hxy hp
    linarith
  have hper := (C101_wrap_partial tanTable tan_ne (x / pif) (by positivity) n 0).2.1 (by
    rw [hl]; push_cast
    have h5 : (n : ℚ) < 1048576 := by rw [show (1048576 : ℚ) = 2 ^ 20 by norm_num]; exact hn
    rw [show (2 : ℚ) ^ 32 = 4294967296 by norm_num]
    linarith [hx1])
  have hmono : ∀ i, i ≤ 1023 → ∀ m, m < i → at' tanTable m < at' tanTable i := fun i hi m hm => hT.1 m i hm (by omega)
  have hnn : ∀ i, i ≤ 1023 → 0 ≤ at' tanTable i := by
    intro i hi
    rcases Nat.eq_zero_or_pos i with h | h
    · rw [h, hT.2.2.1]
    · have := hmono i hi 0 h
      rw [hT.2.2.1] at this; exact this.le
  -- values on a cell
  have hcellx : at' tanTable j ≤ lerp (at' tanTable j) (at' tanTable (j + 1)) (x / pif * 2048 - j) := by
    unfold lerp
    rcases Nat.lt_or_ge j 1023 with h | h
    · have := hmono (j + 1) (by omega) j (by omega)
      nlinarith
    · have hj' : j = 1023 := by omega
      have : x / pif * 2048 - j = 0 := by rw [hj'] at hj0 ⊢; push_cast at hj0 ⊢; linarith
      rw [this]; simp
  refine ⟨_, _, ex, ey, ?_, le_trans (hnn j hj) hcellx, ?_, _, ec, hcellx⟩
  · unfold lerp
    rcases Nat.lt_trichotomy j k with h | h | h
    · have s1 := hmono (j + 1) (by omega) j (by omega)
      have hle : at' tanTable (j + 1) ≤ at' tanTable k := by
        rcases Nat.lt_or_ge (j + 1) k with h' | h'
        · exact (hmono k hk _ h').le
        · rw [show j + 1 = k by omega]
      have hb : at' tanTable k ≤ at' tanTable k + (at' tanTable (k + 1) - at' tanTable k) * (y / pif * 2048 - k) := by
        rcases Nat.lt_or_ge k 1023 with h | h
        · have := hmono (k + 1) (by omega) k (by omega)
          nlinarith
        · have hk' : k = 1023 := by omega
          have : y / pif * 2048 - k = 0 := by rw [hk'] at hk0 ⊢; push_cast at hk0 ⊢; linarith
          rw [this]; simp
      nlinarith
    · subst h
      have hj' : j < 1023 := by
        by_contra hc
        have hj' : j = 1023 := by omega
        rw [hj'] at hj0; push_cast at hj0
        linarith
      have := hmono (j + 1) (by omega) j (by omega)
      nlinarith
    · have : ((k + 1 : Nat) : ℚ) ≤ j := by exact_mod_cast h
      push_cast at this
      linarith
  · unfold tan at ex ⊢
    rw [show (x + n * pif) / pif = x / pif + n by field_simp, hper]
    exact ex

/-- Every statement above about tan has an instance: 1 radian. -/
example : ∃ a, tan 1 = .ok a ∧ 0 ≤ a := by
  obtain ⟨a, b, h, -, -, h', -⟩ := C118_tan 1 (3 / 2) (by norm_num) (by norm_num) (by unfold pif; norm_num) 0 (by norm_num)
  exact ⟨a, h, h'⟩

/-- **C80-like**: is_inf_fastmath is true exactly for the two infinities. -/
theorem C118_is_inf (b : BitVec 32) : isInfFastmath b = true ↔ b = 0x7f800000#32 ∨ b = 0xff800000#32 := by
  unfold isInfFastmath
  have hb := b.isLt
  have hand : (b &&& 0x7fffffff#32).toNat = b.toNat % 2147483648 := by
    rw [BitVec.toNat_and]
    exact Nat.and_two_pow_sub_one_eq_mod b.toNat 31
  simp only [gt_iff_lt, BitVec.lt_def, hand, show (0x7f800000#32).toNat = 2139095040 from rfl, show (0x7f7fffff#32).toNat = 2139095039 from rfl, BitVec.toNat_inj.symm, show (0xff800000#32).toNat = 4286578688 from rfl]
  split
  · next h => constructor
              · intro h'; cases h'
              · intro h'; omega
  · next h => rw [decide_eq_true_eq]; omega

/-! ## Random numbers -/

/-- **C132** for floats: whatever std::rand() returns, the result lies between the bounds; 0 gives the lower and RAND_MAX the upper bound. -/
theorem C132_float (randMax r : Nat) (hm : 0 < randMax) (hr : r ≤ randMax) (lo hi : ℚ) (h : lo ≤ hi) :
    lo ≤ randomFloat randMax r lo hi ∧ randomFloat randMax r lo hi ≤ hi ∧ randomFloat randMax 0 lo hi = lo ∧ randomFloat randMax randMax lo hi = hi := by
  have hm' : (0 : ℚ) < randMax := by exact_mod_cast hm
  have hr' : (r : ℚ) ≤ randMax := by exact_mod_cast hr
  have hr0 : (0 : ℚ) ≤ r := Nat.cast_nonneg _
  unfold randomFloat
  simp only [sub_zero]
  refine ⟨?_, ?_, ?_, ?_⟩
  · have : 0 ≤ (r : ℚ) * (hi - lo) / randMax := div_nonneg (mul_nonneg hr0 (by linarith)) hm'.le
    linarith
  · have : (r : ℚ) * (hi - lo) / randMax ≤ hi - lo := by rw [div_le_iff₀ hm']; nlinarith
    linarith
  · push_cast; simp
  · rw [mul_comm, mul_div_assoc, div_self hm'.ne']; ring

example := C132_float 32767 100 (by norm_num) (by norm_num) (-1) (1 / 2) (by norm_num)

/-- **C132** for ints, with a 64-bit long (partial): if the width of the range is an int, the result lies between the bounds. -/
theorem C132_int_partial (randMax r : Nat) (hm : 0 < randMax) (hM : randMax < 2 ^ 31) (hr : r ≤ randMax) (lo hi : Int) (h : lo ≤ hi) (hl : -2 ^ 31 ≤ lo) (hh : hi < 2 ^ 31) (hw : hi - lo < 2 ^ 31) :
    ∃ v, randomInt 64 randMax r lo hi = .ok v ∧ lo ≤ v ∧ v ≤ hi ∧ (r < randMax → lo < hi → v < hi) ∧ (r = randMax → v = hi) := by
  obtain ⟨d, hd⟩ : ∃ d : Nat, hi - lo = d := ⟨(hi - lo).toNat, by omega⟩
  have hdlt : d < 2 ^ 31 := by omega
  have hprod : r * d ≤ (2 ^ 31 - 1) * (2 ^ 31 - 1) := Nat.mul_le_mul (by omega) (by omega)
  have hq : r * d / randMax ≤ d := by
    apply Nat.div_le_of_le_mul
    exact Nat.mul_le_mul_right d hr
  have hprodI : ((r : Int) * (d : Int)) = ((r * d : Nat) : Int) := by push_cast; rfl
  unfold randomInt IntMath.i32
  rw [hd, sub_zero, sub_zero]
  have f1 : IntMath.fit (-2 ^ (64 - 1)) (2 ^ (64 - 1) - 1) (r : Int) = .ok (r : Int) := by unfold IntMath.fit; rw [if_pos (by omega)]
  have f2 : IntMath.fit (-2147483648) 2147483647 (d : Int) = .ok (d : Int) := by unfold IntMath.fit; rw [if_pos (by omega)]
  have f3 : IntMath.fit (-2 ^ (64 - 1)) (2 ^ (64 - 1) - 1) ((r : Int) * d) = .ok ((r * d : Nat) : Int) := by
    unfold IntMath.fit; rw [hprodI, if_pos (by omega)]
  have f4 : IntMath.fit (-2 ^ (64 - 1)) (2 ^ (64 - 1) - 1) (randMax : Int) = .ok (randMax : Int) := by unfold IntMath.fit; rw [if_pos (by omega)]
  have e : Int.tdiv ((r * d : Nat) : Int) randMax = ((r * d / randMax : Nat) : Int) := by
    rw [Int.tdiv_eq_ediv_of_nonneg (by omega)]; norm_cast
  have hq0 : r * d / randMax < d ∨ ¬ (r < randMax ∧ lo < hi) := by
    by_cases hc : r < randMax ∧ lo < hi
    · left
      rw [Nat.div_lt_iff_lt_mul hm, Nat.mul_comm d]
      exact Nat.mul_lt_mul_of_pos_right hc.1 (by omega)
    · exact .inr hc
  have hq1 : r = randMax → r * d / randMax = d := by rintro rfl; exact Nat.mul_div_cancel_left _ hm
  obtain ⟨q, hqd⟩ : ∃ q : Nat, r * d / randMax = q := ⟨_, rfl⟩
  rw [hqd] at e hq hq0 hq1
  have f5 : IntMath.fit (-2 ^ (64 - 1)) (2 ^ (64 - 1) - 1) (q : Int) = .ok (q : Int) := by unfold IntMath.fit; rw [if_pos (by omega)]
  have f6 : IntMath.fit (-2 ^ (64 - 1)) (2 ^ (64 - 1) - 1) ((q : Int) + lo) = .ok ((q : Int) + lo) := by unfold IntMath.fit; rw [if_pos (by omega)]
  rw [f1, R.bind_ok, f2, R.bind_ok, f3, R.bind_ok, f4, R.bind_ok, if_neg (by omega), e, f5, R.bind_ok, f6, R.bind_ok]
  refine ⟨_, rfl, ?_, ?_, ?_, ?_⟩
  · unfold IntMath.toI32; omega
  · unfold IntMath.toI32; omega
  · intro h1 h2
    have : q < d := hq0.resolve_right (fun h => h ⟨h1, h2⟩)
    unfold IntMath.toI32; omega
  · intro h1
    have := hq1 h1
    unfold IntMath.toI32; omega

/-- **C132** violated: with a 32-bit long (the ARM targets) the product overflows: any range of two or more and a large enough std::rand() (RAND_MAX = 2^31 - 1) are undefined. -/
theorem C132_long32_violated (r : Nat) (lo hi : Int) (hr : 2 ^ 30 ≤ r) (hr2 : r < 2 ^ 31) (h : lo + 2 ≤ hi) (hw : hi - lo < 2 ^ 31) : randomInt 32 2147483647 r lo hi = .ub := by
  unfold randomInt IntMath.i32
  rw [sub_zero]
  have f1 : IntMath.fit (-2 ^ (32 - 1)) (2 ^ (32 - 1) - 1) (r : Int) = .ok (r : Int) := by unfold IntMath.fit; rw [if_pos (by omega)]
  have f2 : IntMath.fit (-2147483648) 2147483647 (hi - lo) = .ok (hi - lo) := by unfold IntMath.fit; rw [if_pos (by omega)]
  have f3 : IntMath.fit (-2 ^ (32 - 1)) (2 ^ (32 - 1) - 1) ((r : Int) * (hi - lo)) = .ub := by
    unfold IntMath.fit
    rw [if_neg]
    rintro ⟨-, h2⟩
    have : (2 ^ 30 : Int) * 2 ≤ (r : Int) * (hi - lo) := mul_le_mul (by omega) (by omega) (by norm_num) (by omega)
    omega
  rw [f1, R.bind_ok, f2, R.bind_ok, f3, R.bind_ub]

/-- **C132** violated: a range wider than an int overflows with any long. -/
theorem C132_wide_violated (w randMax r : Nat) (lo hi : Int) (hw : 2 ^ 31 ≤ hi - lo) : randomInt w randMax r lo hi = .ub := by
  unfold randomInt IntMath.i32
  have f2 : IntMath.fit (-2147483648) 2147483647 (hi - lo) = .ub := by unfold IntMath.fit; rw [if_neg (by omega)]
  cases h : IntMath.fit (-2 ^ (w - 1)) (2 ^ (w - 1) - 1) ((r : Int) - 0) with
  | ok a => rw [R.bind_ok, f2, R.bind_ub]
  | ub => rw [R.bind_ub]

example : randomInt 64 2147483647 2147483646 (-5) 5 = .ok 4 ∧ randomInt 64 2147483647 0 (-5) 5 = .ok (-5) := by decide +kernel

end MathFns
