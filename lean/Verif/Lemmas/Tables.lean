import Verif.Model.MathFns
import Verif.Props.Interp
/-! # Interpolation in increasing tables -/

namespace Tables
open Interp Interp.Spec InterpArray MathTables

/-- A relation between neighbours, checked along a list. -/
def chk (p : Int → Int → Bool) : List Int → Bool
  | a :: b :: l => p a b && chk p (b :: l)
  | _ => true

theorem chk_get (p : Int → Int → Bool) (l : List Int) (h : chk p l = true) : ∀ i, i + 1 < l.length → p (l.getD i 0) (l.getD (i + 1) 0) = true := by
  induction l with
  | nil => intro i hi; simp at hi
  | cons a l ih =>
    cases l with
    | nil => intro i hi; simp at hi
    | cons b l =>
      rw [chk, Bool.and_eq_true] at h
      intro i hi
      cases i with
      | zero => exact h.1
      | succ i =>
        have := ih h.2 i (by simpa using hi)
        simpa using this

theorem all_get (p : Int → Bool) (l : List Int) (h : l.all p = true) (i : Nat) (hi : i < l.length) : p (l.getD i 0) = true := by
  rw [List.all_eq_true] at h
  rw [List.getD_eq_getElem?_getD, List.getElem?_eq_getElem hi]
  exact h _ (List.getElem_mem hi)

theorem tab_length (d : List Int) : (tab d).length = d.length := by unfold tab; simp

theorem tab_at (d : List Int) (i : Nat) : at' (tab d) i = (d.getD i 0 : ℚ) / 1000000 := by
  unfold at' tab
  rw [List.getD_eq_getElem?_getD, List.getD_eq_getElem?_getD, List.getElem?_map]
  cases h : d[i]? with
  | none => simp
  | some a => simp

/-- Strictly increasing, from the neighbours. -/
theorem tab_strict (d : List Int) (h : chk (fun a b => decide (a < b)) d = true) : ∀ i j, i < j → j < d.length → at' (tab d) i < at' (tab d) j := by
  have step : ∀ i, i + 1 < d.length → at' (tab d) i < at' (tab d) (i + 1) := by
    intro i hi
    have := chk_get _ d h i hi
    rw [decide_eq_true_eq] at this
    rw [tab_at, tab_at]
    have : (d.getD i 0 : ℚ) < (d.getD (i + 1) 0 : ℚ) := by exact_mod_cast this
    exact div_lt_div_of_pos_right this (by norm_num)
  intro i j hij
  induction j with
  | zero => omega
  | succ j ih =>
    intro hj
    rcases Nat.lt_or_ge i j with h1 | h1
    · exact (ih h1 (by omega)).trans (step j hj)
    · have : i = j := by omega
      subst this
      exact step i hj

/-- Non-decreasing, from the neighbours. -/
theorem tab_mono (d : List Int) (h : chk (fun a b => decide (a ≤ b)) d = true) : ∀ i j, i ≤ j → j < d.length → at' (tab d) i ≤ at' (tab d) j := by
  have step : ∀ i, i + 1 < d.length → at' (tab d) i ≤ at' (tab d) (i + 1) := by
    intro i hi
    have := chk_get _ d h i hi
    rw [decide_eq_true_eq] at this
    rw [tab_at, tab_at]
    have : (d.getD i 0 : ℚ) ≤ (d.getD (i + 1) 0 : ℚ) := by exact_mod_cast this
    exact div_le_div_of_nonneg_right this (by norm_num)
  intro i j hij
  induction j with
  | zero => intro _; have : i = 0 := by omega
            rw [this]
  | succ j ih =>
    intro hj
    rcases Nat.lt_or_ge j i with h1 | h1
    · have : i = j + 1 := by omega
      rw [this]
    · exact (ih h1 (by omega)).trans (step j hj)

/-- Where `interp` interpolates. -/
theorem interp_cell (data : List ℚ) (h2 : 2 ≤ data.length) (hw : data.length ≤ 2 ^ 32) (p : ℚ) (h0 : 0 ≤ p) (h1 : p ≤ 1) :
    ∃ k : Nat, k + 1 < data.length ∧ (k : ℚ) ≤ p * ((data.length - 1 : Nat) : ℚ) ∧ p * ((data.length - 1 : Nat) : ℚ) ≤ k + 1 ∧
      interp data p = .ok (lerp (at' data k) (at' data (k + 1)) (p * ((data.length - 1 : Nat) : ℚ) - k)) := by
  obtain ⟨x, hx⟩ : ∃ x, p * ((data.length - 1 : Nat) : ℚ) = x := ⟨_, rfl⟩
  have hn0 : (0 : ℚ) ≤ ((data.length - 1 : Nat) : ℚ) := Nat.cast_nonneg _
  have hx0 : 0 ≤ x := by rw [← hx]; positivity
  have hx1 : x ≤ ((data.length - 1 : Nat) : ℚ) := by rw [← hx]; nlinarith
  have hk : ∃ k : Nat, k + 1 < data.length ∧ (k : ℚ) ≤ x ∧ x ≤ k + 1 := by
    obtain ⟨k, hk0, hk1⟩ := cell x hx0
    by_cases hkl : k + 1 < data.length
    · exact ⟨k, hkl, hk0, hk1.le⟩
    · have hge : ((data.length - 1 : Nat) : ℚ) ≤ k := by exact_mod_cast (show data.length - 1 ≤ k by omega)
      refine ⟨data.length - 2, by omega, ?_, ?_⟩
      · have : ((data.length - 2 : Nat) : ℚ) ≤ ((data.length - 1 : Nat) : ℚ) := by exact_mod_cast (show data.length - 2 ≤ data.length - 1 by omega)
        linarith
      · have : ((data.length - 2 : Nat) : ℚ) + 1 = ((data.length - 1 : Nat) : ℚ) := by exact_mod_cast (show data.length - 2 + 1 = data.length - 1 by omega)
        linarith
  obtain ⟨k, hkl, hk0, hk1⟩ := hk
  rw [hx]
  refine ⟨k, hkl, hk0, hk1, ?_⟩
  unfold interp
  rw [hx]
  exact (C101_by_index data hw x k hk0 hk1 hkl).1

/-- In a strictly increasing table interpolation is strictly increasing. -/
theorem interp_strict (data : List ℚ) (h2 : 2 ≤ data.length) (hw : data.length ≤ 2 ^ 32) (hs : ∀ i j, i < j → j < data.length → at' data i < at' data j) (p q : ℚ) (h0 : 0 ≤ p) (hpq : p < q) (h1 : q ≤ 1) :
    ∃ a b, interp data p = .ok a ∧ interp data q = .ok b ∧ a < b ∧ at' data 0 ≤ a ∧ b ≤ at' data (data.length - 1) := by
  obtain ⟨j, hj, hj0, hj1, ej⟩ := interp_cell data h2 hw p h0 (by linarith)
  obtain ⟨k, hk, hk0, hk1, ek⟩ := interp_cell data h2 hw q (by linarith) h1
  have hn : (0 : ℚ) < ((data.length - 1 : Nat) : ℚ) := by exact_mod_cast (show 0 < data.length - 1 by omega)
  have hlt : p * ((data.length - 1 : Nat) : ℚ) < q * ((data.length - 1 : Nat) : ℚ) := mul_lt_mul_of_pos_right hpq hn
  obtain ⟨x, hx⟩ : ∃ x, p * ((data.length - 1 : Nat) : ℚ) = x := ⟨_, rfl⟩
  obtain ⟨y, hy⟩ : ∃ y, q * ((data.length - 1 : Nat) : ℚ) = y := ⟨_, rfl⟩
  rw [hx] at hj0 hj1 ej hlt
  rw [hy] at hk0 hk1 ek hlt
  refine ⟨_, _, ej, ek, ?_, ?_, ?_⟩
  · have sj := hs j (j + 1) (by omega) hj
    have sk := hs k (k + 1) (by omega) hk
    unfold lerp
    rcases Nat.lt_trichotomy j k with h | h | h
    · have hle : at' data (j + 1) ≤ at' data k := by
        rcases Nat.lt_or_ge (j + 1) k with h' | h'
        · exact (hs _ _ h' (by omega)).le
        · have : j + 1 = k := by omega
          rw [this]
      have hjk : ((j + 1 : Nat) : ℚ) ≤ k := by exact_mod_cast h
      push_cast at hjk
      -- a ≤ d(j+1) ≤ d k ≤ b with one of them strict
      have ha : at' data j + (at' data (j + 1) - at' data j) * (x - j) ≤ at' data (j + 1) := by nlinarith
      have hb : at' data k ≤ at' data k + (at' data (k + 1) - at' data k) * (y - k) := by nlinarith
      by_cases hxe : x < j + 1
      · have : at' data j + (at' data (j + 1) - at' data j) * (x - j) < at' data (j + 1) := by nlinarith
        linarith
      · by_cases hye : (k : ℚ) < y
        · have : at' data k < at' data k + (at' data (k + 1) - at' data k) * (y - k) := by nlinarith
          linarith
        · have h3 : ((j + 1 : Nat) : ℚ) < k := by push_cast; linarith
          have h4 : j + 1 < k := by exact_mod_cast h3
          have := hs _ _ h4 (by omega)
          linarith
    · subst h
      nlinarith
    · have : ((k + 1 : Nat) : ℚ) ≤ j := by exact_mod_cast h
      push_cast at this
      linarith
  · have sj := hs j (j + 1) (by omega) hj
    have : at' data 0 ≤ at' data j := by
      rcases Nat.eq_zero_or_pos j with h | h
      · rw [h]
      · exact (hs 0 j h (by omega)).le
    unfold lerp
    nlinarith
  · have sk := hs k (k + 1) (by omega) hk
    have : at' data (k + 1) ≤ at' data (data.length - 1) := by
      rcases Nat.lt_or_ge (k + 1) (data.length - 1) with h | h
      · exact (hs _ _ h (by omega)).le
      · rw [show k + 1 = data.length - 1 by omega]
    unfold lerp
    nlinarith

/-- In a non-decreasing table interpolation is non-decreasing. -/
theorem interp_mono (data : List ℚ) (h2 : 2 ≤ data.length) (hw : data.length ≤ 2 ^ 32) (hs : ∀ i j, i ≤ j → j < data.length → at' data i ≤ at' data j) (p q : ℚ) (h0 : 0 ≤ p) (hpq : p ≤ q) (h1 : q ≤ 1) :
    ∃ a b, interp data p = .ok a ∧ interp data q = .ok b ∧ a ≤ b ∧ at' data 0 ≤ a ∧ b ≤ at' data (data.length - 1) := by
  obtain ⟨j, hj, hj0, hj1, ej⟩ := interp_cell data h2 hw p h0 (by linarith)
  obtain ⟨k, hk, hk0, hk1, ek⟩ := interp_cell data h2 hw q (by linarith) h1
  have hn : (0 : ℚ) < ((data.length - 1 : Nat) : ℚ) := by exact_mod_cast (show 0 < data.length - 1 by omega)
  have hlt : p * ((data.length - 1 : Nat) : ℚ) ≤ q * ((data.length - 1 : Nat) : ℚ) := mul_le_mul_of_nonneg_right hpq hn.le
  obtain ⟨x, hx⟩ : ∃ x, p * ((data.length - 1 : Nat) : ℚ) = x := ⟨_, rfl⟩
  obtain ⟨y, hy⟩ : ∃ y, q * ((data.length - 1 : Nat) : ℚ) = y := ⟨_, rfl⟩
  rw [hx] at hj0 hj1 ej hlt
  rw [hy] at hk0 hk1 ek hlt
  have sj := hs j (j + 1) (by omega) hj
  have sk := hs k (k + 1) (by omega) hk
  refine ⟨_, _, ej, ek, ?_, ?_, ?_⟩
  · unfold lerp
    rcases Nat.lt_trichotomy j k with h | h | h
    · have hle : at' data (j + 1) ≤ at' data k := hs _ _ h (by omega)
      have ha : at' data j + (at' data (j + 1) - at' data j) * (x - j) ≤ at' data (j + 1) := by nlinarith
      have hb : at' data k ≤ at' data k + (at' data (k + 1) - at' data k) * (y - k) := by nlinarith
      linarith
    · subst h
      nlinarith
    · -- then x = y = k + 1 = j
      have h3 : ((k + 1 : Nat) : ℚ) ≤ j := by exact_mod_cast h
      push_cast at h3
      have hxj : x = j := by linarith
      have hyk : y = k + 1 := by linarith
      have : at' data j = at' data (k + 1) := by
        have : ((k + 1 : Nat) : ℚ) = j := by push_cast; linarith
        have : k + 1 = j := by exact_mod_cast this
        rw [this]
      rw [hxj, hyk]
      nlinarith
  · have : at' data 0 ≤ at' data j := hs 0 j (by omega) (by omega)
    unfold lerp
    nlinarith
  · have : at' data (k + 1) ≤ at' data (data.length - 1) := hs _ _ (by omega) (by omega)
    unfold lerp
    nlinarith

end Tables
