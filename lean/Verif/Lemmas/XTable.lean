import Verif.Model.XTable
import Verif.Props.ExpFloat
/-! # Lemmas for C192: table look-ups of finite floats are those of the models without infinities -/
namespace XTable
open XFlt Flt MathTables MathFns Tables

theorem arrGet_map {α β : Type} (f : α → β) (l : List α) (i : Nat) : arrGet (l.map f) i = f <$> arrGet l i := by
  unfold arrGet
  rw [List.getElem?_map]
  cases l[i]? <;> rfl

theorem toUnsigned_fin (x : ℚ) : toUnsigned 32 (.fin x) = Color.trunc 4294967296 x := by
  unfold toUnsigned Color.trunc
  norm_num

theorem trunc_lt {n : Nat} {x : ℚ} {k : Nat} (h : Color.trunc n x = .ok k) : -1 < x ∧ x < n ∧ (k : ℚ) ≤ max x 0 ∧ x < k + 1 := by
  unfold Color.trunc at h
  split at h
  · next hc =>
    injection h with h
    refine ⟨hc.1, hc.2, ?_, ?_⟩
    · rw [← h]
      by_cases h0 : 0 ≤ x
      · have e : (⌊x⌋.toNat : ℚ) = (⌊x⌋ : ℚ) := by exact_mod_cast Int.toNat_of_nonneg (Int.floor_nonneg.mpr h0)
        rw [e]
        exact le_max_of_le_left (Int.floor_le x)
      · have : ⌊x⌋.toNat = 0 := Int.toNat_eq_zero.mpr (by
          have : ⌊x⌋ < 0 := Int.floor_lt.mpr (by push_cast; linarith)
          omega)
        rw [this]
        exact le_max_of_le_right (by simp)
    · rw [← h]
      have e : (⌊x⌋ : ℚ) ≤ (⌊x⌋.toNat : ℚ) := by exact_mod_cast Int.self_le_toNat _
      linarith [Int.lt_floor_add_one x]
  · cases h

theorem getAll {data : List ℚ} {P : ℚ → Prop} (h : ∀ p ∈ data, P p) {i : Nat} {d : ℚ} (hi : arrGet data i = .ok d) : P d := by
  rw [arrGet_eq_ok] at hi
  exact h d (List.mem_of_getElem? hi)

/-- Blending finite elements. -/
theorem blend_fin {rnd : ℚ → ℚ} (hr : Nearest rnd) (data : List ℚ) (hd : ∀ p ∈ data, |p| ≤ 2 ^ 90) (i : Nat) (t : ℚ) (ht : |t| ≤ 2 ^ 33) :
    blend rnd (tab data) i (.fin t) = .fin <$> InterpFloat.blend rnd data i t := by
  unfold blend InterpFloat.blend tab
  rw [List.length_map]
  simp only [arrGet_map]
  cases h1 : arrGet data (if i = data.length - 1 then 0 else i + 1) with
  | ub => rfl
  | ok d1 =>
    cases h0 : arrGet data i with
    | ub => rfl
    | ok d0 =>
      simp only [R.map_ok, R.bind_ok, sub_fin]
      have b1 := getAll (P := fun p => |p| ≤ 2 ^ 90) hd h1
      have b0 := getAll (P := fun p => |p| ≤ 2 ^ 90) hd h0
      obtain ⟨e1, c1⟩ := fin_of_le hr 34 (by norm_num) (q := 1 - t) (by
        have := abs_sub 1 t
        rw [abs_one] at this
        have e : (2 : ℚ) ^ 34 = 2 ^ 33 + 2 ^ 33 := by norm_num
        have : (1 : ℚ) ≤ 2 ^ 33 := by norm_num
        linarith)
      rw [e1]
      simp only [mul]
      obtain ⟨e2, c2⟩ := fin_of_le hr 123 (by norm_num) (q := d1 * t) (by
        rw [abs_mul]
        calc |d1| * |t| ≤ 2 ^ 90 * 2 ^ 33 := mul_le_mul b1 ht (abs_nonneg _) (by norm_num)
          _ = 2 ^ 123 := by norm_num)
      obtain ⟨e3, c3⟩ := fin_of_le hr 124 (by norm_num) (q := d0 * rnd (1 - t)) (by
        rw [abs_mul]
        calc |d0| * |rnd (1 - t)| ≤ 2 ^ 90 * 2 ^ 34 := mul_le_mul b0 c1 (abs_nonneg _) (by norm_num)
          _ = 2 ^ 124 := by norm_num)
      rw [e2, e3]
      simp only [add]
      rw [(fin_of_le hr 125 (by norm_num) (q := rnd (d1 * t) + rnd (d0 * rnd (1 - t))) (by
        have := abs_add_le (rnd (d1 * t)) (rnd (d0 * rnd (1 - t)))
        have e : (2 : ℚ) ^ 125 = 2 ^ 124 + 2 ^ 124 := by norm_num
        have : (2 : ℚ) ^ 123 ≤ 2 ^ 124 := by norm_num
        linarith)).1]

/-- The phase of an index. -/
theorem phase_fin {rnd : ℚ → ℚ} (hr : Nearest rnd) {x : ℚ} {k : Nat} (h : Color.trunc 4294967296 x = .ok k) :
    sub rnd (.fin x) (ofQ rnd k) = .fin (rnd (x - rnd k)) ∧ |rnd (x - rnd k)| ≤ 2 ^ 33 := by
  obtain ⟨h1, h2, h3, h4⟩ := trunc_lt h
  have hk : (k : ℚ) ≤ 2 ^ 32 := le_trans h3 (max_le (by push_cast at h2; norm_num; linarith) (by norm_num))
  have hk0 : (0 : ℚ) ≤ k := Nat.cast_nonneg _
  obtain ⟨e1, c1⟩ := fin_of_le hr 32 (by norm_num) (q := (k : ℚ)) (by rw [abs_of_nonneg hk0]; exact hk)
  rw [e1, sub_fin]
  apply fin_of_le hr 33 (by norm_num)
  have := abs_sub x (rnd k)
  have hx : |x| ≤ 2 ^ 32 := abs_le.mpr ⟨by norm_num; linarith, by push_cast at h2; norm_num; linarith⟩
  have e : (2 : ℚ) ^ 33 = 2 ^ 32 + 2 ^ 32 := by norm_num
  linarith

theorem byIndexWrap_fin {rnd : ℚ → ℚ} (hr : Nearest rnd) (data : List ℚ) (hd : ∀ p ∈ data, |p| ≤ 2 ^ 90) (x : ℚ) :
    interpByIndexWrap rnd (tab data) (.fin x) = .fin <$> InterpFloat.interpByIndexWrap rnd data x := by
  unfold interpByIndexWrap InterpFloat.interpByIndexWrap
  rw [toUnsigned_fin]
  cases h : Color.trunc 4294967296 x with
  | ub => rfl
  | ok k =>
    obtain ⟨e, c⟩ := phase_fin hr h
    simp only [R.bind_ok]
    rw [e, blend_fin hr data hd _ _ c]
    unfold tab
    rw [List.length_map]

theorem byIndex_fin {rnd : ℚ → ℚ} (hr : Nearest rnd) (data : List ℚ) (hd : ∀ p ∈ data, |p| ≤ 2 ^ 90) (x : ℚ) :
    interpByIndex rnd (tab data) (.fin x) = .fin <$> InterpFloat.interpByIndex rnd data x := by
  unfold interpByIndex InterpFloat.interpByIndex
  rw [toUnsigned_fin]
  cases h : Color.trunc 4294967296 x with
  | ub => rfl
  | ok k =>
    obtain ⟨e, c⟩ := phase_fin hr h
    simp only [R.bind_ok]
    rw [e, blend_fin hr data hd _ _ c]

/-- A product of floats, as an index: infinite products and products that would be infinite convert to no index. -/
theorem index_cases {rnd : ℚ → ℚ} (q : ℚ) : ofQ rnd q = .fin (rnd q) ∨ (∃ b, ofQ rnd q = .inf b) ∧ Color.trunc 4294967296 (rnd q) = .ub := by
  unfold ofQ
  split
  · next h =>
    refine Or.inr ⟨⟨_, rfl⟩, ?_⟩
    unfold Color.trunc
    rw [if_neg]
    rintro ⟨_, h2⟩
    unfold big at h
    norm_num at h h2
    linarith
  · split
    · next h =>
      refine Or.inr ⟨⟨_, rfl⟩, ?_⟩
      unfold Color.trunc
      rw [if_neg]
      rintro ⟨h2, _⟩
      unfold big at h
      norm_num at h h2
      linarith
    · exact Or.inl rfl

theorem size_fin {rnd : ℚ → ℚ} (hr : Nearest rnd) (n : Nat) (hn : n < 2 ^ 32) : ofQ rnd n = .fin (rnd n) :=
  (fin_of_le hr 32 (by norm_num) (by rw [abs_of_nonneg (Nat.cast_nonneg _)]; exact_mod_cast hn.le)).1

theorem interpWrap_fin {rnd : ℚ → ℚ} (hr : Nearest rnd) (data : List ℚ) (hd : ∀ p ∈ data, |p| ≤ 2 ^ 90) (hn : data.length < 2 ^ 32) (x : ℚ) :
    interpWrap rnd (tab data) (.fin x) = .fin <$> InterpFloat.interpWrap rnd data x := by
  unfold interpWrap InterpFloat.interpWrap
  rw [tab, List.length_map, size_fin hr _ hn]
  simp only [mul]
  rcases index_cases (rnd := rnd) (x * rnd data.length) with h | ⟨⟨b, h⟩, h2⟩
  · rw [h]; exact byIndexWrap_fin hr data hd _
  · rw [h]
    unfold interpByIndexWrap InterpFloat.interpByIndexWrap
    rw [h2]; rfl

theorem interp_fin {rnd : ℚ → ℚ} (hr : Nearest rnd) (data : List ℚ) (hd : ∀ p ∈ data, |p| ≤ 2 ^ 90) (hn : data.length < 2 ^ 32) (x : ℚ) :
    interp rnd (tab data) (.fin x) = .fin <$> InterpFloat.interp rnd data x := by
  unfold interp InterpFloat.interp
  rw [tab, List.length_map, size_fin hr (data.length - 1) (by omega)]
  simp only [mul]
  rcases index_cases (rnd := rnd) (x * rnd ((data.length - 1 : Nat) : ℚ)) with h | ⟨⟨b, h⟩, h2⟩
  · rw [h]; exact byIndex_fin hr data hd _
  · rw [h]
    unfold interpByIndex InterpFloat.interpByIndex
    rw [h2]; rfl

theorem closestWrap_fin {rnd : ℚ → ℚ} (hr : Nearest rnd) (data : List ℚ) (hn : data.length < 2 ^ 32) (x : ℚ) :
    closestWrap rnd (tab data) (.fin x) = .fin <$> InterpFloat.closestWrap rnd data x := by
  unfold closestWrap InterpFloat.closestWrap
  rw [tab, List.length_map, size_fin hr _ hn]
  simp only [mul]
  rcases index_cases (rnd := rnd) (x * rnd data.length) with h | ⟨⟨b, h⟩, h2⟩
  · rw [h, toUnsigned_fin]
    cases Color.trunc 4294967296 (rnd (x * rnd data.length)) with
    | ub => rfl
    | ok k => simp only [R.bind_ok, arrGet_map]
  · rw [h, h2]; rfl

theorem closest_fin {rnd : ℚ → ℚ} (hr : Nearest rnd) (data : List ℚ) (hn : data.length < 2 ^ 32) (x : ℚ) :
    closest rnd (tab data) (.fin x) = .fin <$> InterpFloat.closest rnd data x := by
  unfold closest InterpFloat.closest
  rw [tab, List.length_map, size_fin hr (data.length - 1) (by omega)]
  simp only [mul]
  rcases index_cases (rnd := rnd) (x * rnd ((data.length - 1 : Nat) : ℚ)) with h | ⟨⟨b, h⟩, h2⟩
  · rw [h, toUnsigned_fin]
    cases Color.trunc 4294967296 (rnd (x * rnd ((data.length - 1 : Nat) : ℚ))) with
    | ub => rfl
    | ok k => simp only [R.bind_ok, arrGet_map]
  · rw [h, h2]; rfl

/-- NaN and the infinities times a size are NaN or infinite, and convert to no index. -/
theorem special_index {rnd : ℚ → ℚ} (hr : Nearest rnd) (n : Nat) (hn : n < 2 ^ 32) (p : XF) (hp : ¬ Fin p) : toUnsigned 32 (mul rnd p (ofQ rnd n)) = .ub := by
  rw [size_fin hr n hn]
  cases p with
  | fin x => exact absurd trivial hp
  | nan => rfl
  | inf b =>
    simp only [mul]
    split <;> rfl

theorem special {rnd : ℚ → ℚ} (hr : Nearest rnd) (data : List XF) (hn : data.length < 2 ^ 32) (p : XF) (hp : ¬ Fin p) :
    interp rnd data p = .ub ∧ interpWrap rnd data p = .ub ∧ closest rnd data p = .ub ∧ closestWrap rnd data p = .ub := by
  have h1 := special_index hr data.length hn p hp
  have h2 := special_index hr (data.length - 1) (by omega) p hp
  unfold interp interpWrap closest closestWrap interpByIndex interpByIndexWrap
  rw [h1, h2]
  exact ⟨rfl, rfl, rfl, rfl⟩

/-- Tables of literals below 10^20 millionths stay below 2^90 when rounded. -/
theorem tab_bound {rnd : ℚ → ℚ} (hr : Nearest rnd) (d : List Int) (h : d.all (fun a => decide (-(10 ^ 20 : Int) ≤ a ∧ a ≤ 10 ^ 20)) = true) :
    ∀ p ∈ (MathTables.tab d).map rnd, |p| ≤ 2 ^ 90 := by
  intro p hp
  rw [List.mem_map] at hp
  obtain ⟨q, hq, rfl⟩ := hp
  unfold MathTables.tab at hq
  rw [List.mem_map] at hq
  obtain ⟨a, ha, rfl⟩ := hq
  rw [List.all_eq_true] at h
  have := h a ha
  rw [decide_eq_true_eq] at this
  obtain ⟨h1, h2⟩ := this
  have h1' : (-(10 ^ 20) : ℚ) ≤ a := by exact_mod_cast h1
  have h2' : (a : ℚ) ≤ 10 ^ 20 := by exact_mod_cast h2
  refine (fin_of_le hr 90 (by norm_num) (abs_le.mpr ⟨?_, ?_⟩)).2
  · norm_num at h1' ⊢; linarith
  · norm_num at h2' ⊢; linarith

theorem sin_small {rnd : ℚ → ℚ} (hr : Nearest rnd) : ∀ p ∈ ExpFloat.sinR rnd, |p| ≤ 2 ^ 90 := by
  unfold ExpFloat.sinR sinTable; exact tab_bound hr sinData (by decide +kernel)
theorem tan_small {rnd : ℚ → ℚ} (hr : Nearest rnd) : ∀ p ∈ ExpFloat.tanR rnd, |p| ≤ 2 ^ 90 := by
  unfold ExpFloat.tanR tanTable; exact tab_bound hr tanData (by decide +kernel)
theorem exp5_small {rnd : ℚ → ℚ} (hr : Nearest rnd) : ∀ p ∈ ExpFloat.exp5R rnd, |p| ≤ 2 ^ 90 := by
  unfold ExpFloat.exp5R exp5Table; exact tab_bound hr exp5Data (by decide +kernel)
theorem log_small {rnd : ℚ → ℚ} (hr : Nearest rnd) : ∀ p ∈ ExpFloat.logR rnd, |p| ≤ 2 ^ 90 := by
  unfold ExpFloat.logR logTable; exact tab_bound hr logData (by decide +kernel)

theorem sin_len' (rnd : ℚ → ℚ) : (ExpFloat.sinR rnd).length < 2 ^ 32 := by unfold ExpFloat.sinR; rw [List.length_map, sin_len]; norm_num
theorem tan_len' (rnd : ℚ → ℚ) : (ExpFloat.tanR rnd).length < 2 ^ 32 := by unfold ExpFloat.tanR; rw [List.length_map, tan_len]; norm_num
theorem exp5_len' (rnd : ℚ → ℚ) : (ExpFloat.exp5R rnd).length < 2 ^ 32 := by unfold ExpFloat.exp5R; rw [List.length_map, exp5_len]; norm_num
theorem log_len' (rnd : ℚ → ℚ) : (ExpFloat.logR rnd).length < 2 ^ 32 := by unfold ExpFloat.logR; rw [List.length_map, log_len]; norm_num

end XTable
