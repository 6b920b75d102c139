import Verif.Model.ByteSelf
/-! # Property C240: a ByteBlock that prints its own bytes -/

namespace ByteSelf

/-- With room for all but the last byte. -/
theorem fits (grow : Nat → Nat) : ∀ (size : Nat) (data : List Nat) (cap k : Nat), k < data.length → data.length ≤ cap → (size = 0 ∨ data.length + size ≤ cap + 1) →
    ∃ r c, printRaw grow data cap (some k) size = .ok (r, c) ∧ r.length = data.length + size ∧ r.take data.length = data ∧ ∀ j < size, r[data.length + j]? = r[k + j]? := by
  intro size
  induction size with
  | zero => intro data cap k _ _ _; exact ⟨data, cap, rfl, rfl, List.take_length, fun j hj => absurd hj (Nat.not_lt_zero _)⟩
  | succ size ih =>
    intro data cap k hk hc hs
    have hs : data.length + size ≤ cap := by omega
    have hget : arrGet data k = .ok data[k] := arrGet_lt hk
    by_cases hfull : data.length < cap
    · obtain ⟨r, c, h1, h2, h3, h4⟩ := ih (data ++ [data[k]]) cap (k + 1) (by simp; omega) (by simp; omega) (by simp; omega)
      rw [List.length_append, List.length_singleton] at h2 h3 h4
      refine ⟨r, c, ?_, by omega, ?_, ?_⟩
      · rw [printRaw]; simp only [hget, R.bind_ok]; rw [if_pos hfull]; exact h1
      · have := congrArg (List.take data.length) h3
        rw [List.take_take, Nat.min_eq_left (by omega)] at this
        rw [this, List.take_left]
      · intro j hj
        cases j with
        | zero =>
          have e1 : r[data.length]? = (r.take (data.length + 1))[data.length]? := (List.getElem?_take_of_lt (by omega)).symm
          have e2 : r[k]? = (r.take (data.length + 1))[k]? := (List.getElem?_take_of_lt (by omega)).symm
          rw [Nat.add_zero, Nat.add_zero, e1, e2, h3, List.getElem?_append_left hk, List.getElem?_append_right (Nat.le_refl _)]
          simp [hk]
        | succ j =>
          have := h4 j (by omega)
          rwa [show data.length + 1 + j = data.length + (j + 1) by omega, show k + 1 + j = k + (j + 1) by omega] at this
    · have h0 : size = 0 := by omega
      subst h0
      refine ⟨data ++ [data[k]], grow data.length, ?_, by simp, List.take_left, ?_⟩
      · rw [printRaw]; simp only [hget, R.bind_ok]; rw [if_neg hfull]; rfl
      · intro j hj
        have : j = 0 := by omega
        subst this
        rw [Nat.add_zero, Nat.add_zero, List.getElem?_append_left hk, List.getElem?_append_right (Nat.le_refl _)]
        simp [hk]

/-- With less room than that. -/
theorem moved (grow : Nat → Nat) : ∀ (size : Nat) (data : List Nat) (cap k : Nat), k < data.length → data.length ≤ cap → cap + 1 < data.length + size → printRaw grow data cap (some k) size = .ub := by
  intro size
  induction size with
  | zero => intro data cap k _ h1 h2; omega
  | succ size ih =>
    intro data cap k hk hc hs
    have hget : arrGet data k = .ok data[k] := arrGet_lt hk
    rw [printRaw]; simp only [hget, R.bind_ok]
    by_cases hfull : data.length < cap
    · rw [if_pos hfull]
      exact ih _ cap (k + 1) (by simp; omega) (by simp; omega) (by simp; omega)
    · rw [if_neg hfull]
      obtain ⟨n, rfl⟩ : ∃ n, size = n + 1 := ⟨size - 1, by omega⟩
      rfl

/-- **C240** (partial: if there is room). printRaw of `size` bytes from position k of the block itself, whatever the library does when the vector is full, is defined exactly if the vector has room for all but the last of them; then the block keeps its
bytes, and the j-th new byte is the one at k + j (which may be one of the new ones). -/
theorem C240_exact_partial (grow : Nat → Nat) (data : List Nat) (cap k size : Nat) (hk : k < data.length) (hc : data.length ≤ cap) :
    ((∃ r, printRaw grow data cap (some k) size = .ok r) ↔ size = 0 ∨ data.length + size ≤ cap + 1) ∧
    ∀ r, printRaw grow data cap (some k) size = .ok r → r.1.length = data.length + size ∧ r.1.take data.length = data ∧ ∀ j < size, r.1[data.length + j]? = r.1[k + j]? := by
  by_cases h : size = 0 ∨ data.length + size ≤ cap + 1
  · obtain ⟨r, c, h1, h2⟩ := fits grow size data cap k hk hc h
    refine ⟨⟨fun _ => h, fun _ => ⟨_, h1⟩⟩, fun r' hr => ?_⟩
    rw [h1] at hr
    cases hr
    exact h2
  · have hub := moved grow size data cap k hk hc (by omega)
    exact ⟨⟨fun ⟨r, hr⟩ => (by rw [hub] at hr; cases hr), fun h' => absurd h' h⟩, fun r hr => (by rw [hub] at hr; cases hr)⟩

/-- **C240**: so with enough room, printing bytes that are in the block appends a copy of them. -/
theorem C240_copy (grow : Nat → Nat) (data : List Nat) (cap k size : Nat) (hk : k < data.length) (hs : k + size ≤ data.length) (hc : data.length + size ≤ cap) :
    ∃ c, printRaw grow data cap (some k) size = .ok (data ++ (data.drop k).take size, c) := by
  obtain ⟨r, c, h1, h2, h3, h4⟩ := fits grow size data cap k hk (by omega) (Or.inr (by omega))
  refine ⟨c, ?_⟩
  rw [h1]
  congr 2
  rw [← List.take_append_drop data.length r, h3]
  congr 1
  apply List.ext_getElem?
  intro j
  rw [List.getElem?_drop]
  by_cases hj : j < size
  · rw [h4 j hj, List.getElem?_take_of_lt hj, List.getElem?_drop]
    have : r[k + j]? = (r.take data.length)[k + j]? := (List.getElem?_take_of_lt (by omega)).symm
    rw [this, h3]
  · rw [List.getElem?_eq_none (by omega), List.getElem?_eq_none (by simp; omega)]

/-- **C240** violated: every full block of at least two bytes is undefined when asked to print itself, whatever memory the library takes. -/
theorem C240_full_violated (grow : Nat → Nat) (data : List Nat) (h : 2 ≤ data.length) : printRaw grow data data.length (some 0) data.length = .ub :=
  moved grow _ data _ 0 (by omega) (Nat.le_refl _) (by omega)

example : printRaw (2 * ·) [1, 2, 3] 8 (some 1) 2 = .ok ([1, 2, 3, 2, 3], 8) ∧ printRaw (2 * ·) [1, 2, 3] 8 (some 2) 4 = .ok ([1, 2, 3, 3, 3, 3, 3], 8) ∧ printRaw (2 * ·) [1, 2, 3] 4 (some 0) 2 = .ok ([1, 2, 3, 1, 2], 8) ∧
    printRaw (2 * ·) [1, 2, 3] 4 (some 0) 3 = .ub := by decide
example := C240_exact_partial (2 * ·) [1, 2, 3] 4 0 2 (by decide) (by decide)
example := C240_copy (2 * ·) [1, 2, 3] 6 0 3 (by decide) (by decide) (by decide)
example := C240_full_violated (2 * ·) [1, 2, 3] (by decide)

end ByteSelf
