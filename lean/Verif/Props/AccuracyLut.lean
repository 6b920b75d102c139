import Verif.Props.Accuracy
/-! # C141: how close a generated look-up table is to its function -/

namespace LookupTable
open Interp Interp.Spec

/-- **C141**: a table of n points generated from any function F of the range with |F''| at most M (each point computed within ε) is, for every argument in the range, within ε + M h^2 / 8 of F, h being the distance of the points; outside it is within ε of F at the nearer end. -/
theorem C141_accuracy (n : ℕ) (hn : 2 ≤ n) (hw : n ≤ 2 ^ 32) (min max : ℚ) (hmm : min < max) (f : ℚ → ℚ) (F F' F'' : ℝ → ℝ) (M ε : ℝ)
    (h1 : ∀ z ∈ Set.Icc (min : ℝ) max, HasDerivAt F (F' z) z) (h2 : ∀ z ∈ Set.Icc (min : ℝ) max, HasDerivAt F' (F'' z) z) (hM : ∀ z ∈ Set.Icc (min : ℝ) max, |F'' z| ≤ M)
    (hf : ∀ x : ℚ, min ≤ x → x ≤ max → |((f x : ℚ) : ℝ) - F x| ≤ ε) (v : ℚ) :
    ∃ r : ℚ, generateLookup n min max f v = .ok r ∧
      (min ≤ v → v ≤ max → |(r : ℝ) - F v| ≤ ε + M * (((max : ℝ) - min) / ((n : ℝ) - 1)) ^ 2 / 8) ∧
      (v ≤ min → |(r : ℝ) - F min| ≤ ε) ∧ (max ≤ v → |(r : ℝ) - F max| ≤ ε) := by
  have hlen : (create n min max f).length = n := by unfold create; simp
  have hd : (0 : ℚ) < max - min := by linarith
  have hn1 : (0 : ℚ) < (n : ℚ) - 1 := by
    have : (2 : ℚ) ≤ n := by exact_mod_cast hn
    linarith
  have hn1c : ((n - 1 : ℕ) : ℚ) = (n : ℚ) - 1 := by rw [Nat.cast_sub (by omega)]; norm_num
  have hat : ∀ i, i < n → at' (create n min max f) i = f (min + i * (max - min) / ((n : ℚ) - 1)) := by
    intro i hi
    unfold at' create
    rw [List.getD_eq_getElem?_getD, List.getElem?_map, List.getElem?_range hi]
    rfl
  have hgrid : ∀ i : ℕ, i < n → min ≤ min + i * (max - min) / ((n : ℚ) - 1) ∧ min + i * (max - min) / ((n : ℚ) - 1) ≤ max := by
    intro i hi
    have hi' : (i : ℚ) ≤ (n : ℚ) - 1 := by rw [← hn1c]; exact_mod_cast (show i ≤ n - 1 by omega)
    have h0 : 0 ≤ (i : ℚ) * (max - min) / ((n : ℚ) - 1) := by positivity
    have h3 : (i : ℚ) * (max - min) / ((n : ℚ) - 1) ≤ max - min := by rw [div_le_iff₀ hn1]; nlinarith
    constructor <;> linarith
  have entry : ∀ i : ℕ, i < n → |((at' (create n min max f) i : ℚ) : ℝ) - F ((min + i * (max - min) / ((n : ℚ) - 1) : ℚ) : ℝ)| ≤ ε := by
    intro i hi
    rw [hat i hi]
    exact hf _ (hgrid i hi).1 (hgrid i hi).2
  obtain ⟨r, hr⟩ := C102_defined (create n min max f) min max hmm (by rw [hlen]; exact hn) (by rw [hlen]; exact hw) v
  refine ⟨r, hr, ?_, ?_, ?_⟩
  · intro hlo hhi
    obtain ⟨k, hk0, hk1, hkl, -⟩ := find_cell (create n min max f) min max hmm (by rw [hlen]; exact hn) v hlo hhi
    have e := lookup_cell (create n min max f) min max hmm (by rw [hlen]; exact hw) v k hk0 hk1 hkl
    rw [hr] at e
    injection e with e
    rw [hlen] at hk0 hk1 hkl e
    obtain ⟨x, hx⟩ : ∃ x, pos n min max v = x := ⟨_, rfl⟩
    have hv := (pos_grid n min max hmm v x hn).mp hx
    rw [hn1c] at hv
    rw [hx] at hk0 hk1 e
    have ea := entry k (by omega)
    have eb := entry (k + 1) hkl
    have ga := hgrid k (by omega)
    have gb := hgrid (k + 1) hkl
    obtain ⟨a, ha⟩ : ∃ a : ℚ, a = min + k * (max - min) / ((n : ℚ) - 1) := ⟨_, rfl⟩
    obtain ⟨b, hb⟩ : ∃ b : ℚ, b = min + (k + 1 : ℕ) * (max - min) / ((n : ℚ) - 1) := ⟨_, rfl⟩
    rw [← ha] at ea ga
    rw [← hb] at eb gb
    have hba : b - a = (max - min) / ((n : ℚ) - 1) := by rw [ha, hb]; push_cast; ring
    have hab : a ≤ b := by
      have : 0 ≤ (max - min) / ((n : ℚ) - 1) := by positivity
      linarith
    have sub : ∀ z ∈ Set.Icc (a : ℝ) b, z ∈ Set.Icc (min : ℝ) max := by
      intro z hz
      have g1 : (min : ℝ) ≤ a := by exact_mod_cast ga.1
      have g2 : (b : ℝ) ≤ max := by exact_mod_cast gb.2
      exact ⟨g1.trans hz.1, hz.2.trans g2⟩
    have t0 : (0 : ℝ) ≤ ((x - k : ℚ) : ℝ) := by exact_mod_cast (by linarith : (0 : ℚ) ≤ x - k)
    have t1 : ((x - k : ℚ) : ℝ) ≤ 1 := by exact_mod_cast (by linarith : x - k ≤ (1 : ℚ))
    have c := Accuracy.lerp_close F F' F'' a b M ε _ (by exact_mod_cast hab) (fun z hz => h1 z (sub z hz)) (fun z hz => h2 z (sub z hz)) (fun z hz => hM z (sub z hz)) t0 t1 _ _ ea eb
    have hvab : v = a + (x - k) * (b - a) := by rw [hba, hv, ha]; ring
    have e2 : (a : ℝ) + ((x - k : ℚ) : ℝ) * ((b : ℝ) - a) = v := by rw [hvab]; push_cast; ring
    have e3 : (b : ℝ) - a = ((max : ℝ) - min) / ((n : ℝ) - 1) := by
      have := congrArg (fun q : ℚ => (q : ℝ)) hba
      push_cast at this
      exact this
    rw [e2, e3] at c
    rw [e]
    unfold lerp
    push_cast at c ⊢
    exact c
  · intro hv
    have e := (C102_clamps (create n min max f) min max hmm (by rw [hlen]; exact hn) v).1 hv
    rw [e] at hr
    cases hr
    have := entry 0 (by omega)
    simpa using this
  · intro hv
    have e := (C102_clamps (create n min max f) min max hmm (by rw [hlen]; exact hn) v).2 hv
    rw [e] at hr
    cases hr
    have := entry (n - 1) (by omega)
    rw [hlen]
    have e2 : min + ((n - 1 : ℕ) : ℚ) * (max - min) / ((n : ℚ) - 1) = max := by rw [hn1c]; field_simp; ring
    rw [e2] at this
    exact this

-- the table of squares of lookup_table.hh:76-81: M = 2, exact points
example (v : ℚ) (h0 : -1 / 5 ≤ v) (h1 : v ≤ 1 / 5) : ∃ r : ℚ, generateLookup 3 (-1 / 5) (1 / 5) (fun x => x * x) v = .ok r ∧ |(r : ℝ) - (v : ℝ) ^ 2| ≤ 1 / 100 := by
  obtain ⟨r, hr, hb, -⟩ := C141_accuracy 3 (by norm_num) (by norm_num) (-1 / 5) (1 / 5) (by norm_num) (fun x => x * x) (fun z => z ^ 2) (fun z => 2 * z) (fun _ => 2) 2 0
    (fun z _ => by simpa using hasDerivAt_pow 2 z) (fun z _ => by simpa using (hasDerivAt_id z).const_mul 2) (fun _ _ => by norm_num) (fun x _ _ => by push_cast; rw [sq, sub_self, abs_zero]) v
  refine ⟨r, hr, (hb h0 h1).trans ?_⟩
  push_cast; norm_num

end LookupTable
