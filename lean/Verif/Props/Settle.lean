import Verif.Props.FilterFloat
/-! # Property C226: filters settle on a constant input -/

namespace Filter
open Spec

/-! ## Moving average -/

theorem lastN_append (n : Nat) (xs : List Nat) (k : Nat) (b : Nat) (hk : k ≤ n) : lastN n (xs ++ List.replicate k b) = lastN (n - k) xs ++ List.replicate k b := by
  have e : List.replicate n 0 = List.replicate k 0 ++ List.replicate (n - k) (0 : Nat) := by rw [← List.replicate_add]; congr 1; omega
  unfold lastN
  rw [e, List.length_append, List.length_replicate, List.append_assoc, ← List.append_assoc (List.replicate (n - k) 0), ← List.append_assoc]
  rw [Nat.add_comm, ← List.drop_drop, List.append_assoc, List.drop_append_of_le_length (by simp), List.drop_replicate, Nat.sub_self]
  simp only [List.replicate_zero, List.nil_append]
  rw [List.drop_append_of_le_length (by simp)]

theorem sum_rep (k b : Nat) : (List.replicate k b).sum = k * b := by
  induction k with
  | zero => simp
  | succ k ih => rw [List.replicate_succ, List.sum_cons, ih, Nat.add_mul, Nat.one_mul, Nat.add_comm]

/-- **C226**: MovingAverage's answer to a step: `k` equal samples after any history count `k`-fold, so the output goes over linearly, and from the `size`-th on it is exactly the sample. -/
theorem C226_average_response (size bits : Nat) (hc : compiles true size bits = true) (xs : List Nat) (hx : ∀ x ∈ xs, x < 2 ^ bits) (b : Nat) (hb : b < 2 ^ bits) (k : Nat) :
    ∃ m vs, MovingAverage.run size (xs ++ List.replicate k b) (MovingAverage.init size) = .ok (m, vs) ∧
      (k ≤ size → m.val size = ((lastN (size - k) xs).sum + k * b) / size) ∧ (size ≤ k → m.val size = b) := by
  have h0 : 0 < size := by rw [(compiles_pow2 hc).1]; exact Nat.two_pow_pos _
  obtain ⟨m, vs, hr, -, hv⟩ := MovingAverage.C98_moving_average size bits hc (xs ++ List.replicate k b) (by
    intro x h
    rcases List.mem_append.mp h with h | h
    · exact hx x h
    · rw [List.eq_of_mem_replicate h]; exact hb)
  refine ⟨m, vs, hr, ?_, ?_⟩
  · intro hk
    rw [hv, lastN_append size xs k b hk, List.sum_append, sum_rep]
  · intro hk
    have e : xs ++ List.replicate k b = (xs ++ List.replicate (k - size) b) ++ List.replicate size b := by
      rw [List.append_assoc, ← List.replicate_add]; congr 2; omega
    rw [hv, e, lastN_append size _ size b (le_refl _), Nat.sub_self, List.sum_append, sum_rep]
    have : lastN 0 (xs ++ List.replicate (k - size) b) = [] := by
      rw [← List.length_eq_zero_iff, lastN_length]
    rw [this, List.sum_nil, Nat.zero_add, Nat.mul_div_cancel_left _ h0]

example := C226_average_response 8 12 (by decide +kernel) [4095, 17] (by decide +kernel) 100 (by decide +kernel) 5

/-- **C226**: one sample moves the output by no more than its distance from the samples in the window, divided by `size` and rounded up. -/
theorem C226_average_slew (size bits : Nat) (hc : compiles true size bits = true) (xs : List Nat) (hx : ∀ x ∈ xs, x < 2 ^ bits) (y : Nat) (hy : y < 2 ^ bits)
    (d : Nat) (hd : ∀ z ∈ lastN size xs, z ≤ y + d ∧ y ≤ z + d) :
    ∃ m vs m' vs', MovingAverage.run size xs (MovingAverage.init size) = .ok (m, vs) ∧ MovingAverage.run size (xs ++ [y]) (MovingAverage.init size) = .ok (m', vs') ∧
      m'.val size ≤ m.val size + (d + size - 1) / size ∧ m.val size ≤ m'.val size + (d + size - 1) / size := by
  have h0 : 0 < size := by rw [(compiles_pow2 hc).1]; exact Nat.two_pow_pos _
  obtain ⟨m, vs, hr, -, hv⟩ := MovingAverage.C98_moving_average size bits hc xs hx
  obtain ⟨m', vs', hr', -, hv'⟩ := MovingAverage.C98_moving_average size bits hc (xs ++ [y]) (by
    intro x h
    rcases List.mem_append.mp h with h | h
    · exact hx x h
    · rw [List.mem_singleton.mp h]; exact hy)
  refine ⟨m, vs, m', vs', hr, hr', ?_⟩
  rw [hv, hv', lastN_snoc size xs y h0]
  have hl := lastN_length size xs
  match hw : lastN size xs with
  | [] => rw [hw] at hl; simp at hl; omega
  | z :: w =>
    rw [hw] at hd
    obtain ⟨d1, d2⟩ := hd z (by simp)
    simp only [List.drop_succ_cons, List.drop_zero, List.sum_append, List.sum_cons, List.sum_nil, Nat.add_zero]
    have up : ∀ a b : Nat, b ≤ a + d → b / size ≤ a / size + (d + size - 1) / size := by
      intro a b h
      have h1 := Nat.div_add_mod a size
      have h2 := Nat.mod_lt a h0
      have h3 := Nat.div_add_mod (d + size - 1) size
      have h4 := Nat.mod_lt (d + size - 1) h0
      rw [← Nat.lt_succ_iff, Nat.div_lt_iff_lt_mul h0]
      have e : (a / size + (d + size - 1) / size).succ * size = size * (a / size) + size * ((d + size - 1) / size) + size := by
        rw [Nat.succ_eq_add_one, Nat.add_mul, Nat.add_mul, Nat.one_mul, Nat.mul_comm size, Nat.mul_comm size]
      rw [e]
      omega
    exact ⟨up _ _ (by omega), up _ _ (by omega)⟩

theorem sum_le_sum : ∀ (a b : List Nat), List.Forall₂ (· ≤ ·) a b → a.sum ≤ b.sum
  | _, _, .nil => le_refl _
  | _, _, .cons h t => by rw [List.sum_cons, List.sum_cons]; exact Nat.add_le_add h (sum_le_sum _ _ t)

/-- **C226**: larger samples never give a smaller average. -/
theorem C226_average_monotone (size bits : Nat) (hc : compiles true size bits = true) (xs ys : List Nat) (hy : ∀ y ∈ ys, y < 2 ^ bits) (hxy : List.Forall₂ (· ≤ ·) xs ys) :
    ∃ m vs m' vs', MovingAverage.run size xs (MovingAverage.init size) = .ok (m, vs) ∧ MovingAverage.run size ys (MovingAverage.init size) = .ok (m', vs') ∧ m.val size ≤ m'.val size := by
  have hl := hxy.length_eq
  have hx : ∀ x ∈ xs, x < 2 ^ bits := by
    clear hl
    induction hxy with
    | nil => intro x h; cases h
    | cons h t ih =>
      intro x hx
      rcases List.mem_cons.mp hx with rfl | hx
      · exact lt_of_le_of_lt h (hy _ (by simp))
      · exact ih (fun y h => hy y (by simp [h])) x hx
  obtain ⟨m, vs, hr, -, hv⟩ := MovingAverage.C98_moving_average size bits hc xs hx
  obtain ⟨m', vs', hr', -, hv'⟩ := MovingAverage.C98_moving_average size bits hc ys hy
  refine ⟨m, vs, m', vs', hr, hr', ?_⟩
  rw [hv, hv']
  refine Nat.div_le_div_right (sum_le_sum _ _ ?_)
  unfold lastN
  rw [hl]
  refine List.forall₂_drop _ (List.rel_append ?_ hxy)
  exact List.forall₂_same.mpr (fun _ _ => le_refl _)

example := C226_average_monotone 4 12 (by decide +kernel) [1, 2, 3] [1, 5, 3] (by decide +kernel) (by decide)

/-! ## Oversamplers -/

/-- The last block of a list that ends in `2 * size - 1` equal elements has only these. -/
theorem lastBlock_replicate {α : Type} (size : Nat) (h0 : 0 < size) (xs : List α) (b : α) (k : Nat) (hk : 2 * size - 1 ≤ k) : lastBlock size (xs ++ List.replicate k b) = List.replicate size b := by
  have hlen := lastBlock_length size h0 (xs ++ List.replicate k b) (by simp; omega)
  rw [List.eq_replicate_iff]
  refine ⟨hlen, ?_⟩
  intro y hy
  unfold lastBlock at hy
  have hy' := List.mem_of_mem_take hy
  have hn : xs.length ≤ ((xs ++ List.replicate k b).length / size - 1) * size := by
    rw [List.length_append, List.length_replicate]
    have h1 := Nat.div_add_mod (xs.length + k) size
    have h2 := Nat.mod_lt (xs.length + k) h0
    rw [Nat.sub_mul, Nat.one_mul, Nat.mul_comm]
    omega
  rw [List.drop_append, List.drop_eq_nil_of_le hn, List.nil_append, List.drop_replicate] at hy'
  exact List.eq_of_mem_replicate hy'

/-- **C226**: `2 * size - 1` equal samples after any history, and both oversamplers' output is exactly that sample, from then on. -/
theorem C226_oversampler (size bits : Nat) (hc : compiles true size bits = true) (xs : List Nat) (hx : ∀ x ∈ xs, x < 2 ^ bits) (b : Nat) (hb : b < 2 ^ bits) (k : Nat) (hk : 2 * size - 1 ≤ k) :
    ((xs ++ List.replicate k b).foldl (Oversampler.addVal size) Oversampler.init).val = b ∧ ((xs ++ List.replicate k b).foldl (Smooth.addVal size) Smooth.init).val = b := by
  have h0 : 0 < size := by rw [(compiles_pow2 hc).1]; exact Nat.two_pow_pos _
  have hall : ∀ x ∈ xs ++ List.replicate k b, x < 2 ^ bits := by
    intro x h
    rcases List.mem_append.mp h with h | h
    · exact hx x h
    · rw [List.eq_of_mem_replicate h]; exact hb
  have hl : ¬ (xs ++ List.replicate k b).length < size := by rw [List.length_append, List.length_replicate]; omega
  rw [C99_oversampler size bits hc _ hall, C99_smooth_pow2 size bits hc _ hall, if_neg hl, if_neg hl, lastBlock_replicate size h0 xs b k hk, sum_rep]
  refine ⟨Nat.mul_div_cancel_left _ h0, ?_⟩
  have : (size : ℚ) ≠ 0 := by exact_mod_cast h0.ne'
  push_cast
  field_simp

/-- **C226**: one sample fewer is not enough, for any size: a smaller sample that opened a block still shows. -/
theorem C226_oversampler_sharp (size bits : Nat) (hc : compiles true size bits = true) (a b : Nat) (hab : a < b) (hb : b < 2 ^ bits) :
    (([a] ++ List.replicate (2 * size - 2) b).foldl (Oversampler.addVal size) Oversampler.init).val < b := by
  have h0 : 0 < size := by rw [(compiles_pow2 hc).1]; exact Nat.two_pow_pos _
  rw [C99_oversampler size bits hc _ (by
    intro x h
    rcases List.mem_append.mp h with h | h
    · rw [List.mem_singleton.mp h]; omega
    · rw [List.eq_of_mem_replicate h]; exact hb)]
  have hl : ([a] ++ List.replicate (2 * size - 2) b).length = 2 * size - 1 := by simp; omega
  rw [hl, if_neg (by omega)]
  have hblock : lastBlock size ([a] ++ List.replicate (2 * size - 2) b) = a :: List.replicate (size - 1) b := by
    unfold lastBlock
    have hq : (2 * size - 1) / size = 1 := by
      rw [Nat.div_eq_iff h0]; omega
    rw [hl, hq, Nat.sub_self, Nat.zero_mul, List.drop_zero]
    obtain ⟨n, rfl⟩ : ∃ n, size = n + 1 := ⟨size - 1, by omega⟩
    rw [List.singleton_append, List.take_succ_cons, List.take_replicate, Nat.add_sub_cancel]
    congr 2; omega
  rw [hblock, List.sum_cons, sum_rep, Nat.div_lt_iff_lt_mul h0]
  obtain ⟨n, rfl⟩ : ∃ n, size = n + 1 := ⟨size - 1, by omega⟩
  rw [Nat.add_sub_cancel, Nat.mul_add, Nat.mul_one, Nat.mul_comm b]
  omega

example := C226_oversampler_sharp 16 12 (by decide +kernel) 7 4095 (by norm_num) (by norm_num)

/-! ## One-pole filters -/

/-- **C226**: on a constant input `x` at most `divisor` away, the quadratic filter approaches from its side without overshooting, and after n samples the remaining distance is at most divisor * e / (divisor + n * e), where e is the first distance. -/
theorem C226_quadratic (divisor : Nat) (hd : 0 < divisor) (s x : ℚ) (e : ℚ) (he : |x - s| = e) (hx : e ≤ divisor) (n : Nat) (t : ℚ) (ht : t = (List.replicate n x).foldl (onePole (quadratic divisor)) s) :
    (s ≤ x → s ≤ t ∧ t ≤ x) ∧ (x ≤ s → x ≤ t ∧ t ≤ s) ∧ |x - t| * (divisor + n * e) ≤ divisor * e := by
  have hD : (0 : ℚ) < divisor := by exact_mod_cast hd
  have he0 : 0 ≤ e := by rw [← he]; exact abs_nonneg _
  induction n generalizing t with
  | zero =>
    rw [List.replicate_zero, List.foldl_nil] at ht
    rw [ht]
    refine ⟨fun h => ⟨le_refl _, h⟩, fun h => ⟨h, le_refl _⟩, ?_⟩
    rw [he]; simp; linarith
  | succ n ih =>
    obtain ⟨r, hr⟩ : ∃ r, r = (List.replicate n x).foldl (onePole (quadratic divisor)) s := ⟨_, rfl⟩
    obtain ⟨a, b, c⟩ := ih r hr
    rw [List.replicate_succ', List.foldl_append, ← hr, List.foldl_cons, List.foldl_nil] at ht
    have hre : |x - r| ≤ e := by
      rcases le_total s x with h | h
      · obtain ⟨a1, a2⟩ := a h
        rw [← he, abs_of_nonneg (show 0 ≤ x - s by linarith), abs_of_nonneg (show 0 ≤ x - r by linarith)]; linarith
      · obtain ⟨b1, b2⟩ := b h
        rw [← he, abs_of_nonpos (show x - s ≤ 0 by linarith), abs_of_nonpos (show x - r ≤ 0 by linarith)]; linarith
    have hw0 := abs_nonneg (x - r)
    -- the distance w becomes w - w^2 / divisor
    have hdist : x - t = (x - r) * (1 - |x - r| / divisor) := by
      rw [ht]; unfold onePole quadratic; field_simp; ring
    have hw1 : |x - r| / divisor ≤ 1 := by rw [div_le_one hD]; linarith
    have hw2 : 0 ≤ |x - r| / divisor := by positivity
    have habs : |x - t| = |x - r| * (1 - |x - r| / divisor) := by
      rw [hdist, abs_mul, abs_of_nonneg (show 0 ≤ 1 - |x - r| / divisor by linarith)]
    refine ⟨?_, ?_, ?_⟩
    · intro h
      obtain ⟨a1, a2⟩ := a h
      have : 0 ≤ x - t := by rw [hdist]; exact mul_nonneg (by linarith) (by linarith)
      have : x - t ≤ x - r := by rw [hdist]; nlinarith
      constructor <;> linarith
    · intro h
      obtain ⟨b1, b2⟩ := b h
      have : x - t ≤ 0 := by rw [hdist]; exact mul_nonpos_of_nonpos_of_nonneg (by linarith) (by linarith)
      have : x - r ≤ x - t := by rw [hdist]; nlinarith
      constructor <;> linarith
    · rw [habs]
      obtain ⟨w, hw⟩ : ∃ w, |x - r| = w := ⟨_, rfl⟩
      rw [hw] at c hre hw0 hw1 hw2 ⊢
      have hn0 : (0 : ℚ) ≤ n := Nat.cast_nonneg _
      push_cast
      -- w (1 - w/D) (D + (n+1) e) <= D e
      have e1 : w * (1 - w / divisor) * (divisor + (n + 1) * e) = (w * (divisor + n * e)) * (1 - w / divisor) + w * e * (1 - w / divisor) := by ring
      have e2 : (w * (divisor + n * e)) * (1 - w / divisor) ≤ divisor * e * (1 - w / divisor) := mul_le_mul_of_nonneg_right c (by linarith)
      have e3 : divisor * e * (1 - w / divisor) = divisor * e - e * w := by field_simp
      have e4 : w * e * (1 - w / divisor) ≤ w * e := by
        have : 0 ≤ w * e * (w / divisor) := by positivity
        nlinarith
      rw [e1]
      linarith

example (t : ℚ) (ht : t = (List.replicate 1000 2000).foldl (onePole (quadratic 4096)) 0) := C226_quadratic 4096 (by norm_num) 0 2000 2000 (by norm_num) (by norm_num) 1000 t ht

/-- **C226**: but, started less than `divisor` away, it is never exactly there. -/
theorem C226_quadratic_never (divisor : Nat) (hd : 0 < divisor) (s x : ℚ) (h0 : x ≠ s) (hx : |x - s| < divisor) (n : Nat) : (List.replicate n x).foldl (onePole (quadratic divisor)) s ≠ x := by
  have hD : (0 : ℚ) < divisor := by exact_mod_cast hd
  have key : ∀ n, |x - (List.replicate n x).foldl (onePole (quadratic divisor)) s| < divisor ∧ x - (List.replicate n x).foldl (onePole (quadratic divisor)) s ≠ 0 := by
    intro n
    induction n with
    | zero => exact ⟨hx, sub_ne_zero.mpr h0⟩
    | succ n ih =>
      rw [List.replicate_succ', List.foldl_append, List.foldl_cons, List.foldl_nil]
      obtain ⟨r, hr⟩ : ∃ r, r = (List.replicate n x).foldl (onePole (quadratic divisor)) s := ⟨_, rfl⟩
      rw [← hr] at ih ⊢
      have hdist : x - onePole (quadratic divisor) r x = (x - r) * (1 - |x - r| / divisor) := by
        unfold onePole quadratic; field_simp; ring
      have hw1 : |x - r| / divisor < 1 := by rw [div_lt_one hD]; exact ih.1
      have hw2 : 0 ≤ |x - r| / divisor := by positivity
      rw [hdist]
      refine ⟨?_, mul_ne_zero ih.2 (by linarith)⟩
      rw [abs_mul, abs_of_nonneg (show 0 ≤ 1 - |x - r| / divisor by linarith)]
      nlinarith [abs_nonneg (x - r), ih.1]
  intro h
  exact (key n).2 (by rw [h]; ring)

example := C226_quadratic_never 4096 (by norm_num) 0 2000 (by norm_num) (by norm_num) 1000

/-- **C226**: the hysteresis filter stands still from the first sample of a constant input on, at the threshold's distance or less. -/
theorem C226_hysteresis (num div : Nat) (s x : ℚ) (n : Nat) (hn : 0 < n) :
    (List.replicate n x).foldl (onePole (hysteresis num div)) s = onePole (hysteresis num div) s x ∧ |x - onePole (hysteresis num div) s x| ≤ (num : ℚ) / div := by
  have h1 := (C100_hysteresis num div s x _ rfl _ rfl).1
  refine ⟨?_, h1⟩
  induction n with
  | zero => omega
  | succ n ih =>
    rw [List.replicate_succ', List.foldl_append, List.foldl_cons, List.foldl_nil]
    rcases Nat.eq_zero_or_pos n with rfl | hp
    · rfl
    · rw [ih hp]
      exact (C100_hysteresis num div _ x _ rfl _ rfl).2.2.1 h1

example := C226_hysteresis 1 100 0 (2000 : ℚ) 3 (by norm_num)

end Filter

namespace FilterFloat
open Flt Filter.Spec

/-- A step towards `x` on the grid of floats comes to a stop. -/
theorem comes_to_rest (step : ℚ → ℚ) (x B : ℚ) (hxF : F32 x) (hstep : ∀ s, F32 s → |x - s| ≤ B → Between s x (step s) ∧ F32 (step s)) :
    ∀ (k : Nat) (s : ℚ), F32 s → |x - s| ≤ B → |x - s| ≤ k / 2 ^ 149 → ∃ N, ∀ n, N ≤ n → step^[n] s = step^[N] s ∧ F32 (step^[N] s) ∧ |x - step^[N] s| ≤ |x - s| ∧ step (step^[N] s) = step^[N] s := by
  intro k
  induction k with
  | zero =>
    intro s hs hB hk
    have hk : |x - s| ≤ 0 := by simpa using hk
    have e : x = s := by have := abs_nonneg (x - s); have : |x - s| = 0 := by linarith
                         rw [abs_eq_zero] at this; linarith
    obtain ⟨b, -⟩ := hstep s hs hB
    have hfix : step s = s := by
      subst e; unfold Between at b; rw [min_self, max_self] at b; exact le_antisymm b.2 b.1
    refine ⟨0, fun n _ => ⟨?_, hs, le_refl _, hfix⟩⟩
    exact Function.iterate_fixed hfix n
  | succ k ih =>
    intro s hs hB hk
    obtain ⟨b, bF⟩ := hstep s hs hB
    by_cases hfix : step s = s
    · exact ⟨0, fun n _ => ⟨Function.iterate_fixed hfix n, hs, le_refl _, hfix⟩⟩
    · have hcl : |x - step s| ≤ |x - s| - 1 / 2 ^ 149 := by
        unfold Between at b
        rcases le_total s x with h | h
        · rw [min_eq_left h, max_eq_right h] at b
          have := sub_ge bF hs (lt_of_le_of_ne b.1 (Ne.symm hfix))
          rw [abs_of_nonneg (by linarith), abs_of_nonneg (by linarith)]; linarith
        · rw [min_eq_right h, max_eq_left h] at b
          have := sub_ge hs bF (lt_of_le_of_ne b.2 hfix)
          rw [abs_of_nonpos (by linarith), abs_of_nonpos (by linarith)]; linarith
      have hp : (0 : ℚ) < 1 / 2 ^ 149 := by norm_num
      have e : ((k + 1 : Nat) : ℚ) / 2 ^ 149 = k / 2 ^ 149 + 1 / 2 ^ 149 := by push_cast; ring
      rw [e] at hk
      obtain ⟨N, hN⟩ := ih (step s) bF (by linarith) (by linarith)
      refine ⟨N + 1, fun n hn => ?_⟩
      obtain ⟨m, rfl⟩ : ∃ m, n = m + 1 := ⟨n - 1, by omega⟩
      obtain ⟨a1, a2, a3, a4⟩ := hN m (by omega)
      rw [Function.iterate_succ_apply, Function.iterate_succ_apply]
      exact ⟨a1, a2, by linarith, a4⟩

theorem exists_units (d : ℚ) : ∃ k : Nat, d ≤ k / 2 ^ 149 := by
  obtain ⟨k, hk⟩ := exists_nat_ge (d * 2 ^ 149)
  refine ⟨k, ?_⟩
  rw [le_div_iff₀ (by norm_num)]; exact hk

theorem foldl_iterate (f : ℚ → ℚ → ℚ) (x s : ℚ) (n : Nat) : (List.replicate n x).foldl f s = (fun s => f s x)^[n] s := by
  induction n generalizing s with
  | zero => rfl
  | succ n ih => rw [List.replicate_succ, List.foldl_cons, Function.iterate_succ_apply, ih]

/-- `fact` from below. -/
theorem fact_ge (rnd : ℚ → ℚ) (h : Nearest rnd) (divisor : ℕ) (h1 : 1 ≤ divisor) (h2 : divisor < 2 ^ 24) : 1 - 1 / 2 ^ 24 ≤ rnd (1 / rnd divisor) * divisor := by
  have hF : F32 ((divisor : ℕ) : ℚ) := by
    have := f32_int divisor (by rw [abs_of_nonneg (by omega)]; exact_mod_cast h2)
    exact_mod_cast this
  rw [h.fix hF]
  have hv : (1 : ℚ) ≤ divisor := by exact_mod_cast h1
  have hv2 : (divisor : ℚ) < 2 ^ 24 := by exact_mod_cast h2
  have hp : (0 : ℚ) < divisor := by linarith
  have hpos : 0 ≤ 1 / (divisor : ℚ) := by positivity
  have hbig : (2 : ℚ) ^ (-126 : ℤ) ≤ |1 / (divisor : ℚ)| := by
    rw [abs_of_nonneg hpos]
    have : (2 : ℚ) ^ (-126 : ℤ) ≤ 1 / 2 ^ 24 := by norm_num
    have : (1 : ℚ) / 2 ^ 24 ≤ 1 / divisor := one_div_le_one_div_of_le hp hv2.le
    linarith
  have r := h.rel_normal _ hbig
  rw [abs_of_nonneg hpos, abs_le] at r
  have e : 1 / (divisor : ℚ) * divisor = 1 := by field_simp
  have := mul_le_mul_of_nonneg_right r.1 hp.le
  nlinarith

/-- The arithmetic: a chain of rounded operations from below. -/
theorem rest_arith (E d g q f D U c δ ε : ℚ) (hE : 0 ≤ E) (hd : 0 ≤ d) (hf0 : 0 ≤ f) (hf1 : f ≤ 1) (hD : 0 < D) (hc0 : 0 < c) (hc1 : c ≤ 1) (hδ : 0 ≤ δ) (hε : 0 ≤ ε) (hδU : 2 * δ ≤ U * ε)
    (d1 : E * c ≤ d) (g1 : d * d * c - δ ≤ g) (q1 : g * f * c - δ ≤ q) (hq : q ≤ U) (hfD : c ≤ f * D) (hc5 : 1 - 5 / 2 ^ 24 ≤ c * c * c * c * c) (hε2 : 1 + ε ≤ (1 + 1 / 2 ^ 21) * (1 - 5 / 2 ^ 24)) :
    E * E ≤ D * U * (1 + 1 / 2 ^ 21) := by
  have c3 : 0 ≤ c * c * c := by positivity
  have dd : E * E * (c * c) ≤ d * d := by
    have := mul_le_mul d1 d1 (mul_nonneg hE hc0.le) hd
    linarith
  have gg : E * E * (c * c * c) - δ ≤ g := by
    have := mul_le_mul_of_nonneg_right dd hc0.le
    linarith
  have gf : (E * E * (c * c * c) - δ) * f * c - δ ≤ U := by
    have := mul_le_mul_of_nonneg_right (mul_le_mul_of_nonneg_right gg hf0) hc0.le
    linarith
  have dfc : δ * f * c ≤ δ := by
    have : f * c ≤ 1 := by nlinarith
    have := mul_le_mul_of_nonneg_left this hδ
    linarith
  have b1 : E * E * (c * c * c) * f * c ≤ U + 2 * δ := by linarith
  have b2 : E * E * (c * c * c) * c * (f * D) ≤ (U + 2 * δ) * D := by
    have := mul_le_mul_of_nonneg_right b1 hD.le
    linarith
  have p : 0 ≤ E * E * (c * c * c) * c := by positivity
  have b3 : E * E * (c * c * c) * c * c ≤ (U + 2 * δ) * D := le_trans (mul_le_mul_of_nonneg_left hfD p) b2
  have hEE : 0 ≤ E * E := by positivity
  have b4 : E * E * (1 - 5 / 2 ^ 24) ≤ (U + 2 * δ) * D := by
    have := mul_le_mul_of_nonneg_left hc5 hEE
    linarith
  have hU : 0 ≤ U := by
    by_contra hn
    have : U * ε ≤ 0 := mul_nonpos_of_nonpos_of_nonneg (not_le.mp hn).le hε
    have : E * E * (1 - 5 / 2 ^ 24) < 0 := lt_of_le_of_lt b4 (mul_neg_of_neg_of_pos (by linarith [not_le.mp hn]) hD)
    have : 0 ≤ E * E * (1 - 5 / 2 ^ 24) := mul_nonneg hEE (by norm_num)
    linarith
  have b5 : (U + 2 * δ) * D ≤ U * D * (1 + ε) := by
    have := mul_le_mul_of_nonneg_right hδU hD.le
    linarith
  have hUD : 0 ≤ U * D := mul_nonneg hU hD.le
  have b6 := mul_le_mul_of_nonneg_left hε2 hUD
  have : E * E * (1 - 5 / 2 ^ 24) ≤ D * U * (1 + 1 / 2 ^ 21) * (1 - 5 / 2 ^ 24) := by linarith
  exact le_of_mul_le_mul_right this (by norm_num)

/-- Where the quadratic filter does not move any more, it is nearly there. -/
theorem rest_close (rnd : ℚ → ℚ) (h : Nearest rnd) (divisor : ℕ) (h1 : 1 ≤ divisor) (h2 : divisor < 2 ^ 24) (s x : ℚ) (hs : F32 s) (hx : F32 x) (m : ℤ) (hm : -100 ≤ m) (hsm : |s| < 2 ^ m)
    (hfix : onePole rnd (quadratic rnd divisor) s x = s) : (x - s) ^ 2 ≤ divisor * 2 ^ (m - 25) * (1 + 1 / 2 ^ 21) := by
  have hp : (0 : ℚ) < divisor := by exact_mod_cast h1
  have hv2 : (divisor : ℚ) < 2 ^ 24 := by exact_mod_cast h2
  obtain ⟨f, hf⟩ : ∃ f, rnd (1 / rnd divisor) = f := ⟨_, rfl⟩
  have hf1 := fact_ge rnd h divisor h1 h2
  have hf0 := (fact_le rnd h divisor h1 h2).1
  have hfle := (fact_le rnd h divisor h1 h2).2.1
  rw [hf] at hf1 hf0 hfle
  obtain ⟨d, hd⟩ : ∃ d, rnd (x - s) = d := ⟨_, rfl⟩
  obtain ⟨g, hg⟩ : ∃ g, rnd (|d| * d) = g := ⟨_, rfl⟩
  obtain ⟨q, hq⟩ : ∃ q, rnd (g * f) = q := ⟨_, rfl⟩
  have hfix' : rnd (s + q) = s := by
    rw [← hq, ← hg, ← hd, ← hf]; exact hfix
  -- the correction is below half a unit
  have hin : |s + q| ≤ 2 ^ m := by
    have hF : F32 ((2 : ℚ) ^ m) := f32_zpow m (by omega)
    rw [abs_lt] at hsm
    rw [abs_le]
    constructor
    · by_contra hc
      have := h.le (f32_neg hF) (not_le.mp hc).le
      linarith
    · by_contra hc
      have := h.ge hF (not_le.mp hc).le
      linarith
  have hq1 : |q| ≤ 2 ^ (m - 24) / 2 := by
    have := h.grid (s + q) (m - 24) (by omega) (by rw [show m - 24 + 24 = m by ring]; exact hin)
    rw [hfix', show s - (s + q) = -q by ring, abs_neg] at this
    exact this
  -- from below
  have d1 : |x - s| * (1 - 1 / 2 ^ 24) ≤ |d| := by
    have := h.sub_rel hx hs
    rw [hd] at this
    have t := abs_sub_abs_le_abs_sub (x - s) d
    rw [abs_sub_comm (x - s) d] at t
    linarith
  have g1 : |d| * |d| * (1 - 1 / 2 ^ 24) - 1 / 2 ^ 150 ≤ |g| := by
    have := h.rel (|d| * d)
    rw [hg, abs_mul, abs_abs] at this
    have t := abs_sub_abs_le_abs_sub (|d| * d) g
    rw [abs_sub_comm (|d| * d) g, abs_mul, abs_abs] at t
    linarith
  have q1 : |g| * f * (1 - 1 / 2 ^ 24) - 1 / 2 ^ 150 ≤ |q| := by
    have := h.rel (g * f)
    rw [hq, abs_mul, abs_of_nonneg hf0] at this
    have t := abs_sub_abs_le_abs_sub (g * f) q
    rw [abs_sub_comm (g * f) q, abs_mul, abs_of_nonneg hf0] at t
    linarith
  have hE2 : (x - s) ^ 2 = |x - s| * |x - s| := by rw [← sq_abs]; ring
  have hU : (2 : ℚ) ^ (m - 24) / 2 = 2 ^ (m - 25) := by
    rw [show m - 24 = m - 25 + 1 by ring, zpow_add₀ (by norm_num)]; norm_num
  have hUbig : 1 / 2 ^ 125 ≤ (2 : ℚ) ^ (m - 25) := by
    have : (2 : ℚ) ^ (-125 : ℤ) ≤ 2 ^ (m - 25) := zpow_le_zpow_right₀ (by norm_num) (by omega)
    have e : (2 : ℚ) ^ (-125 : ℤ) = 1 / 2 ^ 125 := by norm_num
    rw [e] at this; exact this
  rw [hU] at hq1
  rw [hE2]
  have n1 : (1 : ℚ) / 2 ^ 150 = 1 / 2 ^ 125 * (1 / 2 ^ 24) / 2 := by norm_num
  exact rest_arith _ _ _ _ f divisor _ (1 - 1 / 2 ^ 24) (1 / 2 ^ 150) (1 / 2 ^ 24) (abs_nonneg _) (abs_nonneg _) hf0 hfle hp (by norm_num) (by norm_num) (by norm_num) (by norm_num)
    (by rw [n1]; linarith) d1 g1 q1 hq1 (by linarith) (by norm_num) (by norm_num)

/-- **C226** (partial): in binary32 the quadratic filter, fed a constant float, comes to rest, between start and input; with all values below 2^m it rests where the square of the remaining distance is at most divisor * 2^(m - 25) (plus half a millionth of it). -/
theorem C226_quadratic_float_partial (rnd : ℚ → ℚ) (h : Nearest rnd) (divisor : ℕ) (h1 : 1 ≤ divisor) (h2 : divisor < 2 ^ 24) (s x : ℚ) (hs : F32 s) (hx : F32 x) (hd : |x - s| ≤ divisor * (1 - 1 / 2 ^ 20))
    (m : ℤ) (hm : -100 ≤ m) (hsm : |s| < 2 ^ m) (hxm : |x| < 2 ^ m) :
    ∃ N r, Between s x r ∧ (x - r) ^ 2 ≤ divisor * 2 ^ (m - 25) * (1 + 1 / 2 ^ 21) ∧ ∀ n, N ≤ n → (List.replicate n x).foldl (onePole rnd (quadratic rnd divisor)) s = r := by
  obtain ⟨k, hk⟩ := exists_units |x - s|
  obtain ⟨N, hN⟩ := comes_to_rest (fun s => onePole rnd (quadratic rnd divisor) s x) x (divisor * (1 - 1 / 2 ^ 20)) hx
    (fun s hs hB => C143_quadratic rnd h divisor h1 h2 s x hs hx hB) k s hs hd hk
  obtain ⟨-, rF, -, rfix⟩ := hN N (le_refl _)
  obtain ⟨r, hr⟩ : ∃ r, (fun s => onePole rnd (quadratic rnd divisor) s x)^[N] s = r := ⟨_, rfl⟩
  rw [hr] at rF rfix
  have hb : Between s x r := by
    have := (C143_stays rnd h (min s x) (max s x) s hs ⟨min_le_left _ _, le_max_left _ _⟩ (List.replicate N x) (fun y hy => by
      rw [List.eq_of_mem_replicate hy]; exact ⟨hx, min_le_right _ _, le_max_right _ _⟩)).1 divisor h1 h2 (by
      rcases le_total s x with hh | hh
      · rw [min_eq_left hh, max_eq_right hh]; rw [abs_of_nonneg (by linarith)] at hd; exact hd
      · rw [min_eq_right hh, max_eq_left hh]; rw [abs_of_nonpos (by linarith)] at hd; linarith)
    rw [foldl_iterate, hr] at this
    exact this
  refine ⟨N, r, hb, rest_close rnd h divisor h1 h2 r x rF hx m hm ?_ rfix, fun n hn => by rw [foldl_iterate, (hN n hn).1, hr]⟩
  rw [abs_lt] at *
  unfold Between at hb
  exact ⟨lt_of_lt_of_le (lt_min hsm.1 hxm.1) hb.1, lt_of_le_of_lt hb.2 (max_lt hsm.2 hxm.2)⟩

/-- **C226** (partial): in binary32 the hysteresis filter, fed a constant float, comes to rest within its dead zone of the input, up to rounding. -/
theorem C226_hysteresis_float_partial (rnd : ℚ → ℚ) (h : Nearest rnd) (num div : ℕ) (s x : ℚ) (hs : F32 s) (hx : F32 x) (t : ℚ) (ht : t = flat rnd num div) (hd : |x - s| ≤ 2 ^ 22 * t) :
    ∃ N r, |x - r| ≤ t + (|x - r| / 2 ^ 22 + |x| / 2 ^ 23) ∧ ∀ n, N ≤ n → (List.replicate n x).foldl (onePole rnd (hysteresis rnd num div)) s = r := by
  obtain ⟨k, hk⟩ := exists_units |x - s|
  obtain ⟨N, hN⟩ := comes_to_rest (fun s => onePole rnd (hysteresis rnd num div) s x) x (2 ^ 22 * t) hx
    (fun s hs hB => by
      obtain ⟨a, -, -, b⟩ := C143_hysteresis rnd h num div s x hs hx t ht hB _ rfl
      exact ⟨a, b⟩) k s hs hd hk
  obtain ⟨-, rF, rcl, rfix⟩ := hN N (le_refl _)
  obtain ⟨r, hr⟩ : ∃ r, (fun s => onePole rnd (hysteresis rnd num div) s x)^[N] s = r := ⟨_, rfl⟩
  rw [hr] at rF rfix rcl
  refine ⟨N, r, ?_, fun n hn => by rw [foldl_iterate, (hN n hn).1, hr]⟩
  exact (C143_hysteresis rnd h num div r x rF hx t ht (by linarith) r rfix.symm).2.2.1

/-- **C226** violated: in binary32 the quadratic filter with divisor 4096 at 2048, fed 2048.5, never moves. -/
theorem C226_quadratic_float_violated (rnd : ℚ → ℚ) (h : Nearest rnd) (n : Nat) : (List.replicate n (4097 / 2)).foldl (onePole rnd (quadratic rnd 4096)) 2048 = 2048 := by
  have hfix : onePole rnd (quadratic rnd 4096) 2048 (4097 / 2) = 2048 := by
    unfold onePole quadratic
    have f1 : rnd ((4096 : Nat) : ℚ) = 4096 := by
      have := h.fix (f32_int 4096 (by norm_num)); exact_mod_cast this
    have f2 : rnd (1 / 4096) = 1 / 4096 := by
      have := h.fix (f32_div 1 (by norm_num) 12 (by norm_num)); norm_num at this ⊢; exact this
    have f3 : rnd (4097 / 2 - 2048) = 1 / 2 := by
      have := h.fix (f32_div 1 (by norm_num) 1 (by norm_num)); norm_num at this ⊢; exact this
    have f4 : rnd (|(1 / 2 : ℚ)| * (1 / 2)) = 1 / 4 := by
      have := h.fix (f32_div 1 (by norm_num) 2 (by norm_num))
      rw [abs_of_nonneg (by norm_num)]; norm_num at this ⊢; exact this
    have f5 : rnd (1 / 4 * (1 / 4096)) = 1 / 16384 := by
      have := h.fix (f32_div 1 (by norm_num) 14 (by norm_num)); norm_num at this ⊢; exact this
    simp only [f1, f2, f3, f4, f5]
    have := h.eq_of_close (2048 + 1 / 16384) (2 ^ 23) (-12) (by norm_num) (by norm_num) (by rw [abs_of_nonneg (by norm_num)]; norm_num) (by norm_num [abs_lt])
    norm_num at this ⊢
    exact this
  rw [foldl_iterate]
  exact Function.iterate_fixed hfix n

example (rnd : ℚ → ℚ) (h : Nearest rnd) := C226_quadratic_float_partial rnd h 4096 (by norm_num) (by norm_num) 0 2000 f32_zero (by simpa using f32_int 2000 (by norm_num)) (by norm_num [abs_le]) 12 (by norm_num) (by norm_num) (by norm_num)

end FilterFloat
