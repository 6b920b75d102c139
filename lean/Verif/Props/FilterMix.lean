import Verif.Model.FilterMix
import Verif.Props.Filter
import Verif.Lemmas.FltErr
/-! # Property C186: averages of float samples -/

namespace FilterMix
open Flt Filter.Spec

theorem rnd_nat {rnd : ℚ → ℚ} (h : Nearest rnd) (n : Nat) (hn : n ≤ 2 ^ 24) : rnd n = n := by
  apply h.fix
  have := f32_grid n 0 (by rw [abs_of_nonneg (by omega)]; exact_mod_cast hn) (by norm_num)
  simpa using this

theorem toU_nat (n : Nat) (hn : n < 4294967296) : toU n = .ok n := by
  unfold toU
  rw [if_pos ⟨by have : (0 : ℚ) ≤ n := by positivity
                 linarith, by exact_mod_cast hn⟩]
  simp

/-- The float class on whole samples and the integer class go through the same states. -/
def Same (m : Filter.MovingAverage) (mf : MovingAverage) : Prop := mf.sum = m.sum ∧ mf.buff = m.buff.map (fun n : Nat => (n : ℚ)) ∧ mf.idx = m.idx

theorem same_step {rnd : ℚ → ℚ} (h : Nearest rnd) (size bits : Nat) (hc : Filter.compiles true size bits = true) (hfit : size * 2 ^ bits ≤ 2 ^ 24)
    (m : Filter.MovingAverage) (mf : MovingAverage) (hs : Same m mf) (xs : List Nat) (x : Nat) (hm : Filter.MovingAverage.Inv size m xs)
    (hxs : ∀ y ∈ xs, y < 2 ^ bits) (hx : x < 2 ^ bits) :
    ∃ m' mf', mf.addVal rnd size x = .ok (mf', (((lastN size (xs ++ [x])).sum / size : Nat) : ℚ)) ∧ Same m' mf' ∧ Filter.MovingAverage.Inv size m' (xs ++ [x]) := by
  obtain ⟨hk, _⟩ := Filter.compiles_pow2 hc
  obtain ⟨m', e1, i1⟩ := Filter.MovingAverage.inv_step size bits hc m xs x hm hxs hx
  obtain ⟨h1, h2, h3, h4⟩ := hm
  obtain ⟨s1, s2, s3⟩ := hs
  have hlt : m.idx < m.buff.length := by omega
  have hltf : mf.idx < mf.buff.length := by rw [s2, s3]; simpa using hlt
  have hbound : ∀ ys : List Nat, (∀ y ∈ ys, y < 2 ^ bits) → (lastN size ys).sum ≤ 2 ^ 24 := by
    intro ys hys
    have := Filter.sum_le (lastN size ys) (2 ^ bits) (Filter.lastN_lt size ys _ (Nat.two_pow_pos _) hys)
    rw [Filter.lastN_length] at this
    omega
  have hold : m.buff[m.idx] ≤ m.sum := by
    rw [h4, ← h3, List.drop_eq_getElem_cons hlt]
    simp only [List.cons_append, List.sum_cons]
    omega
  have hsum := hbound xs hxs
  rw [← h4] at hsum
  have hnew := hbound (xs ++ [x]) (by
    intro y hy
    rcases List.mem_append.mp hy with h | h
    · exact hxs y h
    · rw [List.mem_singleton.mp h]; exact hx)
  have e2 : m'.sum = m.sum - m.buff[m.idx] + x := by
    have e1' := e1
    unfold Filter.MovingAverage.addVal at e1'
    rw [arrGet_lt hlt, R.bind_ok, arrSet_lt hlt, R.bind_ok] at e1'
    simp only [R.ok.injEq, Prod.mk.injEq] at e1'
    rw [← e1'.1]
    simp only
    have h24 : (2 : Nat) ^ 24 = 16777216 := by norm_num
    have hxx : x < 2 ^ 24 := by
      have h0 : 0 < size := by omega
      calc x < 2 ^ bits := hx
        _ ≤ size * 2 ^ bits := Nat.le_mul_of_pos_left _ h0
        _ ≤ 2 ^ 24 := hfit
    rw [Filter.W_val]
    omega
  have e3 : m'.buff = m.buff.set m.idx x ∧ m'.idx = (m.idx + 1) &&& (size - 1) := by
    have e1' := e1
    unfold Filter.MovingAverage.addVal at e1'
    rw [arrGet_lt hlt, R.bind_ok, arrSet_lt hlt, R.bind_ok] at e1'
    simp only [R.ok.injEq, Prod.mk.injEq] at e1'
    rw [← e1'.1]
    exact ⟨rfl, rfl⟩
  have hms : m'.sum = (lastN size (xs ++ [x])).sum := i1.2.2.2
  rw [← hms] at hnew
  refine ⟨m', ⟨m'.sum, m'.buff.map (fun n : Nat => (n : ℚ)), m'.idx⟩, ?_, ⟨rfl, rfl, rfl⟩, i1⟩
  have hget : mf.buff[mf.idx] = (m.buff[m.idx] : ℚ) := by simp [s2, s3]
  have hq : ((m.sum : ℚ) - (m.buff[m.idx] : ℚ)) = ((m.sum - m.buff[m.idx] : Nat) : ℚ) := by push_cast [hold]; rfl
  have hq2 : (((m.sum - m.buff[m.idx] : Nat) : ℚ) + (x : ℚ)) = ((m'.sum : Nat) : ℚ) := by rw [e2]; push_cast; rfl
  unfold MovingAverage.addVal
  rw [arrGet_lt hltf, R.bind_ok, hget, s1, rnd_nat h _ hsum, hq, rnd_nat h _ (by omega), toU_nat _ (by omega), R.bind_ok, arrSet_lt hltf, R.bind_ok,
    rnd_nat h _ (by omega), hq2, rnd_nat h _ hnew, toU_nat _ (by omega), R.bind_ok]
  have hdiv : m'.sum >>> IntMath.log2T size = (lastN size (xs ++ [x])).sum / size := by rw [Nat.shiftRight_eq_div_pow, ← hk, hms]
  rw [hdiv, rnd_nat h _ (le_trans (Nat.div_le_self _ _) (by rw [← hms]; exact hnew)), s2, s3, e3.1, e3.2]
  simp [List.map_set]

/-- **C186** (partial): `MovingAverage<Size, float>` on whole non-negative samples whose sums stay below 2^24: each add_val returns the average of the last `size` samples rounded down, and no conversion is undefined. Missing: samples
with a fraction, and negative ones, below. -/
theorem C186_moving_average_partial {rnd : ℚ → ℚ} (h : Nearest rnd) (size bits : Nat) (hc : Filter.compiles true size bits = true) (hfit : size * 2 ^ bits ≤ 2 ^ 24)
    (xs : List Nat) (hx : ∀ x ∈ xs, x < 2 ^ bits) :
    ∃ m, MovingAverage.run rnd size (xs.map fun n : Nat => (n : ℚ)) (MovingAverage.init size) =
      .ok (m, (List.range xs.length).map fun i => (((lastN size (xs.take (i + 1))).sum / size : Nat) : ℚ)) := by
  obtain ⟨hk, _⟩ := Filter.compiles_pow2 hc
  have h0 : 0 < size := by rw [hk]; exact Nat.two_pow_pos _
  have gen : ∀ (xs pre : List Nat) (m : Filter.MovingAverage) (mf : MovingAverage), Same m mf → Filter.MovingAverage.Inv size m pre → (∀ x ∈ pre, x < 2 ^ bits) → (∀ x ∈ xs, x < 2 ^ bits) →
      ∃ mf', MovingAverage.run rnd size (xs.map fun n : Nat => (n : ℚ)) mf =
        .ok (mf', (List.range xs.length).map fun i => (((lastN size (pre ++ xs.take (i + 1))).sum / size : Nat) : ℚ)) := by
    intro xs
    induction xs with
    | nil => intro pre m mf _ _ _ _; exact ⟨mf, rfl⟩
    | cons x xs ih =>
      intro pre m mf hs hm hp hxx
      obtain ⟨m1, mf1, e1, s1, i1⟩ := same_step h size bits hc hfit m mf hs pre x hm hp (hxx x (List.mem_cons_self))
      obtain ⟨mf2, e2⟩ := ih (pre ++ [x]) m1 mf1 s1 i1 (by
        intro y hy
        rcases List.mem_append.mp hy with h | h
        · exact hp y h
        · rw [List.mem_singleton.mp h]; exact hxx x (List.mem_cons_self)) (fun y hy => hxx y (List.mem_cons_of_mem _ hy))
      refine ⟨mf2, ?_⟩
      rw [List.map_cons, MovingAverage.run, e1, R.bind_ok]
      simp only
      rw [e2, R.bind_ok, List.length_cons, List.range_succ_eq_map, List.map_cons, List.map_map]
      simp only [R.ok.injEq, Prod.mk.injEq, true_and, List.cons.injEq, List.take_succ_cons, List.take_zero]
      apply List.map_congr_left
      intro i _
      simp [List.append_assoc]
  obtain ⟨mf, e⟩ := gen xs [] (Filter.MovingAverage.init size) (MovingAverage.init size)
    ⟨rfl, by simp [MovingAverage.init, Filter.MovingAverage.init], rfl⟩ (Filter.MovingAverage.inv_init size h0) (by simp) hx
  exact ⟨mf, by simpa using e⟩

example : ∃ rnd, Nearest rnd ∧ Filter.compiles true 16 12 = true ∧ 16 * 2 ^ 12 ≤ 2 ^ 24 ∧ ∀ x ∈ [4095, 0, 17], x < 2 ^ 12 := by
  obtain ⟨rnd, h⟩ := exists_nearest
  exact ⟨rnd, h, by decide +kernel, by norm_num, by decide⟩


theorem toU_eq {q : ℚ} {n : Nat} (h0 : (n : ℚ) ≤ q ∨ n = 0 ∧ -1 < q) (h1 : q < n + 1) (hn : n < 4294967296) : toU q = .ok n := by
  have hnq : (n : ℚ) + 1 ≤ 4294967296 := by exact_mod_cast hn
  have hn0 : (0 : ℚ) ≤ n := by positivity
  unfold toU
  rw [if_pos ⟨by rcases h0 with h | h <;> linarith [h], by linarith⟩]
  congr 1
  rcases h0 with h | ⟨rfl, h⟩
  · have : ⌊q⌋ = (n : ℤ) := Int.floor_eq_iff.mpr ⟨by exact_mod_cast h, by exact_mod_cast h1⟩
    rw [this]; simp
  · have : ⌊q⌋ < 1 := Int.floor_lt.mpr (by push_cast at h1 ⊢; linarith)
    omega

theorem log2T_two : IntMath.log2T 2 = 1 := by simp [IntMath.log2T]

/-- **C186** (violated with fractions): `MovingAverage<2, float>` fed the constant 1.5 answers 0 for ever from the third sample on, because the accumulator drops the fractions each time; and after 1.75, 1.75, 0 the next sample 0
converts a negative float to `unsigned`, which is undefined. Under every rounding to nearest. -/
theorem C186_moving_average_violated {rnd : ℚ → ℚ} (h : Nearest rnd) :
    (∀ n, ∃ m, MovingAverage.run rnd 2 (List.replicate (n + 2) (3 / 2)) (MovingAverage.init 2) = .ok (m, 0 :: 1 :: List.replicate n 0)) ∧
    (∃ m vs, MovingAverage.run rnd 2 [7 / 4, 7 / 4, 0] (MovingAverage.init 2) = .ok (m, vs)) ∧
    MovingAverage.run rnd 2 [7 / 4, 7 / 4, 0, 0] (MovingAverage.init 2) = .ub := by
  have q : ∀ (m : ℤ), |m| < 2 ^ 24 → rnd ((m : ℚ) / 4) = m / 4 := fun m hm => by
    have := f32_div m hm 2 (by norm_num)
    exact h.fix (by norm_num at this ⊢; exact this)
  have z : rnd 0 = 0 := h.zero
  have o : rnd 1 = 1 := h.fix f32_one
  have t : rnd 2 = 2 := by simpa using rnd_nat h 2 (by norm_num)
  have r32 : rnd (3 / 2) = 3 / 2 := by have := q 6 (by norm_num); norm_num at this; exact this
  have r52 : rnd (5 / 2) = 5 / 2 := by have := q 10 (by norm_num); norm_num at this; exact this
  have r12 : rnd (1 / 2) = 1 / 2 := by have := q 2 (by norm_num); norm_num at this; exact this
  have rm12 : rnd (-1 / 2) = -1 / 2 := by have := q (-2) (by norm_num); norm_num at this ⊢; exact this
  have r74 : rnd (7 / 4) = 7 / 4 := by have := q 7 (by norm_num); norm_num at this; exact this
  have r114 : rnd (11 / 4) = 11 / 4 := by have := q 11 (by norm_num); norm_num at this; exact this
  have r14 : rnd (1 / 4) = 1 / 4 := by have := q 1 (by norm_num); norm_num at this ⊢; exact this
  have rm74 : rnd (-7 / 4) = -7 / 4 := by have := q (-7) (by norm_num); norm_num at this ⊢; exact this
  -- one step, given the two conversions
  have step : ∀ (m : MovingAverage) (x old : ℚ) (s1 s2 : Nat), m.buff.length = 2 → m.buff[m.idx]? = some old → toU (rnd (rnd m.sum - old)) = .ok s1 → toU (rnd (rnd s1 + x)) = .ok s2 →
      m.addVal rnd 2 x = .ok (⟨s2, m.buff.set m.idx x, (m.idx + 1) &&& 1⟩, rnd ((s2 / 2 : Nat) : ℚ)) := by
    intro m x old s1 s2 _ hg h1 h2
    have hlt : m.idx < m.buff.length := by
      by_contra hc
      rw [List.getElem?_eq_none (by omega)] at hg
      cases hg
    unfold MovingAverage.addVal
    rw [arrGet_some hg, R.bind_ok, h1, R.bind_ok, arrSet_lt hlt, R.bind_ok, h2, R.bind_ok, log2T_two]
    rfl
  have a1 : ∀ x s, toU (rnd (rnd 0 + x)) = .ok s → (MovingAverage.init 2).addVal rnd 2 x = .ok (⟨s, [x, 0], 1⟩, rnd ((s / 2 : Nat) : ℚ)) := by
    intro x s hs
    have := step (MovingAverage.init 2) x 0 0 s rfl rfl (by rw [show ((MovingAverage.init 2).sum : ℚ) = 0 by simp [MovingAverage.init], z, sub_zero, z]; simpa using toU_nat 0 (by norm_num)) (by simpa using hs)
    simpa [MovingAverage.init] using this
  have u32 : toU (3 / 2) = .ok 1 := toU_eq (n := 1) (Or.inl (by norm_num)) (by norm_num) (by norm_num)
  have u52 : toU (5 / 2) = .ok 2 := toU_eq (n := 2) (Or.inl (by norm_num)) (by norm_num) (by norm_num)
  have u12 : toU (1 / 2) = .ok 0 := toU_eq (n := 0) (Or.inl (by norm_num)) (by norm_num) (by norm_num)
  have um12 : toU (-1 / 2) = .ok 0 := toU_eq (n := 0) (Or.inr ⟨rfl, by norm_num⟩) (by norm_num) (by norm_num)
  have u1 : toU 1 = .ok 1 := toU_nat 1 (by norm_num)
  have u0 : toU 0 = .ok 0 := by simpa using toU_nat 0 (by norm_num)
  refine ⟨?_, ?_⟩
  · -- the constant 3/2
    have c1 : (MovingAverage.init 2).addVal rnd 2 (3 / 2) = .ok (⟨1, [3 / 2, 0], 1⟩, 0) := by
      have := a1 (3 / 2) 1 (by rw [z, zero_add, r32]; exact u32)
      simpa [z] using this
    have c2 : MovingAverage.addVal rnd 2 ⟨1, [3 / 2, 0], 1⟩ (3 / 2) = .ok (⟨2, [3 / 2, 3 / 2], 0⟩, 1) := by
      have := step ⟨1, [3 / 2, 0], 1⟩ (3 / 2) 0 1 2 rfl rfl (by simp only [Nat.cast_one]; rw [o, sub_zero, o]; exact u1)
        (by simp only [Nat.cast_one]; rw [o, show (1 : ℚ) + 3 / 2 = 5 / 2 by norm_num, r52]; exact u52)
      simpa [o] using this
    have c3 : MovingAverage.addVal rnd 2 ⟨2, [3 / 2, 3 / 2], 0⟩ (3 / 2) = .ok (⟨1, [3 / 2, 3 / 2], 1⟩, 0) := by
      have := step ⟨2, [3 / 2, 3 / 2], 0⟩ (3 / 2) (3 / 2) 0 1 rfl rfl (by simp only [Nat.cast_ofNat]; rw [t, show (2 : ℚ) - 3 / 2 = 1 / 2 by norm_num, r12]; exact u12)
        (by simp only [Nat.cast_zero]; rw [z, zero_add, r32]; exact u32)
      simpa [z] using this
    have c4 : ∀ i, i < 2 → MovingAverage.addVal rnd 2 ⟨1, [3 / 2, 3 / 2], i⟩ (3 / 2) = .ok (⟨1, [3 / 2, 3 / 2], 1 - i⟩, 0) := by
      intro i hi
      have e : ([3 / 2, 3 / 2] : List ℚ)[i]? = some (3 / 2) := by rcases (show i = 0 ∨ i = 1 by omega) with rfl | rfl <;> rfl
      have := step ⟨1, [3 / 2, 3 / 2], i⟩ (3 / 2) (3 / 2) 0 1 rfl e (by simp only [Nat.cast_one]; rw [o, show (1 : ℚ) - 3 / 2 = -1 / 2 by norm_num, rm12]; exact um12)
        (by simp only [Nat.cast_zero]; rw [z, zero_add, r32]; exact u32)
      rw [this]
      rcases (show i = 0 ∨ i = 1 by omega) with rfl | rfl <;> simp [z]
    have tail : ∀ n i, i < 2 → ∃ m, MovingAverage.run rnd 2 (List.replicate n (3 / 2)) ⟨1, [3 / 2, 3 / 2], i⟩ = .ok (m, List.replicate n 0) := by
      intro n
      induction n with
      | zero => intro i _; exact ⟨_, rfl⟩
      | succ n ih =>
        intro i hi
        obtain ⟨m, hm⟩ := ih (1 - i) (by omega)
        exact ⟨m, by rw [List.replicate_succ, MovingAverage.run, c4 i hi, R.bind_ok]; simp only; rw [hm, R.bind_ok]; rfl⟩
    intro n
    cases n with
    | zero => exact ⟨⟨2, [3 / 2, 3 / 2], 0⟩, by simp [List.replicate, MovingAverage.run, c1, c2]⟩
    | succ n =>
      obtain ⟨m, hm⟩ := tail n 1 (by norm_num)
      exact ⟨m, by
        rw [List.replicate_succ, List.replicate_succ, List.replicate_succ]
        simp only [MovingAverage.run, c1, c2, c3, R.bind_ok, hm]
        rfl⟩
  · have u74 : toU (7 / 4) = .ok 1 := toU_eq (n := 1) (Or.inl (by norm_num)) (by norm_num) (by norm_num)
    have u114 : toU (11 / 4) = .ok 2 := toU_eq (n := 2) (Or.inl (by norm_num)) (by norm_num) (by norm_num)
    have u14 : toU (1 / 4) = .ok 0 := toU_eq (n := 0) (Or.inl (by norm_num)) (by norm_num) (by norm_num)
    have um74 : toU (-7 / 4) = .ub := by unfold toU; rw [if_neg (by norm_num)]
    have c1 : (MovingAverage.init 2).addVal rnd 2 (7 / 4) = .ok (⟨1, [7 / 4, 0], 1⟩, 0) := by
      have := a1 (7 / 4) 1 (by rw [z, zero_add, r74]; exact u74)
      simpa [z] using this
    have c2 : MovingAverage.addVal rnd 2 ⟨1, [7 / 4, 0], 1⟩ (7 / 4) = .ok (⟨2, [7 / 4, 7 / 4], 0⟩, 1) := by
      have := step ⟨1, [7 / 4, 0], 1⟩ (7 / 4) 0 1 2 rfl rfl (by simp only [Nat.cast_one]; rw [o, sub_zero, o]; exact u1)
        (by simp only [Nat.cast_one]; rw [o, show (1 : ℚ) + 7 / 4 = 11 / 4 by norm_num, r114]; exact u114)
      simpa [o] using this
    have c3 : MovingAverage.addVal rnd 2 ⟨2, [7 / 4, 7 / 4], 0⟩ 0 = .ok (⟨0, [0, 7 / 4], 1⟩, 0) := by
      have := step ⟨2, [7 / 4, 7 / 4], 0⟩ 0 (7 / 4) 0 0 rfl rfl (by simp only [Nat.cast_ofNat]; rw [t, show (2 : ℚ) - 7 / 4 = 1 / 4 by norm_num, r14]; exact u14)
        (by simp only [Nat.cast_zero]; rw [z, zero_add, z]; exact u0)
      simpa [z] using this
    have c4 : MovingAverage.addVal rnd 2 ⟨0, [0, 7 / 4], 1⟩ 0 = .ub := by
      unfold MovingAverage.addVal
      rw [arrGet_some (show ([0, 7 / 4] : List ℚ)[1]? = some (7 / 4) from rfl), R.bind_ok]
      simp only [Nat.cast_zero]
      rw [z, show (0 : ℚ) - 7 / 4 = -7 / 4 by norm_num, rm74, um74]
      rfl
    exact ⟨⟨_, _, by simp only [MovingAverage.run, c1, c2, c3, R.bind_ok]; rfl⟩, by simp only [MovingAverage.run, c1, c2, c3, c4, R.bind_ok, R.bind_ub]⟩

/-- **C186** (partial): `Oversampler<Size, float>` on whole non-negative samples whose sums stay below 2^24: its value is the average of the last complete block, rounded down. Missing: fractions and negative samples, below. -/
theorem C186_oversampler_partial {rnd : ℚ → ℚ} (h : Nearest rnd) (size bits : Nat) (hc : Filter.compiles true size bits = true) (hfit : size * 2 ^ bits ≤ 2 ^ 24)
    (xs : List Nat) (hx : ∀ x ∈ xs, x < 2 ^ bits) :
    ∃ o, Oversampler.run rnd size (xs.map fun n : Nat => (n : ℚ)) Oversampler.init = .ok o ∧
      o.value = if xs.length < size then 0 else (((lastBlock size xs).sum / size : Nat) : ℚ) := by
  obtain ⟨hk, _⟩ := Filter.compiles_pow2 hc
  have h0 : 0 < size := by rw [hk]; exact Nat.two_pow_pos _
  have gen : ∀ (xs : List Nat) (oi : Filter.Oversampler) (o : Oversampler), (∀ x ∈ xs, x < 2 ^ bits) → o.buff = oi.buff → o.value = oi.value → o.idx = oi.idx → oi.idx < size → oi.buff ≤ oi.idx * 2 ^ bits →
      ∃ o', Oversampler.run rnd size (xs.map fun n : Nat => (n : ℚ)) o = .ok o' ∧ o'.value = (xs.foldl (Filter.Oversampler.addVal size) oi).value := by
    intro xs
    induction xs with
    | nil => intro oi o _ _ hv _ _ _; exact ⟨o, rfl, hv⟩
    | cons x xs ih =>
      intro oi o hxx hb hv hi hlt hle
      have hx1 := hxx x (List.mem_cons_self)
      have hmul : oi.idx * 2 ^ bits + 2 ^ bits ≤ size * 2 ^ bits := by rw [← Nat.succ_mul]; exact Nat.mul_le_mul_right _ (by omega)
      have hq : ((oi.buff : ℚ) + (x : ℚ)) = ((oi.buff + x : Nat) : ℚ) := by push_cast; rfl
      rw [List.map_cons, Oversampler.run, List.foldl_cons]
      unfold Oversampler.addVal
      rw [hb, rnd_nat h _ (by omega), hq, rnd_nat h _ (by omega), toU_nat _ (by omega), R.bind_ok, hi]
      by_cases hw : oi.idx + 1 ≥ size
      · rw [if_pos hw, R.bind_ok]
        apply ih _ _ (fun y hy => hxx y (List.mem_cons_of_mem _ hy)) <;> (unfold Filter.Oversampler.addVal; simp only [if_pos hw])
        · have : (oi.buff + x) % Filter.W = oi.buff + x := Nat.mod_eq_of_lt (by rw [Filter.W_val]; omega)
          rw [this, rnd_nat h]
          rw [Nat.shiftRight_eq_div_pow]
          exact le_trans (Nat.div_le_self _ _) (by omega)
        · exact h0
        · omega
      · rw [if_neg hw, R.bind_ok]
        apply ih _ _ (fun y hy => hxx y (List.mem_cons_of_mem _ hy)) <;> (unfold Filter.Oversampler.addVal; simp only [if_neg hw])
        · exact (Nat.mod_eq_of_lt (by rw [Filter.W_val]; omega)).symm
        · exact hv
        · omega
        · rw [Nat.mod_eq_of_lt (by rw [Filter.W_val]; omega), Nat.succ_mul]; omega
  obtain ⟨o, e1, e2⟩ := gen xs Filter.Oversampler.init Oversampler.init hx rfl (by simp [Filter.Oversampler.init, Oversampler.init]) rfl h0 (by simp [Filter.Oversampler.init])
  refine ⟨o, e1, ?_⟩
  have := Filter.C99_oversampler size bits hc xs hx
  unfold Filter.Oversampler.val at this
  rw [e2, this]
  split <;> simp

example (rnd : ℚ → ℚ) (h : Nearest rnd) := C186_oversampler_partial h 16 12 (by decide +kernel) (by norm_num) [4095, 0, 17] (by decide)

/-- **C186** (violated with fractions): `Oversampler<2, float>` gives 0 for 0.5 and 1.5, whose average is 1; and a sample of -1 is undefined. Under every rounding to nearest. -/
theorem C186_oversampler_violated {rnd : ℚ → ℚ} (h : Nearest rnd) :
    (∃ o, Oversampler.run rnd 2 [1 / 2, 3 / 2] Oversampler.init = .ok o ∧ o.value = 0) ∧ Oversampler.run rnd 2 [-1] Oversampler.init = .ub := by
  have z : rnd 0 = 0 := h.zero
  have r12 : rnd (1 / 2) = 1 / 2 := h.fix (by simpa using f32_div 1 (by norm_num) 1 (by norm_num))
  have r32 : rnd (3 / 2) = 3 / 2 := h.fix (by simpa using f32_div 3 (by norm_num) 1 (by norm_num))
  have rm1 : rnd (-1) = -1 := h.fix (f32_neg f32_one)
  have u32 : toU (3 / 2) = .ok 1 := toU_eq (n := 1) (Or.inl (by norm_num)) (by norm_num) (by norm_num)
  have u12 : toU (1 / 2) = .ok 0 := toU_eq (n := 0) (Or.inl (by norm_num)) (by norm_num) (by norm_num)
  have um1 : toU (-1) = .ub := by unfold toU; rw [if_neg (by norm_num)]
  constructor
  · refine ⟨⟨0, 0, 0⟩, ?_, rfl⟩
    have c1 : Oversampler.addVal rnd 2 Oversampler.init (1 / 2) = .ok ⟨0, 0, 1⟩ := by
      simp [Oversampler.addVal, Oversampler.init, z]
      rw [show (2 : ℚ)⁻¹ = 1 / 2 by norm_num, r12, u12]
      simp
    have c2 : Oversampler.addVal rnd 2 ⟨0, 0, 1⟩ (3 / 2) = .ok ⟨0, 0, 0⟩ := by
      simp [Oversampler.addVal, z, r32, u32, log2T_two]
    simp only [Oversampler.run, c1, c2, R.bind_ok]
  · simp [Oversampler.run, Oversampler.addVal, Oversampler.init, z, rm1, um1]


/-! ### ResizingOversampler in binary32 -/

/-- One operation with rounding. -/
def stepF (rnd : ℚ → ℚ) (o : Filter.Resizing) : Op → R Filter.Resizing
  | .setSize n => setSize rnd o n
  | .add x => addVal rnd o x
  | .reset => .ok o.reset

/-- A sequence of operations. -/
def runF (rnd : ℚ → ℚ) : List Op → Filter.Resizing → R Filter.Resizing
  | [], o => .ok o
  | op :: ops, o => do let o ← stepF rnd o op; runF rnd ops o

/-- Sum and value are near those of the specification; `M` bounds the samples, `K` the sizes. -/
def Near (M : ℚ) (K : Nat) (o : Filter.Resizing) (b : Blocks) : Prop :=
  F32 o.buff ∧ o.idx = b.cur.length ∧ o.size = b.size ∧ b.cur.length < b.size ∧ b.size ≤ K ∧ |b.cur.sum| ≤ b.cur.length * M ∧
    |o.buff - b.cur.sum| ≤ (b.cur.length : ℚ) ^ 2 * M / 2 ^ 24 ∧ |o.value - b.out| ≤ M * (K + 2) / 2 ^ 24 + 1 / 2 ^ 150

/-- The mean from a sum that is near the true one. -/
theorem near_mean {rnd : ℚ → ℚ} (h : Nearest rnd) (M : ℚ) (K k : Nat) (hk0 : 0 < k) (hkK : k ≤ K) (hK : K ≤ 2 ^ 23) (s S : ℚ)
    (hS : |S| ≤ k * M) (he : |s - S| ≤ (k : ℚ) ^ 2 * M / 2 ^ 24) : |rnd (s / rnd k) - S / k| ≤ M * (K + 2) / 2 ^ 24 + 1 / 2 ^ 150 := by
  have hkq : (0 : ℚ) < k := by exact_mod_cast hk0
  have hKq : (k : ℚ) ≤ K := by exact_mod_cast hkK
  have hK2 : (k : ℚ) ≤ 2 ^ 23 := by exact_mod_cast le_trans hkK hK
  have hM : 0 ≤ M := by
    have := le_trans (abs_nonneg _) hS
    by_contra hc
    nlinarith
  rw [rnd_nat h k (by omega)]
  have r := h.rel (s / k)
  have e1 : |s / k - S / k| ≤ k * M / 2 ^ 24 := by
    rw [← sub_div, abs_div, abs_of_pos hkq, div_le_iff₀ hkq]
    calc |s - S| ≤ (k : ℚ) ^ 2 * M / 2 ^ 24 := he
      _ = k * M / 2 ^ 24 * k := by ring
  have e2 : |S / k| ≤ M := by
    rw [abs_div, abs_of_pos hkq, div_le_iff₀ hkq]; linarith
  have e3 : |s / k| ≤ 2 * M := by
    have := abs_sub_abs_le_abs_sub (s / k) (S / k)
    have : (k : ℚ) * M / 2 ^ 24 ≤ M := by
      rw [div_le_iff₀ (by norm_num)]; nlinarith
    linarith
  have tri : |rnd (s / k) - S / k| ≤ |rnd (s / k) - s / k| + |s / k - S / k| := abs_sub_le _ _ _
  have e4 : |s / k| / 2 ^ 24 ≤ 2 * M / 2 ^ 24 := by
    rw [div_le_div_iff_of_pos_right (by norm_num)]; exact e3
  have e5 : (k : ℚ) * M / 2 ^ 24 ≤ K * M / 2 ^ 24 := by
    rw [div_le_div_iff_of_pos_right (by norm_num)]; exact mul_le_mul_of_nonneg_right hKq hM
  have e6 : M * (K + 2) / 2 ^ 24 = K * M / 2 ^ 24 + 2 * M / 2 ^ 24 := by ring
  rw [e6]
  linarith

/-- Adding one more sample to the sum. -/
theorem near_add {rnd : ℚ → ℚ} (h : Nearest rnd) (M : ℚ) (k : Nat) (hk : k ≤ 2 ^ 23) (s S x : ℚ) (hs : F32 s) (hx : F32 x) (hxM : |x| ≤ M)
    (hS : |S| ≤ k * M) (he : |s - S| ≤ (k : ℚ) ^ 2 * M / 2 ^ 24) :
    |S + x| ≤ ((k + 1 : Nat) : ℚ) * M ∧ |rnd (s + x) - (S + x)| ≤ ((k + 1 : Nat) : ℚ) ^ 2 * M / 2 ^ 24 := by
  have hM : 0 ≤ M := le_trans (abs_nonneg _) hxM
  have hk0 : (0 : ℚ) ≤ k := by positivity
  have hk2 : (k : ℚ) ≤ 2 ^ 23 := by exact_mod_cast hk
  have h1 : |S + x| ≤ ((k + 1 : Nat) : ℚ) * M := by
    have := abs_add_le S x
    push_cast; linarith
  refine ⟨h1, ?_⟩
  have r := h.add_rel hs hx
  have tri : |rnd (s + x) - (S + x)| ≤ |rnd (s + x) - (s + x)| + |(s + x) - (S + x)| := abs_sub_le _ _ _
  have e0 : (s + x) - (S + x) = s - S := by ring
  have e1 : |s + x| ≤ |S + x| + |s - S| := by
    have := abs_add_le (S + x) (s - S)
    rwa [show S + x + (s - S) = s + x by ring] at this
  rw [e0] at tri
  have e2 : (k : ℚ) ^ 2 * M / 2 ^ 24 ≤ k * M := by
    rw [div_le_iff₀ (by norm_num)]
    have : (k : ℚ) ^ 2 ≤ k * 2 ^ 24 := by nlinarith
    nlinarith
  have e3 : |s + x| ≤ (2 * k + 1) * M := by push_cast at h1; linarith
  have e4 : |s + x| / 2 ^ 24 ≤ (2 * k + 1) * M / 2 ^ 24 := by
    rw [div_le_div_iff_of_pos_right (by norm_num)]; exact e3
  have e5 : ((k + 1 : Nat) : ℚ) ^ 2 * M / 2 ^ 24 = (k : ℚ) ^ 2 * M / 2 ^ 24 + (2 * k + 1) * M / 2 ^ 24 := by push_cast; ring
  rw [e5]
  linarith

theorem near_step {rnd : ℚ → ℚ} (h : Nearest rnd) (M : ℚ) (hM : 0 ≤ M) (K : Nat) (hK : K ≤ 2 ^ 23) (o : Filter.Resizing) (b : Blocks) (hn : Near M K o b) (op : Op)
    (hop : ∀ n, op = .setSize n → 0 < n ∧ n ≤ K) (hop2 : ∀ x, op = .add x → F32 x ∧ |x| ≤ M) : ∃ o', stepF rnd o op = .ok o' ∧ Near M K o' (b.step op) := by
  obtain ⟨h1, h2, h3, h4, h5, h6, h7, h8⟩ := hn
  obtain ⟨ob, ov, oi, os⟩ := o
  obtain ⟨cur, out, size⟩ := b
  simp only at h1 h2 h3 h4 h5 h6 h7 h8
  subst h2; subst h3
  have hpos : 0 ≤ M * (K + 2) / 2 ^ 24 + 1 / 2 ^ 150 := by positivity
  cases op with
  | setSize n =>
    obtain ⟨hn0, hnK⟩ := hop n rfl
    show ∃ o', setSize rnd _ n = .ok o' ∧ Near M K o' (Blocks.finish _)
    unfold setSize Blocks.finish
    simp only
    by_cases hw : cur.length ≥ n
    · rw [if_pos hw, if_neg (by omega), if_pos hw]
      exact ⟨_, rfl, f32_zero, rfl, rfl, hn0, hnK, by simp, by simp, near_mean h M K cur.length (by omega) (by omega) hK ob cur.sum h6 h7⟩
    · rw [if_neg hw, if_neg (show ¬ (n ≤ cur.length) by omega)]
      exact ⟨_, rfl, h1, rfl, rfl, by simp only; omega, hnK, h6, h7, h8⟩
  | add x =>
    obtain ⟨hxF, hxM⟩ := hop2 x rfl
    obtain ⟨a1, a2⟩ := near_add h M cur.length (by omega) ob cur.sum x h1 hxF hxM h6 h7
    have esum : (cur ++ [x]).sum = cur.sum + x := by simp
    have elen : (cur ++ [x]).length = cur.length + 1 := by simp
    show ∃ o', addVal rnd _ x = .ok o' ∧ Near M K o' (Blocks.finish _)
    unfold addVal Blocks.finish
    simp only [elen]
    by_cases hw : cur.length + 1 ≥ os
    · rw [if_pos hw, if_neg (by omega), if_pos hw]
      refine ⟨_, rfl, f32_zero, rfl, rfl, by simp only [List.length_nil]; omega, h5, by simp, by simp, ?_⟩
      have e : os = cur.length + 1 := by omega
      simp only [mean, esum, elen]
      subst e
      exact near_mean h M K (cur.length + 1) (by omega) h5 hK _ _ a1 a2
    · rw [if_neg hw, if_neg (show ¬ (os ≤ cur.length + 1) by omega)]
      exact ⟨_, rfl, h.f32 _, by simp, rfl, by simp only [elen]; omega, h5, by simp only [esum, elen]; exact a1, by simp only [esum, elen]; exact a2, h8⟩
  | reset =>
    exact ⟨_, rfl, f32_zero, rfl, rfl, by simp only [Blocks.step, List.length_nil]; omega, h5, by simp [Blocks.step], by simp [Blocks.step, Filter.Resizing.reset], by simpa [Blocks.step, Filter.Resizing.reset] using hpos⟩

/-- **C186**: ResizingOversampler in binary32, with any history of samples of magnitude at most M, changes of the size to sizes from 1 to K (at most 2^23) and resets: its value differs from the mean of the last finished block by at most
M (K + 2) / 2^24 + 2^-150. -/
theorem C186_resizing {rnd : ℚ → ℚ} (h : Nearest rnd) (M : ℚ) (hM : 0 ≤ M) (K size : Nat) (hK : K ≤ 2 ^ 23) (h0 : 0 < size) (hs : size ≤ K) (ops : List Op)
    (hops : ∀ n, .setSize n ∈ ops → 0 < n ∧ n ≤ K) (hops2 : ∀ x, .add x ∈ ops → F32 x ∧ |x| ≤ M) :
    ∃ o, runF rnd ops (Filter.Resizing.ofSize size) = .ok o ∧ |o.val - (ops.foldl Blocks.step ⟨[], 0, size⟩).out| ≤ M * (K + 2) / 2 ^ 24 + 1 / 2 ^ 150 := by
  have gen : ∀ (ops : List Op) (o : Filter.Resizing) (b : Blocks), Near M K o b → (∀ n, .setSize n ∈ ops → 0 < n ∧ n ≤ K) → (∀ x, .add x ∈ ops → F32 x ∧ |x| ≤ M) →
      ∃ o', runF rnd ops o = .ok o' ∧ Near M K o' (ops.foldl Blocks.step b) := by
    intro ops
    induction ops with
    | nil => intro o b h _ _; exact ⟨o, rfl, h⟩
    | cons op ops ih =>
      intro o b hn h1 h2
      obtain ⟨o1, e1, r1⟩ := near_step h M hM K hK o b hn op (fun n hop => h1 n (by rw [← hop]; exact List.mem_cons_self)) (fun x hop => h2 x (by rw [← hop]; exact List.mem_cons_self))
      obtain ⟨o2, e2, r2⟩ := ih o1 _ r1 (fun n hm => h1 n (List.mem_cons_of_mem _ hm)) (fun x hm => h2 x (List.mem_cons_of_mem _ hm))
      exact ⟨o2, by rw [runF, e1, R.bind_ok, e2], r2⟩
  have hpos : 0 ≤ M * (K + 2) / 2 ^ 24 + 1 / 2 ^ 150 := by positivity
  obtain ⟨o, e, r⟩ := gen ops (Filter.Resizing.ofSize size) ⟨[], 0, size⟩ ⟨f32_zero, rfl, rfl, h0, hs, by simp, by simp [Filter.Resizing.ofSize], by simpa [Filter.Resizing.ofSize] using hpos⟩ hops hops2
  exact ⟨o, e, r.2.2.2.2.2.2.2⟩

/-- A history that meets the hypotheses. -/
example : ∃ rnd, Nearest rnd ∧ (∀ n, Op.setSize n ∈ [Op.add 1, .setSize 3, .add (-2), .reset] → 0 < n ∧ n ≤ 16) ∧ (∀ x, Op.add x ∈ [Op.add 1, .setSize 3, .add (-2), .reset] → F32 x ∧ |x| ≤ 2) := by
  obtain ⟨rnd, h⟩ := exists_nearest
  refine ⟨rnd, h, ?_, ?_⟩
  · intro n hn; simp at hn; subst hn; norm_num
  · intro x hx
    simp at hx
    rcases hx with rfl | rfl
    · exact ⟨f32_one, by norm_num⟩
    · exact ⟨f32_neg (by simpa using f32_int 2 (by norm_num)), by norm_num⟩

end FilterMix
