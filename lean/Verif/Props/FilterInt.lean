import Verif.Model.FilterInt
import Verif.Spec.FilterInt
import Verif.Props.Filter
import Verif.Props.ParamsInt
/-! # Property C173: moving averages and oversamplers on any integer sample type -/

namespace FilterInt
open ParamsInt Filter Filter.Spec Spec

theorem conv_add_mul (t : Ty) (x z : Int) : conv t (x + 2 ^ t.w * z) = conv t x := by
  unfold conv
  split
  · rw [show x + 2 ^ t.w * z + 2 ^ (t.w - 1) = x + 2 ^ (t.w - 1) + 2 ^ t.w * z by ring, Int.add_mul_emod_self_left]
  · rw [Int.add_mul_emod_self_left]

/-- What the accumulator gives for a sum `S`: the exact average if that is a value of the type and the type leaves room for the shift, or the sum is not negative. -/
theorem shifted_eq (t : Ty) (hw : 0 < t.w) (size : Nat) (hk : size = 2 ^ IntMath.log2T size) (S : Int) (hin : InTy t (S / size))
    (h : t.w + IntMath.log2T size ≤ 32 ∨ (0 ≤ S ∧ S < 4294967296)) : shifted t size (S % 4294967296) = S / size := by
  have hsz : (size : Int) = 2 ^ IntMath.log2T size := by exact_mod_cast hk
  have hcast : (((S % 4294967296).toNat >>> IntMath.log2T size : Nat) : Int) = S % 4294967296 / size := by
    rw [Nat.shiftRight_eq_div_pow, Int.natCast_ediv, Int.toNat_of_nonneg (Int.emod_nonneg _ (by norm_num)), hsz]
    push_cast
    rfl
  unfold shifted
  rw [hcast]
  rcases h with h | ⟨h1, h2⟩
  · have e1 : (4294967296 : Int) = size * (2 ^ t.w * 2 ^ (32 - IntMath.log2T size - t.w)) := by
      rw [hsz, ← pow_add, ← pow_add, show IntMath.log2T size + (t.w + (32 - IntMath.log2T size - t.w)) = 32 by omega]
      norm_num
    have hpos : (size : Int) ≠ 0 := by rw [hsz]; positivity
    have e2 : S % 4294967296 = S + size * (2 ^ t.w * (-(2 ^ (32 - IntMath.log2T size - t.w) * (S / 4294967296)))) := by
      have := Int.emod_add_mul_ediv S 4294967296
      have e3 : (4294967296 : Int) * (S / 4294967296) = size * (2 ^ t.w * 2 ^ (32 - IntMath.log2T size - t.w)) * (S / 4294967296) := by rw [← e1]
      linarith
    rw [e2, Int.add_mul_ediv_left _ _ hpos, conv_add_mul, conv_id hw hin]
  · rw [Int.emod_eq_of_lt h1 h2, conv_id hw hin]

theorem window_length (n : Nat) (xs : List Int) : (window n xs).length = n := by simp [window]

theorem window_snoc (n : Nat) (xs : List Int) (x : Int) (hn : 0 < n) : window n (xs ++ [x]) = (window n xs).drop 1 ++ [x] := by
  unfold window
  rw [List.drop_drop, ← List.append_assoc, List.drop_append_of_le_length (by simp; omega), List.length_append]
  rfl

theorem window_mem (n : Nat) (xs : List Int) (x : Int) (h : x ∈ window n xs) : x = 0 ∨ x ∈ xs := by
  have := List.mem_of_mem_drop h
  rcases List.mem_append.mp this with h' | h'
  · exact Or.inl (List.eq_of_mem_replicate h')
  · exact Or.inr h'

namespace MovingAverage

/-- What the state means after samples `xs`. -/
def Inv (size : Nat) (m : MovingAverage) (xs : List Int) : Prop :=
  m.buff.length = size ∧ m.idx < size ∧ m.buff.drop m.idx ++ m.buff.take m.idx = window size xs ∧ m.sum = (window size xs).sum % 4294967296

theorem inv_init (size : Nat) (h : 0 < size) : Inv size (init size) [] := by
  refine ⟨by simp [init], h, ?_, ?_⟩
  · simp [init, window]
  · simp [init, window]

theorem inv_step (t : Ty) (size : Nat) (hk : size = 2 ^ IntMath.log2T size) (m : MovingAverage) (xs : List Int) (x : Int) (hm : Inv size m xs) :
    ∃ m', addVal t size m x = .ok (m', shifted t size ((window size (xs ++ [x])).sum % 4294967296)) ∧ Inv size m' (xs ++ [x]) := by
  obtain ⟨h1, h2, h3, h4⟩ := hm
  have h0 : 0 < size := by omega
  have hlt : m.idx < m.buff.length := by omega
  have hwin : window size xs = m.buff[m.idx] :: (m.buff.drop (m.idx + 1) ++ m.buff.take m.idx) := by
    rw [← h3, List.drop_eq_getElem_cons hlt]; rfl
  have hnew : window size (xs ++ [x]) = m.buff.drop (m.idx + 1) ++ m.buff.take m.idx ++ [x] := by
    rw [window_snoc size xs x h0, hwin]; rfl
  have hsum : (window size xs).sum = m.buff[m.idx] + (m.buff.drop (m.idx + 1) ++ m.buff.take m.idx).sum := by rw [hwin, List.sum_cons]
  have hsum2 : (window size (xs ++ [x])).sum = (m.buff.drop (m.idx + 1) ++ m.buff.take m.idx).sum + x := by
    rw [hnew, List.sum_append]; simp
  have hnewsum : ((m.sum - m.buff[m.idx]) % 4294967296 + x) % 4294967296 = (window size (xs ++ [x])).sum % 4294967296 := by
    rw [hsum2, h4, hsum]
    omega
  refine ⟨⟨(window size (xs ++ [x])).sum % 4294967296, m.buff.set m.idx x, (m.idx + 1) &&& (size - 1)⟩, ?_, ?_⟩
  · unfold addVal
    rw [arrGet_lt hlt, R.bind_ok, arrSet, if_pos hlt, R.bind_ok]
    simp only
    rw [hnewsum]
  · have hidx : (m.idx + 1) &&& (size - 1) = (m.idx + 1) % size := by
      conv_lhs => rw [hk]
      rw [and_mask, ← hk]
    refine ⟨by simp [h1], ?_, ?_, rfl⟩
    · simp only [hidx]; exact Nat.mod_lt _ h0
    · simp only [hidx]
      rw [hnew]
      by_cases hw : m.idx + 1 < size
      · rw [Nat.mod_eq_of_lt hw, List.drop_set_of_lt (by omega), List.take_set, List.append_assoc]
        congr 1
        rw [List.set_eq_take_append_cons_drop]
        have hl : m.idx < (m.buff.take (m.idx + 1)).length := by simp; omega
        rw [if_pos hl, List.take_take]
        rw [List.drop_eq_nil_of_le (by simp)]
        congr 2
        omega
      · have e : m.idx + 1 = size := by omega
        rw [e, Nat.mod_self, List.drop_zero, List.take_zero, List.append_nil, List.set_eq_take_append_cons_drop, if_pos hlt]
        rw [List.drop_eq_nil_of_le (by omega), List.drop_eq_nil_of_le (by omega)]
        rfl

/-- What MovingAverage<Size, T> returns, in every case: the window's sum modulo 2^32, shifted, converted to T. -/
theorem exact (t : Ty) (size : Nat) (hp : IntMath.isPowerOf2 size = true) (xs : List Int) :
    ∃ m vs, run t size xs (init size) = .ok (m, vs) ∧ vs = (List.range xs.length).map (fun i => shifted t size ((window size (xs.take (i + 1))).sum % 4294967296)) ∧
      m.val t size = shifted t size ((window size xs).sum % 4294967296) ∧ size = 2 ^ IntMath.log2T size := by
  obtain ⟨k, hk⟩ := (IntMath.C78_is_power_of_2 size).mp hp
  have hn0 : size ≠ 0 := by rw [hk]; exact Nat.ne_of_gt (Nat.two_pow_pos k)
  obtain ⟨b1, b2⟩ := IntMath.C78_Log2 size hn0
  have hlog : IntMath.log2T size = k := by
    have e1 := (Nat.log2_eq_iff hn0).mpr ⟨b1, b2⟩
    have e2 := (Nat.log2_eq_iff (n := size) (k := k) hn0).mpr ⟨by omega, by rw [hk, Nat.pow_succ]; have := Nat.two_pow_pos k; omega⟩
    omega
  have hk' : size = 2 ^ IntMath.log2T size := by rw [hlog]; exact hk
  have h0 : 0 < size := by omega
  have gen : ∀ (xs pre : List Int) (m : MovingAverage), Inv size m pre →
      ∃ m' vs, run t size xs m = .ok (m', vs) ∧ vs = (List.range xs.length).map (fun i => shifted t size ((window size (pre ++ xs.take (i + 1))).sum % 4294967296)) ∧ Inv size m' (pre ++ xs) := by
    intro xs
    induction xs with
    | nil => intro pre m hm; exact ⟨m, [], rfl, rfl, by simpa using hm⟩
    | cons x xs ih =>
      intro pre m hm
      obtain ⟨m1, e1, i1⟩ := inv_step t size hk' m pre x hm
      obtain ⟨m2, vs, e2, e3, i2⟩ := ih (pre ++ [x]) m1 i1
      refine ⟨m2, shifted t size ((window size (pre ++ [x])).sum % 4294967296) :: vs, ?_, ?_, ?_⟩
      · rw [run, e1, R.bind_ok]
        simp only
        rw [e2, R.bind_ok]
      · rw [List.length_cons, List.range_succ_eq_map, List.map_cons, List.map_map, e3]
        congr 1
        apply List.map_congr_left
        intro i _
        simp [List.append_assoc]
      · simpa [List.append_assoc] using i2
  obtain ⟨m, vs, e1, e2, i⟩ := gen xs [] (init size) (inv_init size h0)
  refine ⟨m, vs, e1, by simpa using e2, ?_, hk'⟩
  unfold val
  rw [i.2.2.2]
  rfl

end MovingAverage

theorem sum_inTy (t : Ty) (l : List Int) (h : ∀ x ∈ l, InTy t x) (hl : l ≠ []) : InTy t (l.sum / l.length) := by
  have hpos : (0 : Int) < l.length := by
    have := List.length_pos_of_ne_nil hl
    exact_mod_cast this
  have key : ∀ (lo hi : Int), (∀ x ∈ l, lo ≤ x ∧ x < hi) → lo ≤ l.sum / l.length ∧ l.sum / l.length < hi := by
    intro lo hi hb
    have h1 : ∀ l : List Int, (∀ x ∈ l, lo ≤ x ∧ x < hi) → lo * l.length ≤ l.sum ∧ l.sum + l.length ≤ hi * l.length := by
      intro l
      induction l with
      | nil => simp
      | cons a l ih =>
        intro hb
        have h2 := ih (fun x hx => hb x (List.mem_cons_of_mem _ hx))
        have h3 := hb a List.mem_cons_self
        simp only [List.sum_cons, List.length_cons]
        push_cast
        constructor <;> nlinarith [h2.1, h2.2, h3.1, h3.2]
    obtain ⟨g1, g2⟩ := h1 l hb
    refine ⟨(Int.le_ediv_iff_mul_le hpos).2 g1, ?_⟩
    rw [Int.ediv_lt_iff_lt_mul hpos]
    linarith
  unfold InTy at *
  split
  · next hs => exact key _ _ (fun x hx => by simpa [hs] using h x hx)
  · next hs => exact key _ _ (fun x hx => by simpa [hs] using h x hx)

/-- **C173** (MovingAverage; partial): for every power-of-two size and every integer sample type, signed or not, whose width plus the binary logarithm of the size is at most 32, and every stream of samples of that type, each add_val returns the average of the last `size` samples
(missing ones counting 0), rounded down; val() agrees. Missing: wider types; there the same holds for the calls at which the sum over the window is in 0..2^32-1. -/
theorem C173_moving_average_partial (t : Ty) (hw : 0 < t.w ∧ t.w ≤ 32) (size : Nat) (hp : IntMath.isPowerOf2 size = true) (xs : List Int) (hx : ∀ x ∈ xs, InTy t x) :
    ∃ m vs, MovingAverage.run t size xs (MovingAverage.init size) = .ok (m, vs) ∧ vs.length = xs.length ∧
      (∀ i (hi : i < vs.length), (t.w + IntMath.log2T size ≤ 32 ∨ (0 ≤ (window size (xs.take (i + 1))).sum ∧ (window size (xs.take (i + 1))).sum < 4294967296)) → vs[i] = floorMean (window size (xs.take (i + 1)))) ∧
      ((t.w + IntMath.log2T size ≤ 32 ∨ (0 ≤ (window size xs).sum ∧ (window size xs).sum < 4294967296)) → m.val t size = floorMean (window size xs)) := by
  obtain ⟨m, vs, e1, e2, e3, hk⟩ := MovingAverage.exact t size hp xs
  have h0 : 0 < size := by rw [hk]; exact Nat.two_pow_pos _
  have hin : ∀ ys : List Int, (∀ y ∈ ys, InTy t y) → InTy t ((window size ys).sum / size) := by
    intro ys hy
    have := sum_inTy t (window size ys) (fun x hx => (window_mem size ys x hx).elim (fun h => h ▸ inTy_zero t) (hy x)) (by
      intro hc; have := window_length size ys; rw [hc] at this; simp at this; omega)
    rwa [window_length] at this
  refine ⟨m, vs, e1, by rw [e2]; simp, ?_, ?_⟩
  · intro i hi hc
    subst e2
    simp only [List.getElem_map, List.getElem_range]
    unfold floorMean
    rw [window_length]
    exact shifted_eq t hw.1 size hk _ (hin _ (fun y hy => hx y (List.mem_of_mem_take hy))) hc
  · intro hc
    rw [e3]
    unfold floorMean
    rw [window_length]
    exact shifted_eq t hw.1 size hk _ (hin _ hx) hc

/-- `int16_t` samples: the average of -4, -4, -5 and nothing is -4 (rounded down from -3.25) -/
example : MovingAverage.run ⟨16, true⟩ 4 [-4, -4, -5] (MovingAverage.init 4) = .ok (⟨4294967283, [-4, -4, -5, 0], 3⟩, [-1, -2, -4]) := by decide +kernel

/-- **C173 is violated** by MovingAverage with 32-bit signed samples: the average of four times -4 comes out as 1073741820. -/
theorem C173_int_violated : ∃ m, MovingAverage.run ⟨32, true⟩ 4 [-4, -4, -4, -4] (MovingAverage.init 4) = .ok (m, [1073741823, 1073741822, 1073741821, 1073741820]) ∧
    floorMean (window 4 [-4, -4, -4, -4]) = -4 := ⟨⟨4294967280, [-4, -4, -4, -4], 0⟩, by decide +kernel, by decide⟩

theorem foldl_imod (l : List Int) (b : Int) : l.foldl (fun b x => (b + x) % 4294967296) (b % 4294967296) = (b + l.sum) % 4294967296 := by
  induction l generalizing b with
  | nil => simp
  | cons a l ih =>
    rw [List.foldl_cons, List.sum_cons, show (b % 4294967296 + a) % 4294967296 = (b + a) % 4294967296 by omega, ih]
    congr 1
    ring

/-- **C173** (Oversampler; partial): likewise the value is the average of the last complete block of `size` samples, rounded down, and 0 before the first complete block. Missing: as above. -/
theorem C173_oversampler_partial (t : Ty) (hw : 0 < t.w ∧ t.w ≤ 32) (size : Nat) (hp : IntMath.isPowerOf2 size = true) (xs : List Int) (hx : ∀ x ∈ xs, InTy t x)
    (hc : t.w + IntMath.log2T size ≤ 32 ∨ (0 ≤ (lastBlock size xs).sum ∧ (lastBlock size xs).sum < 4294967296)) :
    (xs.foldl (Oversampler.addVal t size) Oversampler.init).value = if xs.length < size then 0 else floorMean (lastBlock size xs) := by
  obtain ⟨_, _, _, _, _, hk⟩ := MovingAverage.exact t size hp []
  have h0 : 0 < size := by rw [hk]; exact Nat.two_pow_pos _
  have sim : ∀ (xs : List Int) (o : Oversampler) (s : Int × Int × Nat), s = (o.buff, o.value, o.idx) →
      (xs.foldl (Oversampler.addVal t size) o).value = (xs.foldl (blockStep size (fun b x => (b + x) % 4294967296) 0 (fun b => shifted t size b)) s).2.1 := by
    intro xs
    induction xs with
    | nil => intro o s h; rw [h]; rfl
    | cons x xs ih =>
      intro o s h
      rw [List.foldl_cons, List.foldl_cons]
      apply ih
      rw [h]; unfold blockStep Oversampler.addVal
      simp only
      by_cases hw : o.idx + 1 ≥ size
      · rw [if_pos hw, if_pos hw]
      · rw [if_neg hw, if_neg hw]
  rw [sim xs Oversampler.init (0, 0, 0) rfl, block_run size h0]
  simp only
  by_cases hl : xs.length < size
  · rw [if_pos hl, if_pos hl]
  · rw [if_neg hl, if_neg hl]
    have hlen := lastBlock_length size h0 xs (by omega)
    have hf := foldl_imod (lastBlock size xs) 0
    rw [Int.zero_emod, Int.zero_add] at hf
    rw [hf]
    have hin := sum_inTy t (lastBlock size xs) (fun x h => hx x (lastBlock_mem size xs x h)) (by
      intro hc; rw [hc] at hlen; simp at hlen; omega)
    rw [hlen] at hin
    unfold floorMean
    rw [hlen]
    exact shifted_eq t hw.1 size hk _ hin hc

example := C173_oversampler_partial ⟨16, true⟩ (by decide) 4 (by decide +kernel) [-4, -4, -5, 3, 7] (by decide) (Or.inl (by decide +kernel))

/-- **C173** (SmoothOversampler; partial): for every size and every stream of integers, the value is the exact average of the last complete block (up to the rounding of the float division) whenever that block's sum is in 0..2^32-1, and 0 before the first complete block.
Missing: blocks with a negative sum. -/
theorem C173_smooth_partial (size : Nat) (h0 : 0 < size) (xs : List Int) (hc : 0 ≤ (lastBlock size xs).sum ∧ (lastBlock size xs).sum < 4294967296) :
    (xs.foldl (Smooth.addVal size) Smooth.init).value = if xs.length < size then 0 else ((lastBlock size xs).sum : ℚ) / size := by
  have sim : ∀ (xs : List Int) (o : Smooth) (s : Int × ℚ × Nat), s = (o.buff, o.value, o.idx) →
      (xs.foldl (Smooth.addVal size) o).value = (xs.foldl (blockStep size (fun b x => (b + x) % 4294967296) 0 (fun b : Int => (b : ℚ) / size)) s).2.1 := by
    intro xs
    induction xs with
    | nil => intro o s h; rw [h]; rfl
    | cons x xs ih =>
      intro o s h
      rw [List.foldl_cons, List.foldl_cons]
      apply ih
      rw [h]; unfold blockStep Smooth.addVal
      simp only
      by_cases hw : o.idx + 1 ≥ size
      · rw [if_pos hw, if_pos hw]
      · rw [if_neg hw, if_neg hw]
  rw [sim xs Smooth.init (0, 0, 0) rfl, block_run size h0]
  simp only
  by_cases hl : xs.length < size
  · rw [if_pos hl, if_pos hl]
  · rw [if_neg hl, if_neg hl]
    have hf := foldl_imod (lastBlock size xs) 0
    rw [Int.zero_emod, Int.zero_add] at hf
    rw [hf, Int.emod_eq_of_lt hc.1 hc.2]

example := C173_smooth_partial 3 (by decide) [-4, 9, -3, 8] (by decide)

/-- **C173 is violated** by SmoothOversampler with any signed type: the average of four times -1 comes out as 1073741823. -/
theorem C173_smooth_violated : ([-1, -1, -1, -1].foldl (Smooth.addVal 4) Smooth.init).value = 1073741823 := by decide +kernel

end FilterInt
