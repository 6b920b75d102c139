import Verif.Model.Filter
import Verif.Spec.Filter
import Verif.Props.IntMath
import Verif.Mem
import Mathlib.Data.List.Induction
import Mathlib.Tactic.Linarith
import Mathlib.Tactic.Ring
import Mathlib.Tactic.FieldSimp
import Mathlib.Tactic.NormNum
import Mathlib.Algebra.Order.Field.Basic
import Mathlib.Algebra.Order.Group.Unbundled.Abs
/-! # Properties C98, C99, C100 and C128: filters -/

namespace Filter
open Spec

theorem W_val : W = 4294967296 := rfl

/-- A size accepted by the power-of-two `static_assert`. -/
theorem compiles_pow2 {size bits : Nat} (h : compiles true size bits = true) : size = 2 ^ IntMath.log2T size ∧ size * 2 ^ bits ≤ 2 ^ 32 := by
  unfold compiles at h
  simp only [Bool.not_true, Bool.false_or, Bool.and_eq_true, decide_eq_true_eq] at h
  obtain ⟨h1, h2⟩ := h
  obtain ⟨k, hk⟩ : ∃ k, size = 2 ^ k := by
    have := (IntMath.C78_is_power_of_2 size).mp h1
    exact this
  have h0 : size ≠ 0 := by rw [hk]; exact Nat.ne_of_gt (Nat.two_pow_pos k)
  obtain ⟨b1, b2⟩ := IntMath.C78_Log2 size h0
  have hlog : IntMath.log2T size = k := by
    have e1 := (Nat.log2_eq_iff h0).mpr ⟨b1, b2⟩
    have e2 := (Nat.log2_eq_iff (n := size) (k := k) h0).mpr ⟨by omega, by rw [hk, Nat.pow_succ]; have := Nat.two_pow_pos k; omega⟩
    omega
  rw [hlog] at h2 ⊢
  refine ⟨hk, ?_⟩
  rw [hk, ← Nat.pow_add]
  exact Nat.pow_le_pow_right (by decide) h2

theorem sum_le (l : List Nat) (b : Nat) (h : ∀ x ∈ l, x < b) : l.sum + l.length ≤ l.length * b := by
  induction l with
  | nil => simp
  | cons a l ih =>
    have h1 := ih (fun x hx => h x (List.mem_cons_of_mem _ hx))
    have h2 := h a (List.mem_cons_self)
    simp only [List.sum_cons, List.length_cons, Nat.succ_mul]
    omega

/-! ## Moving average -/

theorem lastN_length (n : Nat) (xs : List Nat) : (lastN n xs).length = n := by simp [lastN]

theorem lastN_snoc (n : Nat) (xs : List Nat) (x : Nat) (hn : 0 < n) : lastN n (xs ++ [x]) = (lastN n xs).drop 1 ++ [x] := by
  unfold lastN
  rw [List.drop_drop, ← List.append_assoc, List.drop_append_of_le_length (by simp; omega), List.length_append]
  rfl

theorem lastN_lt (n : Nat) (xs : List Nat) (b : Nat) (hb : 0 < b) (h : ∀ x ∈ xs, x < b) : ∀ x ∈ lastN n xs, x < b := by
  intro x hx
  have := List.mem_of_mem_drop hx
  rcases List.mem_append.mp this with h' | h'
  · have := List.eq_of_mem_replicate h'; omega
  · exact h x h'

namespace MovingAverage

/-- What the state means after samples `xs`. -/
def Inv (size : Nat) (m : MovingAverage) (xs : List Nat) : Prop :=
  m.buff.length = size ∧ m.idx < size ∧ m.buff.drop m.idx ++ m.buff.take m.idx = lastN size xs ∧ m.sum = (lastN size xs).sum

theorem inv_init (size : Nat) (h : 0 < size) : Inv size (init size) [] := by
  refine ⟨by simp [init], h, ?_, ?_⟩
  · simp [init, lastN]
  · simp [init, lastN]

theorem inv_step (size bits : Nat) (hc : compiles true size bits = true) (m : MovingAverage) (xs : List Nat) (x : Nat) (hm : Inv size m xs)
    (hxs : ∀ y ∈ xs, y < 2 ^ bits) (hx : x < 2 ^ bits) :
    ∃ m', addVal size m x = .ok (m', (lastN size (xs ++ [x])).sum / size) ∧ Inv size m' (xs ++ [x]) := by
  obtain ⟨hk, hW⟩ := compiles_pow2 hc
  obtain ⟨h1, h2, h3, h4⟩ := hm
  have h0 : 0 < size := by omega
  have hlt : m.idx < m.buff.length := by omega
  -- the window starts with the element about to be replaced
  have hwin : lastN size xs = m.buff[m.idx] :: (m.buff.drop (m.idx + 1) ++ m.buff.take m.idx) := by
    rw [← h3, List.drop_eq_getElem_cons hlt]; rfl
  have hbound : ∀ ys : List Nat, (∀ y ∈ ys, y < 2 ^ bits) → (lastN size ys).sum < W := by
    intro ys hys
    have := sum_le (lastN size ys) (2 ^ bits) (lastN_lt size ys _ (Nat.two_pow_pos _) hys)
    rw [lastN_length] at this
    rw [W_val]
    omega
  have hs1 := hbound xs hxs
  have hnew : lastN size (xs ++ [x]) = m.buff.drop (m.idx + 1) ++ m.buff.take m.idx ++ [x] := by
    rw [lastN_snoc size xs x h0, hwin]; rfl
  have hs2 := hbound (xs ++ [x]) (by
    intro y hy
    rcases List.mem_append.mp hy with h | h
    · exact hxs y h
    · rw [List.mem_singleton.mp h]; exact hx)
  have hsum : m.sum = m.buff[m.idx] + (m.buff.drop (m.idx + 1) ++ m.buff.take m.idx).sum := by rw [h4, hwin, List.sum_cons]
  have hsum2 : (lastN size (xs ++ [x])).sum = (m.buff.drop (m.idx + 1) ++ m.buff.take m.idx).sum + x := by
    rw [hnew, List.sum_append]; simp
  have hnewsum : ((m.sum + W - m.buff[m.idx]) % W + x) % W = (lastN size (xs ++ [x])).sum := by
    rw [hsum2] at hs2 ⊢
    rw [W_val] at *
    omega
  refine ⟨⟨(lastN size (xs ++ [x])).sum, m.buff.set m.idx x, (m.idx + 1) &&& (size - 1)⟩, ?_, ?_⟩
  · unfold addVal
    rw [arrGet_lt hlt, R.bind_ok, arrSet, if_pos hlt, R.bind_ok]
    simp only
    rw [hnewsum, Nat.shiftRight_eq_div_pow, ← hk]
  · have hidx : (m.idx + 1) &&& (size - 1) = (m.idx + 1) % size := by
      conv_lhs => rw [hk]
      rw [and_mask, ← hk]
    refine ⟨by simp [h1], ?_, ?_, rfl⟩
    · simp only [hidx]; exact Nat.mod_lt _ h0
    · simp only [hidx]
      rw [hnew]
      by_cases hw : m.idx + 1 < size
      · rw [Nat.mod_eq_of_lt hw, List.drop_set_of_lt (by omega), List.take_set, List.append_assoc]
        congr 1
        rw [List.set_eq_take_append_cons_drop]
        have hl : m.idx < (m.buff.take (m.idx + 1)).length := by simp; omega
        rw [if_pos hl, List.take_take]
        rw [List.drop_eq_nil_of_le (by simp)]
        congr 2
        omega
      · have e : m.idx + 1 = size := by omega
        rw [e, Nat.mod_self, List.drop_zero, List.take_zero, List.append_nil, List.set_eq_take_append_cons_drop, if_pos hlt]
        rw [List.drop_eq_nil_of_le (by omega), List.drop_eq_nil_of_le (by omega)]
        rfl

/-- **C98**: for every size and sample width the class accepts and every stream of samples of that width, each add_val returns the sum of the last `size` samples (missing ones
counting 0) divided by `size`, rounded down; val() agrees, and no access is out of bounds. -/
theorem C98_moving_average (size bits : Nat) (hc : compiles true size bits = true) (xs : List Nat) (hx : ∀ x ∈ xs, x < 2 ^ bits) :
    ∃ m vs, run size xs (init size) = .ok (m, vs) ∧ vs = (List.range xs.length).map (fun i => (lastN size (xs.take (i + 1))).sum / size) ∧
      m.val size = (lastN size xs).sum / size := by
  obtain ⟨hk, _⟩ := compiles_pow2 hc
  have h0 : 0 < size := by rw [hk]; exact Nat.two_pow_pos _
  have gen : ∀ (xs pre : List Nat) (m : MovingAverage), Inv size m pre → (∀ x ∈ pre, x < 2 ^ bits) → (∀ x ∈ xs, x < 2 ^ bits) →
      ∃ m' vs, run size xs m = .ok (m', vs) ∧ vs = (List.range xs.length).map (fun i => (lastN size (pre ++ xs.take (i + 1))).sum / size) ∧ Inv size m' (pre ++ xs) := by
    intro xs
    induction xs with
    | nil => intro pre m hm _ _; exact ⟨m, [], rfl, rfl, by simpa using hm⟩
    | cons x xs ih =>
      intro pre m hm hp hxx
      obtain ⟨m1, e1, i1⟩ := inv_step size bits hc m pre x hm hp (hxx x (List.mem_cons_self))
      obtain ⟨m2, vs, e2, e3, i2⟩ := ih (pre ++ [x]) m1 i1 (by
        intro y hy
        rcases List.mem_append.mp hy with h | h
        · exact hp y h
        · rw [List.mem_singleton.mp h]; exact hxx x (List.mem_cons_self)) (fun y hy => hxx y (List.mem_cons_of_mem _ hy))
      refine ⟨m2, (lastN size (pre ++ [x])).sum / size :: vs, ?_, ?_, ?_⟩
      · rw [run, e1, R.bind_ok]
        simp only
        rw [e2, R.bind_ok]
      · rw [List.length_cons, List.range_succ_eq_map, List.map_cons, List.map_map, e3]
        congr 1
        apply List.map_congr_left
        intro i _
        simp [List.append_assoc]
      · simpa [List.append_assoc] using i2
  obtain ⟨m, vs, e1, e2, i⟩ := gen xs [] (init size) (inv_init size h0) (by simp) hx
  refine ⟨m, vs, e1, by simpa using e2, ?_⟩
  unfold val
  rw [Nat.shiftRight_eq_div_pow, ← hk, i.2.2.2]
  rfl

/-- Averages are again samples of that width. -/
theorem C98_range (size bits : Nat) (hc : compiles true size bits = true) (xs : List Nat) (hx : ∀ x ∈ xs, x < 2 ^ bits) : (lastN size xs).sum / size < 2 ^ bits := by
  obtain ⟨hk, _⟩ := compiles_pow2 hc
  have h0 : 0 < size := by rw [hk]; exact Nat.two_pow_pos _
  rw [Nat.div_lt_iff_lt_mul h0]
  have := sum_le (lastN size xs) (2 ^ bits) (lastN_lt size xs _ (Nat.two_pow_pos _) hx)
  rw [lastN_length, Nat.mul_comm] at this
  omega

example : run 4 [4, 8, 12, 16, 100] (init 4) = .ok (⟨136, [100, 8, 12, 16], 1⟩, [1, 3, 6, 10, 34]) ∧ lastN 4 [4, 8, 12, 16, 100] = [8, 12, 16, 100] ∧ compiles true 4 30 = true := by
  refine ⟨?_, by decide, ?_⟩
  · have : IntMath.log2T 4 = 2 := by simp [IntMath.log2T]
    simp [run, addVal, init, arrGet, arrSet, this, W]
  · simp [compiles, IntMath.log2T]; decide

end MovingAverage

/-! ## Block averages -/

/-- The common structure of the fixed-size oversamplers. -/
def blockStep (size : Nat) (add : M → T → M) (zero : M) (fin : M → V) (s : M × V × Nat) (x : T) : M × V × Nat :=
  if s.2.2 + 1 ≥ size then (zero, fin (add s.1 x), 0) else (add s.1 x, s.2.1, s.2.2 + 1)

theorem block_run (size : Nat) (h0 : 0 < size) (add : M → T → M) (zero : M) (fin : M → V) (v0 : V) (xs : List T) :
    xs.foldl (blockStep size add zero fin) (zero, v0, 0) =
      ((xs.drop (xs.length / size * size)).foldl add zero, if xs.length < size then v0 else fin ((lastBlock size xs).foldl add zero), xs.length % size) := by
  induction xs using List.reverseRecOn with
  | nil => simp [h0]
  | append_singleton xs x ih =>
    rw [List.foldl_append, ih, List.foldl_cons, List.foldl_nil]
    obtain ⟨n, hn⟩ : ∃ n, xs.length = n := ⟨_, rfl⟩
    have hlen : (xs ++ [x]).length = n + 1 := by simp [hn]
    obtain ⟨q, hq⟩ : ∃ q, n / size = q := ⟨_, rfl⟩
    have hdm : size * q + n % size = n := by rw [← hq]; exact Nat.div_add_mod n size
    have hml : n % size < size := Nat.mod_lt _ h0
    have hle : q * size ≤ n := by rw [Nat.mul_comm]; omega
    rw [hn, hlen, hq]
    unfold blockStep
    simp only
    by_cases hw : n % size + 1 ≥ size
    · rw [if_pos hw]
      have e1 : n + 1 = (q + 1) * size := by rw [Nat.succ_mul, Nat.mul_comm q size]; omega
      have e2 : (n + 1) / size = q + 1 := by rw [e1, Nat.mul_div_cancel _ h0]
      have e3 : (n + 1) % size = 0 := by rw [e1, Nat.mul_mod_left]
      have hge : ¬ (n + 1 < size) := by
        rw [e1, Nat.succ_mul]; omega
      rw [e2, e3, if_neg hge]
      have hd : (xs ++ [x]).drop ((q + 1) * size) = [] := List.drop_eq_nil_of_le (by rw [hlen]; omega)
      rw [hd]
      unfold lastBlock
      rw [hlen, e2, Nat.add_sub_cancel, List.drop_append_of_le_length (by omega), List.take_of_length_le (by simp [hn]; rw [Nat.succ_mul] at e1; omega), List.foldl_append]
      rfl
    · rw [if_neg hw]
      have e2 : (n + 1) / size = q := by
        apply Nat.div_eq_of_lt_le
        · omega
        · rw [Nat.succ_mul, Nat.mul_comm q size]; omega
      have e3 : (n + 1) % size = n % size + 1 := by
        have := Nat.div_add_mod (n + 1) size
        rw [e2] at this; omega
      rw [e2, e3, List.drop_append_of_le_length (by omega), List.foldl_append]
      simp only [List.foldl_cons, List.foldl_nil]
      congr 2
      by_cases hs : n < size
      · have hs' : n + 1 < size := by
          rw [Nat.mod_eq_of_lt hs] at hw; omega
        rw [if_pos hs, if_pos hs']
      · have hs' : ¬ (n + 1 < size) := by omega
        rw [if_neg hs, if_neg hs']
        congr 2
        unfold lastBlock
        rw [hn, hlen, hq, e2]
        have hq1 : 1 ≤ q := by
          rw [← hq]; exact (Nat.one_le_div_iff h0).mpr (by omega)
        have hsz : (q - 1) * size + size ≤ n := by
          have : (q - 1) * size + size = q * size := by
            rw [← Nat.succ_mul]; congr 1; omega
          omega
        rw [List.drop_append_of_le_length (by omega), List.take_append_of_le_length (by simp [hn]; omega)]

theorem lastBlock_length (size : Nat) (h0 : 0 < size) (xs : List T) (h : size ≤ xs.length) : (lastBlock size xs).length = size := by
  unfold lastBlock
  simp only [List.length_take, List.length_drop]
  have hq1 : 1 ≤ xs.length / size := (Nat.one_le_div_iff h0).mpr h
  have h2 : (xs.length / size) * size ≤ xs.length := Nat.div_mul_le_self _ _
  have h3 : (xs.length / size - 1) * size + size = xs.length / size * size := by
    rw [← Nat.succ_mul]; congr 1; omega
  omega

theorem lastBlock_mem (size : Nat) (xs : List T) (x : T) (h : x ∈ lastBlock size xs) : x ∈ xs := List.mem_of_mem_drop (List.mem_of_mem_take h)

theorem foldl_mod (l : List Nat) (b : Nat) : l.foldl (fun b x => (b + x) % W) (b % W) = (b + l.sum) % W := by
  induction l generalizing b with
  | nil => simp
  | cons a l ih =>
    rw [List.foldl_cons, List.sum_cons, show (b % W + a) % W = (b + a) % W by rw [Nat.mod_add_mod], ih, Nat.add_assoc]

theorem foldl_mod0 (l : List Nat) (h : l.sum < W) : l.foldl (fun b x => (b + x) % W) 0 = l.sum := by
  have := foldl_mod l 0
  rw [Nat.zero_mod, Nat.zero_add, Nat.mod_eq_of_lt h] at this
  exact this

/-- **C99**: for every size and sample width Oversampler accepts, after every stream of samples the value (also returned by add_val) is the average of the last complete block
of `size` samples, rounded down; 0 before the first complete block. -/
theorem C99_oversampler (size bits : Nat) (hc : compiles true size bits = true) (xs : List Nat) (hx : ∀ x ∈ xs, x < 2 ^ bits) :
    (xs.foldl (Oversampler.addVal size) Oversampler.init).val = if xs.length < size then 0 else (lastBlock size xs).sum / size := by
  obtain ⟨hk, hW⟩ := compiles_pow2 hc
  have h0 : 0 < size := by rw [hk]; exact Nat.two_pow_pos _
  have sim : ∀ (xs : List Nat) (o : Oversampler) (s : Nat × Nat × Nat), s = (o.buff, o.value, o.idx) →
      (xs.foldl (Oversampler.addVal size) o).value = (xs.foldl (blockStep size (fun b x => (b + x) % W) 0 (fun b => b >>> IntMath.log2T size)) s).2.1 := by
    intro xs
    induction xs with
    | nil => intro o s h; rw [h]; rfl
    | cons x xs ih =>
      intro o s h
      rw [List.foldl_cons, List.foldl_cons]
      apply ih
      rw [h]; unfold blockStep Oversampler.addVal
      simp only
      by_cases hw : o.idx + 1 ≥ size
      · rw [if_pos hw, if_pos hw]
      · rw [if_neg hw, if_neg hw]
  unfold Oversampler.val
  rw [sim xs Oversampler.init (0, 0, 0) rfl, block_run size h0]
  simp only
  by_cases hl : xs.length < size
  · rw [if_pos hl, if_pos hl]
  · rw [if_neg hl, if_neg hl]
    have hb := sum_le (lastBlock size xs) (2 ^ bits) (fun x h => hx x (lastBlock_mem size xs x h))
    rw [lastBlock_length size h0 xs (by omega)] at hb
    rw [foldl_mod0 _ (by rw [W_val]; omega), Nat.shiftRight_eq_div_pow, ← hk]

example := C99_oversampler 16 12 (by decide +kernel) (List.replicate 40 4095) (by decide +kernel)

theorem smooth_sim (size : Nat) : ∀ (xs : List Nat) (o : Smooth) (s : Nat × ℚ × Nat), s = (o.buff, o.value, o.idx) →
    (xs.foldl (Smooth.addVal size) o).value = (xs.foldl (blockStep size (fun b x => (b + x) % W) 0 (fun b => (b : ℚ) / size)) s).2.1 := by
  intro xs
  induction xs with
  | nil => intro o s h; rw [h]; rfl
  | cons x xs ih =>
    intro o s h
    rw [List.foldl_cons, List.foldl_cons]
    apply ih
    rw [h]; unfold blockStep Smooth.addVal
    simp only
    by_cases hw : o.idx + 1 ≥ size
    · rw [if_pos hw, if_pos hw]
    · rw [if_neg hw, if_neg hw]

/-- **C99** (partial): SmoothOversampler gives the exact average of the last complete block, for any size whose block sums fit 32 bits ... -/
theorem C99_smooth_partial (size bits : Nat) (h0 : 0 < size) (hfit : size * 2 ^ bits ≤ 2 ^ 32) (xs : List Nat) (hx : ∀ x ∈ xs, x < 2 ^ bits) :
    (xs.foldl (Smooth.addVal size) Smooth.init).val = if xs.length < size then 0 else ((lastBlock size xs).sum : ℚ) / size := by
  unfold Smooth.val
  rw [smooth_sim size xs Smooth.init (0, 0, 0) rfl, block_run size h0]
  simp only
  by_cases hl : xs.length < size
  · rw [if_pos hl, if_pos hl]
  · rw [if_neg hl, if_neg hl]
    have hb := sum_le (lastBlock size xs) (2 ^ bits) (fun x h => hx x (lastBlock_mem size xs x h))
    rw [lastBlock_length size h0 xs (by omega)] at hb
    rw [foldl_mod0 _ (by rw [W_val]; omega)]

/-- ... in particular for every power of two it accepts ... -/
theorem C99_smooth_pow2 (size bits : Nat) (hc : compiles true size bits = true) (xs : List Nat) (hx : ∀ x ∈ xs, x < 2 ^ bits) :
    (xs.foldl (Smooth.addVal size) Smooth.init).val = if xs.length < size then 0 else ((lastBlock size xs).sum : ℚ) / size := by
  obtain ⟨hk, hW⟩ := compiles_pow2 hc
  exact C99_smooth_partial size bits (by rw [hk]; exact Nat.two_pow_pos _) hW xs hx

/-- ... **violated** for other sizes: its `static_assert` rounds log2(Size) down, so it accepts size 3 with 31-bit samples, and three equal large samples average to something else. -/
theorem C99_smooth_violated : compiles false 3 31 = true ∧ (∀ x ∈ [2 ^ 31 - 1, 2 ^ 31 - 1, 2 ^ 31 - 1], x < 2 ^ 31) ∧
    ([2 ^ 31 - 1, 2 ^ 31 - 1, 2 ^ 31 - 1].foldl (Smooth.addVal 3) Smooth.init).val ≠ ((lastBlock 3 [2 ^ 31 - 1, 2 ^ 31 - 1, 2 ^ 31 - 1]).sum : ℚ) / 3 := by
  refine ⟨by simp [compiles, IntMath.log2T], by decide, ?_⟩
  simp [Smooth.addVal, Smooth.init, Smooth.val, lastBlock, W]
  norm_num

example : ([1, 2, 3, 6, 5].foldl (Oversampler.addVal 2) Oversampler.init).val = 4 ∧ lastBlock 2 [1, 2, 3, 6, 5] = [3, 6] := by
  have : IntMath.log2T 2 = 1 := by simp [IntMath.log2T]
  constructor
  · simp [Oversampler.addVal, Oversampler.init, Oversampler.val, this, W]
  · decide

/-! ### Resizing -/

/-- One operation of a resizing oversampler. -/
def Resizing.step (o : Resizing) : Op → R Resizing
  | .setSize n => o.setSize n
  | .add x => o.addVal x
  | .reset => .ok o.reset

/-- A sequence of operations. -/
def Resizing.run : List Op → Resizing → R Resizing
  | [], o => .ok o
  | op :: ops, o => do let o ← o.step op; run ops o

def Rel (o : Resizing) (b : Blocks) : Prop := o.buff = b.cur.sum ∧ o.idx = b.cur.length ∧ o.value = b.out ∧ o.size = b.size ∧ b.cur.length < b.size

theorem rel_step (o : Resizing) (b : Blocks) (h : Rel o b) (op : Op) (hop : ∀ n, op = .setSize n → 0 < n) : ∃ o', o.step op = .ok o' ∧ Rel o' (b.step op) := by
  obtain ⟨h1, h2, h3, h4, h5⟩ := h
  obtain ⟨ob, ov, oi, os⟩ := o
  obtain ⟨cur, out, size⟩ := b
  simp only at h1 h2 h3 h4 h5
  subst h1; subst h2; subst h3; subst h4
  cases op with
  | setSize n =>
    have hn := hop n rfl
    show ∃ o', Resizing.setSize _ n = .ok o' ∧ Rel o' (Blocks.finish _)
    unfold Resizing.setSize Blocks.finish
    simp only
    by_cases hw : cur.length ≥ n
    · rw [if_pos hw, if_neg (by omega), if_pos hw]
      exact ⟨_, rfl, rfl, rfl, rfl, rfl, hn⟩
    · rw [if_neg hw, if_neg (show ¬ (n ≤ cur.length) by omega)]
      exact ⟨_, rfl, rfl, rfl, rfl, rfl, by simp only; omega⟩
  | add x =>
    show ∃ o', Resizing.addVal _ x = .ok o' ∧ Rel o' (Blocks.finish _)
    unfold Resizing.addVal Blocks.finish
    simp only [List.length_append, List.length_cons, List.length_nil]
    by_cases hw : cur.length + 1 ≥ os
    · rw [if_pos hw, if_neg (by omega), if_pos hw]
      refine ⟨_, rfl, rfl, rfl, ?_, rfl, by simp only [List.length_nil]; omega⟩
      have e : os = cur.length + 1 := by omega
      simp only [mean, List.sum_append, List.length_append, List.sum_cons, List.sum_nil, List.length_cons, List.length_nil, e, add_zero]
    · rw [if_neg hw, if_neg (show ¬ (os ≤ cur.length + (0 + 1)) by omega)]
      exact ⟨_, rfl, by simp, by simp, rfl, rfl, by simp only [List.length_append, List.length_cons, List.length_nil]; omega⟩
  | reset =>
    exact ⟨_, rfl, rfl, rfl, rfl, rfl, by simp only [Blocks.step, List.length_nil]; omega⟩

/-- **C99**: ResizingOversampler with any history of samples, size changes (to positive sizes) and resets: its value is the mean of the samples of the last finished block, a block being
finished as soon as it has at least the current size of samples. -/
theorem C99_resizing (size : Nat) (h0 : 0 < size) (ops : List Op) (hops : ∀ n, .setSize n ∈ ops → 0 < n) :
    ∃ o, Resizing.run ops (Resizing.ofSize size) = .ok o ∧ o.val = (ops.foldl Blocks.step ⟨[], 0, size⟩).out ∧ (ops.foldl Blocks.step ⟨[], 0, size⟩).cur.length < o.size := by
  have gen : ∀ (ops : List Op) (o : Resizing) (b : Blocks), Rel o b → (∀ n, .setSize n ∈ ops → 0 < n) → ∃ o', Resizing.run ops o = .ok o' ∧ Rel o' (ops.foldl Blocks.step b) := by
    intro ops
    induction ops with
    | nil => intro o b h _; exact ⟨o, rfl, h⟩
    | cons op ops ih =>
      intro o b h hn
      obtain ⟨o1, e1, r1⟩ := rel_step o b h op (fun n hop => hn n (by rw [← hop]; exact List.mem_cons_self))
      obtain ⟨o2, e2, r2⟩ := ih o1 _ r1 (fun n hm => hn n (List.mem_cons_of_mem _ hm))
      exact ⟨o2, by rw [Resizing.run, e1, R.bind_ok, e2], r2⟩
  obtain ⟨o, e, r⟩ := gen ops (Resizing.ofSize size) ⟨[], 0, size⟩ ⟨rfl, rfl, rfl, rfl, h0⟩ hops
  exact ⟨o, e, r.2.2.1, by rw [r.2.2.2.1]; exact r.2.2.2.2⟩

/-- **C99**: assignment copies the whole state; the default size is 1 (every sample passes); set_size(0) on an empty block divides zero by zero. -/
theorem C99_resizing_misc (a b : Resizing) (x : ℚ) : a.assign b = b ∧ Resizing.init = Resizing.ofSize 1 ∧ Resizing.init.val = 0 ∧ (Resizing.init.addVal x) = .ok ⟨0, x, 0, 1⟩ ∧ Resizing.init.setSize 0 = .ub := by
  refine ⟨rfl, rfl, rfl, ?_, rfl⟩
  simp [Resizing.init, Resizing.addVal]

example : Resizing.run [.add 2, .add 4, .add 9, .setSize 3, .add 1] (Resizing.ofSize 4) = .ok ⟨1, 5, 1, 3⟩ := by
  simp [Resizing.run, Resizing.step, Resizing.setSize, Resizing.addVal, Resizing.ofSize]; norm_num

/-! ## One-pole filters -/

/-- **C100**: the hysteresis filter: the new state is within the threshold of the input, lies between old state and input, and does not move if the input is within the threshold
of it. -/
theorem C100_hysteresis (num div : Nat) (s x : ℚ) (t : ℚ) (ht : t = (num : ℚ) / div) (s' : ℚ) (hs : s' = onePole (hysteresis num div) s x) :
    |x - s'| ≤ t ∧ Between s x s' ∧ (|x - s| ≤ t → s' = s) ∧ (t < |x - s| → |x - s'| = t) := by
  have ht0 : 0 ≤ t := by rw [ht]; positivity
  have hs' : s' = s + ((x - s) - clampQ (x - s) (-t) t) := by rw [hs, ht]; rfl
  unfold clampQ at hs'
  split at hs'
  · next h =>
    have e : x - s' = -t := by rw [hs']; ring
    refine ⟨by rw [e, abs_neg, abs_of_nonneg ht0], ?_, ?_, ?_⟩
    · unfold Between; rw [min_eq_right (by linarith), max_eq_left (by linarith)]; constructor <;> linarith
    · intro h'; rw [abs_le] at h'; linarith [h'.1]
    · intro _; rw [e, abs_neg, abs_of_nonneg ht0]
  · next h =>
    split at hs'
    · next h2 =>
      have e : x - s' = t := by rw [hs']; ring
      refine ⟨by rw [e, abs_of_nonneg ht0], ?_, ?_, ?_⟩
      · unfold Between; rw [min_eq_left (by linarith), max_eq_right (by linarith)]; constructor <;> linarith
      · intro h'; rw [abs_le] at h'; linarith [h'.2]
      · intro _; rw [e, abs_of_nonneg ht0]
    · next h2 =>
      have e : s' = s := by rw [hs']; ring
      have hle : |x - s| ≤ t := by rw [abs_le]; constructor <;> linarith
      refine ⟨by rw [e]; exact hle, ?_, fun _ => e, ?_⟩
      · unfold Between; rw [e]; exact ⟨min_le_left _ _, le_max_left _ _⟩
      · intro h'; linarith

example := C100_hysteresis 1 100 (1 / 2) (3 / 5) _ rfl _ rfl

/-- **C100**: hence, whatever the inputs, the hysteresis filter is always within its threshold of the last input. -/
theorem C100_hysteresis_run (num div : Nat) (s : ℚ) (xs : List ℚ) (x : ℚ) :
    |x - (xs ++ [x]).foldl (onePole (hysteresis num div)) s| ≤ (num : ℚ) / div := by
  rw [List.foldl_append, List.foldl_cons, List.foldl_nil]
  exact (C100_hysteresis num div _ x _ rfl _ rfl).1

/-- **C100**: the quadratic filter with an input at most `divisor` away: the new state lies between old state and input, and equals the state exactly when input equals state. -/
theorem C100_quadratic (divisor : Nat) (hd : 0 < divisor) (s x : ℚ) (hx : |x - s| ≤ divisor) (s' : ℚ) (hs : s' = onePole (quadratic divisor) s x) :
    Between s x s' ∧ (s' = s ↔ x = s) ∧ (|x - s| = divisor → s' = x) := by
  have hd' : (0 : ℚ) < divisor := by exact_mod_cast hd
  obtain ⟨k, hk⟩ : ∃ k, |x - s| * (1 / divisor) = k := ⟨_, rfl⟩
  have e : s' = s + k * (x - s) := by rw [hs, ← hk]; unfold onePole quadratic; ring
  have k0 : 0 ≤ k := by rw [← hk]; positivity
  have k1 : k ≤ 1 := by
    rw [← hk, mul_one_div]
    exact (div_le_one hd').mpr hx
  refine ⟨?_, ?_, ?_⟩
  · unfold Between
    rcases le_total s x with h | h
    · rw [min_eq_left h, max_eq_right h, e]; constructor <;> nlinarith
    · rw [min_eq_right h, max_eq_left h, e]; constructor <;> nlinarith
  · constructor
    · intro h
      rw [e] at h
      have : k * (x - s) = 0 := by linarith
      rcases mul_eq_zero.mp this with h0 | h0
      · rw [← hk] at h0
        rcases mul_eq_zero.mp h0 with h1 | h1
        · have := abs_eq_zero.mp h1; linarith
        · exfalso
          have : (0 : ℚ) < 1 / divisor := by positivity
          linarith
      · linarith
    · intro h
      rw [e, h]; ring
  · intro h
    have : k = 1 := by rw [← hk, h, mul_one_div, div_self (ne_of_gt hd')]
    rw [e, this]; ring

/-- **C100**: hence with the initial state and all inputs within an interval no longer than `divisor` (for the hysteresis filter: any interval), the state never leaves it. -/
theorem C100_stays (lo hi : ℚ) (s : ℚ) (hs : lo ≤ s ∧ s ≤ hi) (xs : List ℚ) (hxs : ∀ x ∈ xs, lo ≤ x ∧ x ≤ hi) (divisor : Nat) (hd : 0 < divisor) (hr : hi - lo ≤ divisor) (num div : Nat) :
    (lo ≤ xs.foldl (onePole (quadratic divisor)) s ∧ xs.foldl (onePole (quadratic divisor)) s ≤ hi) ∧
    (lo ≤ xs.foldl (onePole (hysteresis num div)) s ∧ xs.foldl (onePole (hysteresis num div)) s ≤ hi) := by
  constructor
  · induction xs generalizing s with
    | nil => exact hs
    | cons x xs ih =>
      rw [List.foldl_cons]
      apply ih _ _ (fun y hy => hxs y (List.mem_cons_of_mem _ hy))
      have hx := hxs x (List.mem_cons_self)
      have hab : |x - s| ≤ divisor := by rw [abs_le]; constructor <;> linarith [hx.1, hx.2, hs.1, hs.2]
      obtain ⟨⟨b1, b2⟩, _, _⟩ := C100_quadratic divisor hd s x hab _ rfl
      exact ⟨le_trans (le_min hs.1 hx.1) b1, le_trans b2 (max_le hs.2 hx.2)⟩
  · induction xs generalizing s with
    | nil => exact hs
    | cons x xs ih =>
      rw [List.foldl_cons]
      apply ih _ _ (fun y hy => hxs y (List.mem_cons_of_mem _ hy))
      have hx := hxs x (List.mem_cons_self)
      obtain ⟨_, ⟨b1, b2⟩, _, _⟩ := C100_hysteresis num div s x _ rfl _ rfl
      exact ⟨le_trans (le_min hs.1 hx.1) b1, le_trans b2 (max_le hs.2 hx.2)⟩

/-- The range of the quadratic filter is needed: beyond `divisor` it overshoots. -/
theorem C100_quadratic_range_needed (divisor : Nat) (hd : 0 < divisor) (x : ℚ) (hx : (divisor : ℚ) < x) : x < onePole (quadratic divisor) 0 x := by
  have hd' : (0 : ℚ) < divisor := by exact_mod_cast hd
  unfold onePole quadratic
  rw [sub_zero, abs_of_pos (by linarith), zero_add, mul_one_div, lt_div_iff₀ hd']
  nlinarith

example : onePole (hysteresis 1 2) 3 10 = 19/2 ∧ onePole (quadratic 4) 3 5 = 4 := by
  constructor
  · simp [onePole, hysteresis, clampQ]; norm_num
  · simp [onePole, quadratic]; norm_num

/-! ## Composition -/

/-- Feed a sequence, reading `val` after each sample. -/
def F.feedRead (f : F α) : List α → f.S → f.S × List α
  | [], s => (s, [])
  | x :: xs, s =>
    let r := f.val (f.add s x).1
    let r' := feedRead f xs r.1
    (r'.1, r.2 :: r'.2)

/-- Feed a sequence, collecting what `add` returns. -/
def F.feed (f : F α) : List α → f.S → f.S × List α
  | [], s => (s, [])
  | x :: xs, s =>
    let r := f.add s x
    let r' := feed f xs r.1
    (r'.1, r.2 :: r'.2)

/-- **C128**: NoFilter returns each sample unchanged; val() is the last sample. -/
theorem C128_no_filter (α : Type) (zero : α) (xs : List α) (s : α) :
    ((noFilter α zero).feed xs s).2 = xs ∧ ((noFilter α zero).feedRead xs s).2 = xs ∧ ((noFilter α zero).val ((noFilter α zero).feed xs s).1).2 = xs.getLastD s := by
  induction xs generalizing s with
  | nil => exact ⟨rfl, rfl, rfl⟩
  | cons x xs ih =>
    obtain ⟨h1, h2, h3⟩ := ih x
    refine ⟨?_, ?_, ?_⟩
    · exact congrArg (x :: ·) h1
    · exact congrArg (x :: ·) h2
    · rw [List.getLastD_cons]; exact h3

/-- **C128**: a cascade read after every sample outputs the second filter applied to the outputs of the first; add_val returns the first filter's value and does not reach the second. -/
theorem C128_cascade (f1 f2 : F α) (xs : List α) (s1 : f1.S) (s2 : f2.S) :
    ((cascade f1 f2).feedRead xs (s1, s2)).2 = (f2.feed (f1.feedRead xs s1).2 s2).2 ∧ ((cascade f1 f2).feed xs (s1, s2)).2 = (f1.feed xs s1).2 ∧
    ((cascade f1 f2).feed xs (s1, s2)).1.2 = s2 := by
  induction xs generalizing s1 s2 with
  | nil => exact ⟨rfl, rfl, rfl⟩
  | cons x xs ih =>
    refine ⟨?_, ?_, ?_⟩
    · obtain ⟨i1, _, _⟩ := ih (f1.val (f1.add s1 x).1).1 (f2.add s2 (f1.val (f1.add s1 x).1).2).1
      exact congrArg ((f2.add s2 (f1.val (f1.add s1 x).1).2).2 :: ·) i1
    · obtain ⟨_, i2, _⟩ := ih (f1.add s1 x).1 s2
      exact congrArg ((f1.add s1 x).2 :: ·) i2
    · exact (ih (f1.add s1 x).1 s2).2.2

example : ((cascade (noFilter Nat 0) (noFilter Nat 0)).feedRead [3, 1, 4] (F.init _)).2 = [3, 1, 4] := rfl

end Filter
