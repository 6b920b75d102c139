import Verif.Model.ParamsInt
import Mathlib.Tactic.Linarith
import Mathlib.Tactic.Ring
import Mathlib.Tactic.Positivity
import Mathlib.Data.List.Range
/-! # Property C171: interpolated parameters of machine integer types -/

namespace ParamsInt

theorem conv_id {t : Ty} (hw : 0 < t.w) {x : Int} (h : InTy t x) : conv t x = x := by
  unfold conv
  unfold InTy at h
  split
  · next hs =>
    rw [if_pos hs] at h
    have h2 : (2 : Int) ^ t.w = 2 ^ (t.w - 1) + 2 ^ (t.w - 1) := by
      rw [show t.w = (t.w - 1) + 1 by omega, pow_succ, Nat.add_sub_cancel]; ring
    rw [Int.emod_eq_of_lt (by linarith) (by linarith)]
    ring
  · next hs =>
    rw [if_neg hs] at h
    exact Int.emod_eq_of_lt h.1 h.2

theorem op_id {t : Ty} (hw : 0 < t.w) {x : Int} (h : InTy t x) : op t x = .ok x := by
  unfold op
  rw [if_neg (by rintro ⟨_, _, h'⟩; exact h' h), conv_id hw h]

theorem inTy_between {t : Ty} {a b x : Int} (ha : InTy t a) (hb : InTy t b) (h : min a b ≤ x ∧ x ≤ max a b) : InTy t x := by
  unfold InTy at *
  split at ha <;> rename_i hs
  · rw [if_pos hs] at hb ⊢
    exact ⟨le_trans (le_min ha.1 hb.1) h.1, lt_of_le_of_lt h.2 (max_lt ha.2 hb.2)⟩
  · rw [if_neg hs] at hb ⊢
    exact ⟨le_trans (le_min ha.1 hb.1) h.1, lt_of_le_of_lt h.2 (max_lt ha.2 hb.2)⟩

theorem inTy_zero (t : Ty) : InTy t 0 := by
  unfold InTy
  split
  · exact ⟨by have : (0 : Int) < 2 ^ (t.w - 1) := by positivity
              linarith, by positivity⟩
  · exact ⟨le_refl _, by positivity⟩

/-- `k` truncated steps stay between the ends. -/
theorem between (a v : Int) (n k : Nat) (hn : 0 < n) (hk : k ≤ n) :
    min a v ≤ a + k * (v - a).tdiv n ∧ a + k * (v - a).tdiv n ≤ max a v := by
  have hk' : (k : Int) ≤ n := by exact_mod_cast hk
  have hk0 : (0 : Int) ≤ k := by positivity
  have hn' : (0 : Int) < n := by exact_mod_cast hn
  have hdm := Int.mul_tdiv_add_tmod (v - a) n
  rcases le_total 0 (v - a) with h | h
  · have hq := Int.tdiv_nonneg h hn'.le
    have hr := Int.tmod_nonneg (n : Int) h
    have h1 : (k : Int) * (v - a).tdiv n ≤ n * (v - a).tdiv n := mul_le_mul_of_nonneg_right hk' hq
    have h2 : (0 : Int) ≤ k * (v - a).tdiv n := mul_nonneg hk0 hq
    rw [min_eq_left (by linarith), max_eq_right (by linarith)]
    exact ⟨by linarith, by linarith⟩
  · have hq := Int.tdiv_nonneg (by linarith : 0 ≤ -(v - a)) hn'.le
    have hr := Int.tmod_nonneg (n : Int) (by linarith : 0 ≤ -(v - a))
    rw [Int.neg_tdiv] at hq
    rw [Int.neg_tmod] at hr
    have h1 : (k : Int) * -(v - a).tdiv n ≤ n * -(v - a).tdiv n := mul_le_mul_of_nonneg_right hk' hq
    have h2 : (0 : Int) ≤ k * -(v - a).tdiv n := mul_nonneg hk0 hq
    rw [min_eq_right (by linarith), max_eq_left (by linarith)]
    exact ⟨by linarith, by linarith⟩

theorem nexts_spec {t : Ty} (hw : 0 < t.w) (a v : Int) (n : Nat) (hn : 0 < n) (ha : InTy t a) (hv : InTy t v) (p : St) (hs : p.step = (v - a).tdiv n) :
    ∀ (k i : Nat), i + k ≤ n → p.cur = a + i * (v - a).tdiv n →
      nexts t k p = .ok ((List.range k).map (fun j : Nat => a + ((i + j + 1 : Nat) : Int) * (v - a).tdiv n)) := by
  intro k
  induction k generalizing p with
  | zero => intro i _ _; rfl
  | succ k ih =>
    intro i hi hc
    have hb : p.cur + p.step = a + ((i + 1 : Nat) : Int) * (v - a).tdiv n := by rw [hc, hs]; push_cast; ring
    have hin : InTy t (p.cur + p.step) := by rw [hb]; exact inTy_between ha hv (between a v n (i + 1) hn (by omega))
    have hx : next t p = .ok { p with cur := p.cur + p.step } := by
      unfold next; rw [op_id hw hin]; rfl
    unfold nexts
    rw [hx]
    simp only [R.bind_ok]
    rw [ih { p with cur := p.cur + p.step } hs (i + 1) (by omega) hb]
    simp only [R.bind_ok, R.ok.injEq]
    rw [List.range_succ_eq_map, List.map_cons, List.map_map, hb]
    congr 1
    apply List.map_congr_left
    intro j _
    simp only [Function.comp]
    congr 2
    push_cast
    ring

theorem tdiv_inTy {t : Ty} {d : Int} (n : Nat) (hn : 0 < n) (hd : InTy t d) : InTy t (d.tdiv n) := by
  refine inTy_between (inTy_zero t) hd ?_
  have := between 0 d n 1 hn hn
  simpa using this

theorem setStep_ok {t : Ty} (hw : 0 < t.w) (p : St) (v : Int) (n : Nat) (hn : 0 < n) (hd : InTy t (v - p.cur)) :
    setStep t p v n = .ok { p with step := (v - p.cur).tdiv n } := by
  have hn0 : (n : Int) ≠ 0 := by exact_mod_cast hn.ne'
  unfold setStep
  rw [op_id hw hd]
  simp only [R.bind_ok]
  rw [if_neg hn0, op_id hw (tdiv_inTy n hn hd)]
  rfl

theorem end_close (a v : Int) (n : Nat) (hn : 0 < n) : |v - (a + n * (v - a).tdiv n)| < n := by
  have hdm := Int.mul_tdiv_add_tmod (v - a) n
  have e : v - (a + n * (v - a).tdiv n) = (v - a).tmod n := by linarith
  rw [e, abs_lt]
  have hn' : (0 : Int) < n := by exact_mod_cast hn
  refine ⟨?_, Int.tmod_lt_of_pos _ hn'⟩
  have := Int.tmod_lt_of_pos (-(v - a)) hn'
  rw [Int.neg_tmod] at this
  linarith

/-- **C171** (partial): for every integer type, start value, target and number of steps `n > 0` such that the difference between target and start and (for InterpParamVar and InterpParamVariable) the number of steps are values of the type: setting
the target and calling next() up to `n` times is defined; the j-th call returns the start value plus j equal steps, all values lie between start and target, and the n-th is less than `n` away from the target.
Missing: other differences, and numbers of steps that are not values of the type: see below. -/
theorem C171_reaches_partial (t : Ty) (hw : 0 < t.w) (p : St) (v : Int) (n : Nat) (hn : 0 < n) (hc : InTy t p.cur) (hv : InTy t v) (hd : InTy t (v - p.cur)) :
    ∃ q, setNewFixed t n p v = .ok q ∧
      (InTy t n → setNewVar t p v n = .ok { q with target := v } ∧ setNewVariable t n p v = .ok { q with target := v }) ∧
      ∀ k ≤ n, nexts t k q = .ok ((List.range k).map (fun j : Nat => p.cur + ((j + 1 : Nat) : Int) * (v - p.cur).tdiv n)) ∧
        nexts t k { q with target := v } = nexts t k q ∧
        (∀ j < k, min p.cur v ≤ p.cur + ((j + 1 : Nat) : Int) * (v - p.cur).tdiv n ∧ p.cur + ((j + 1 : Nat) : Int) * (v - p.cur).tdiv n ≤ max p.cur v) ∧
        |v - (p.cur + n * (v - p.cur).tdiv n)| < n := by
  refine ⟨{ p with step := (v - p.cur).tdiv n }, setStep_ok hw p v n hn hd, ?_, ?_⟩
  · intro hi
    have h := setStep_ok hw { p with target := v } v n hn hd
    unfold setNewVar setNewVariable
    rw [if_pos hn, conv_id hw hi, h]
    exact ⟨rfl, rfl⟩
  · intro k hk
    have e1 := nexts_spec hw p.cur v n hn hc hv { p with step := (v - p.cur).tdiv n } rfl k 0 (by omega) (by simp)
    have e2 := nexts_spec hw p.cur v n hn hc hv { p with step := (v - p.cur).tdiv n, target := v } rfl k 0 (by omega) (by simp)
    simp only [Nat.zero_add] at e1 e2
    refine ⟨e1, by rw [e1]; exact e2, fun j hj => between _ _ _ _ hn (by omega), end_close _ _ _ hn⟩

/-- **C171**: a new parameter is 0, stays there and has the target 0. -/
theorem C171_init (t : Ty) (hw : 0 < t.w) (k : Nat) : nexts t k init = .ok (List.replicate k 0) ∧ (snap init).cur = 0 := by
  refine ⟨?_, rfl⟩
  have h : next t init = .ok init := by
    unfold next
    rw [show init.cur + init.step = 0 from rfl, op_id hw (inTy_zero t), R.bind_ok]
    rfl
  induction k with
  | zero => rfl
  | succ k ih =>
    unfold nexts
    rw [h, R.bind_ok, ih, R.bind_ok]
    rfl

/-- **C171**: snap_to_target() gives the target exactly, also after set_new_value(v, 0). -/
theorem C171_snap (t : Ty) (p q : St) (v : Int) (n : Nat) (h : setNewVar t p v n = .ok q) : (snap q).cur = v := by
  unfold setNewVar setStep at h
  split at h
  · cases h1 : op t (v - p.cur) with
    | ub => rw [h1] at h; cases h
    | ok d =>
      rw [h1] at h
      simp only [R.bind_ok] at h
      split at h
      · cases h
      · cases h2 : op t (d.tdiv (conv t n)) with
        | ub => rw [h2] at h; cases h
        | ok q' => rw [h2] at h; cases h; rfl
  · cases h; rfl

/-- `int`, from 100 to -7 in 4 steps -/
example : setNewFixed ⟨32, true⟩ 4 ⟨100, 0, 0⟩ (-7) = .ok ⟨100, 0, -26⟩ ∧ nexts ⟨32, true⟩ 4 ⟨100, 0, -26⟩ = .ok [74, 48, 22, -4] ∧ InTy ⟨32, true⟩ (-7 - 100) := by decide

theorem nexts_unsigned (w : Nat) : ∀ (k : Nat) (p : St), 0 ≤ p.cur → p.cur < 2 ^ w → nexts ⟨w, false⟩ k p = .ok ((List.range k).map (fun j : Nat => (p.cur + ((j + 1 : Nat) : Int) * p.step) % 2 ^ w)) := by
  intro k
  induction k with
  | zero => intro p _ _; rfl
  | succ k ih =>
    intro p h0 h1
    have hx : next ⟨w, false⟩ p = .ok { p with cur := (p.cur + p.step) % 2 ^ w } := by
      unfold next op conv
      simp
    have hpos : (0 : Int) < 2 ^ w := by positivity
    unfold nexts
    rw [hx]
    simp only [R.bind_ok]
    rw [ih { p with cur := (p.cur + p.step) % 2 ^ w } (Int.emod_nonneg _ hpos.ne') (Int.emod_lt_of_pos _ hpos)]
    simp only [R.bind_ok, R.ok.injEq]
    rw [List.range_succ_eq_map, List.map_cons, List.map_map]
    congr 1
    · simp
    · apply List.map_congr_left
      intro j _
      simp only [Function.comp]
      rw [Int.emod_add_emod]
      congr 1
      push_cast
      ring

/-- **C171** (partial), exactly what happens in an unsigned type on the way down from `cur` to `v`: the steps go up by (2^w - (cur - v)) / n, around the end of the type, and arrive less than `n` before `v`, modulo 2^w; exactly at `v` if `n`
divides 2^w - (cur - v). -/
theorem C171_down_partial (w : Nat) (p : St) (v : Int) (n : Nat) (hn : 0 < n) (h0 : 0 ≤ v) (h1 : v < p.cur) (h2 : p.cur < 2 ^ w) :
    ∃ q, setNewFixed ⟨w, false⟩ n p v = .ok q ∧ q.cur = p.cur ∧ q.step = (2 ^ w - (p.cur - v)) / n ∧
      (∀ k, nexts ⟨w, false⟩ k q = .ok ((List.range k).map (fun j : Nat => (p.cur + ((j + 1 : Nat) : Int) * q.step) % 2 ^ w))) ∧
      (p.cur + n * q.step) % 2 ^ w = (v - (2 ^ w - (p.cur - v)) % n) % 2 ^ w ∧ (n : Int) * q.step ≤ 2 ^ w - (p.cur - v) := by
  have hn' : (0 : Int) < n := by exact_mod_cast hn
  have hd : op ⟨w, false⟩ (v - p.cur) = .ok (2 ^ w - (p.cur - v)) := by
    unfold op conv
    simp only [Bool.false_eq_true, false_and, if_false, R.ok.injEq]
    rw [← Int.add_emod_right, Int.emod_eq_of_lt (by omega) (by omega)]
    ring
  have hpos : (0 : Int) ≤ 2 ^ w - (p.cur - v) := by omega
  have hdm := Int.mul_ediv_add_emod (2 ^ w - (p.cur - v)) n
  have hm0 := Int.emod_nonneg (2 ^ w - (p.cur - v)) hn'.ne'
  refine ⟨{ p with step := (2 ^ w - (p.cur - v)) / n }, ?_, rfl, rfl, fun k => nexts_unsigned w k _ (by simp only; omega) h2, ?_, by simp only; linarith⟩
  · unfold setNewFixed setStep
    rw [hd, R.bind_ok]
    rw [if_neg hn'.ne', Int.tdiv_eq_ediv_of_nonneg hpos]
    have h3 : (2 ^ w - (p.cur - v)) / (n : Int) ≤ 2 ^ w - (p.cur - v) := Int.ediv_le_self _ hpos
    have h4 : 0 ≤ (2 ^ w - (p.cur - v)) / (n : Int) := Int.ediv_nonneg hpos hn'.le
    unfold op conv
    simp only [Bool.false_eq_true, false_and, if_false, R.bind_ok]
    rw [Int.emod_eq_of_lt h4 (by omega)]
  · simp only
    rw [show p.cur + n * ((2 ^ w - (p.cur - v)) / n) = v - (2 ^ w - (p.cur - v)) % n + 2 ^ w by linarith, Int.add_emod_right]

/-- from 100 to 0 in an uint8_t in 5 steps: 31 each, ending at 255, which is 1 before 0 -/
example : setNewFixed ⟨8, false⟩ 5 ⟨100, 0, 0⟩ 0 = .ok ⟨100, 0, 31⟩ ∧ nexts ⟨8, false⟩ 5 ⟨100, 0, 31⟩ = .ok [131, 162, 193, 224, 255] := by decide

/-- **C171 is violated** by unsigned types when the target is below the start value: in `uint8_t` from 100 to 0 in 4 steps the values rise. -/
theorem C171_unsigned_violated : setNewFixed ⟨8, false⟩ 4 ⟨100, 0, 0⟩ 0 = .ok ⟨100, 0, 39⟩ ∧ nexts ⟨8, false⟩ 4 ⟨100, 0, 39⟩ = .ok [139, 178, 217, 0] := by decide

/-- The same for 32 bits: the first value returned is above a thousand million. -/
theorem C171_unsigned32_violated : setNewFixed ⟨32, false⟩ 4 ⟨100, 0, 0⟩ 0 = .ok ⟨100, 0, 1073741799⟩ ∧ nexts ⟨32, false⟩ 1 ⟨100, 0, 1073741799⟩ = .ok [1073741899] := by decide

/-- **C171 is violated** by one-byte types with the default number of steps: `InterpParamVariable<uint8_t>`'s first set_new_value() divides by zero, whatever the value, because 256 is converted to the type; so for `int8_t`. -/
theorem C171_default_steps_violated (v : Int) : setNewVariable ⟨8, false⟩ 256 init v = .ub ∧ setNewVariable ⟨8, true⟩ 256 init v = .ub := by
  constructor <;> simp [setNewVariable, setStep, op, conv, init]

/-- **C171 is violated** by `int` when the difference does not fit: from -2000000000 to 2000000000 the behaviour is undefined. -/
theorem C171_overflow_violated : setNewFixed ⟨32, true⟩ 1000 ⟨-2000000000, 0, 0⟩ 2000000000 = .ub := by decide

end ParamsInt
