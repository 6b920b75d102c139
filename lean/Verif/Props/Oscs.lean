import Verif.Model.Oscs
import Verif.Props.Color
import Mathlib.Logic.Function.Iterate
import Mathlib.Tactic.FieldSimp
import Mathlib.Algebra.Order.Floor.Ring
/-! # Properties C95, C96, C97 and C127: oscillators, counters and the LED animator -/

namespace Oscs

theorem W_val : W = 4294967296 := rfl

/-! ## C95: phase accumulators -/

/-- **C95**: after n updates the ramp oscillator has phase start + n * increment modulo 2^32, and that is its value. -/
theorem C95_accum (t : Accum) (ht : t.phase < 2 ^ 32) (n : Nat) :
    (Accum.update^[n] t).val = (t.phase + n * t.inc) % 2 ^ 32 ∧ (Accum.update^[n] t).inc = t.inc := by
  induction n with
  | zero => exact ⟨by simp [Accum.val]; omega, rfl⟩
  | succ n ih =>
    rw [Function.iterate_succ_apply']
    obtain ⟨h1, h2⟩ := ih
    obtain ⟨x, hx⟩ : ∃ x, Accum.update^[n] t = x := ⟨_, rfl⟩
    rw [hx] at h1 h2 ⊢
    unfold Accum.val at *
    refine ⟨?_, h2⟩
    unfold Accum.update
    simp only [h1, h2, Nat.succ_mul, W_val]
    omega

example := C95_accum ⟨4000000000, 300000000⟩ (by norm_num) 5

/-- **C95**: the same for the triangle oscillator's phase. -/
theorem C95_triangle_phase (t : Tri) (ht : t.phase < 2 ^ 32) (n : Nat) :
    (Tri.update^[n] t).phase = (t.phase + n * t.inc) % 2 ^ 32 ∧ (Tri.update^[n] t).inc = t.inc := by
  induction n with
  | zero => exact ⟨by simp; omega, rfl⟩
  | succ n ih =>
    rw [Function.iterate_succ_apply']
    obtain ⟨h1, h2⟩ := ih
    obtain ⟨x, hx⟩ : ∃ x, Tri.update^[n] t = x := ⟨_, rfl⟩
    rw [hx] at h1 h2 ⊢
    refine ⟨?_, h2⟩
    unfold Tri.update
    simp only [h1, h2, Nat.succ_mul, W_val]
    omega

example := C95_triangle_phase ⟨4000000000, 300000000⟩ (by norm_num) 5

/-- **C95**: the triangle rises from 0 with slope 2 over the first half of the phase range and falls back from 2^32 - 1 with slope 2 over the second half; its value is
always a `uint32_t`, and one unit of phase (the wrap included) changes it by at most 2. -/
theorem C95_triangle_value (p : Nat) (hp : p < 2 ^ 32) (i j : Nat) :
    (p < 2 ^ 31 → (Tri.val ⟨p, i⟩) = 2 * p) ∧ (2 ^ 31 ≤ p → (Tri.val ⟨p, i⟩) = (2 ^ 32 - 1) - 2 * (p - 2 ^ 31)) ∧ Tri.val ⟨p, i⟩ < 2 ^ 32 ∧
    Tri.val ⟨(p + 1) % 2 ^ 32, j⟩ ≤ Tri.val ⟨p, i⟩ + 2 ∧ Tri.val ⟨p, i⟩ ≤ Tri.val ⟨(p + 1) % 2 ^ 32, j⟩ + 2 := by
  have h1 : ∀ p i, p < 2 ^ 31 → (Tri.val ⟨p, i⟩) = 2 * p := by
    intro p i h
    unfold Tri.val
    simp only [W_val]
    rw [if_neg (by omega)]; omega
  have h2 : ∀ p i, 2 ^ 31 ≤ p → p < 2 ^ 32 → (Tri.val ⟨p, i⟩) = (2 ^ 32 - 1) - 2 * (p - 2 ^ 31) := by
    intro p i h h'
    unfold Tri.val
    simp only [W_val]
    rw [if_pos (by omega)]; omega
  refine ⟨h1 p i, fun h => h2 p i h hp, ?_, ?_⟩
  · by_cases h : p < 2 ^ 31
    · rw [h1 p i h]; omega
    · rw [h2 p i (by omega) hp]; omega
  · by_cases h : p < 2 ^ 31
    · rw [h1 p i h]
      by_cases h' : p + 1 < 2 ^ 31
      · rw [Nat.mod_eq_of_lt (by omega), h1 _ j h']; omega
      · rw [Nat.mod_eq_of_lt (by omega), h2 _ j (by omega) (by omega)]; omega
    · rw [h2 p i (by omega) hp]
      by_cases h' : p + 1 < 2 ^ 32
      · rw [Nat.mod_eq_of_lt h', h2 _ j (by omega) h']; omega
      · rw [show (p + 1) % 2 ^ 32 = 0 by omega, h1 0 j (by omega)]; omega

example := C95_triangle_value 4000000000 (by norm_num) 1 2

/-- **C95**: `process` is update then value; `process_float` is that value scaled to [0, 1]. -/
theorem C95_process (t : Tri) (a : Accum) :
    t.process = (t.update, t.update.val) ∧ a.process = (a.update, a.update.val) ∧
    t.processFloat.1 = t.update ∧ t.processFloat.2 * 4294967295 = t.update.val ∧ 0 ≤ t.processFloat.2 ∧ t.processFloat.2 ≤ 1 ∧
    a.processFloat.1 = a.update ∧ a.processFloat.2 * 4294967295 = a.update.val ∧ 0 ≤ a.processFloat.2 ∧ a.processFloat.2 ≤ 1 := by
  have ht : t.update.val < 2 ^ 32 := by
    have : t.update.phase < 2 ^ 32 := Nat.mod_lt _ (by decide)
    exact (C95_triangle_value t.update.phase this t.inc 0).2.2.1
  have ha : a.update.val < 2 ^ 32 := Nat.mod_lt _ (by decide)
  have ht' : ((t.update.val : Nat) : ℚ) ≤ 4294967295 := by exact_mod_cast (show t.update.val ≤ 4294967295 by omega)
  have ha' : ((a.update.val : Nat) : ℚ) ≤ 4294967295 := by exact_mod_cast (show a.update.val ≤ 4294967295 by omega)
  have ht0 : (0 : ℚ) ≤ ((t.update.val : Nat) : ℚ) := Nat.cast_nonneg _
  have ha0 : (0 : ℚ) ≤ ((a.update.val : Nat) : ℚ) := Nat.cast_nonneg _
  refine ⟨rfl, rfl, rfl, ?_, ?_, ?_, rfl, ?_, ?_, ?_⟩
  · show ((t.update.val : Nat) : ℚ) / 4294967295 * 4294967295 = _
    rw [div_mul_cancel₀ _ (by norm_num)]
  · show (0 : ℚ) ≤ ((t.update.val : Nat) : ℚ) / 4294967295
    positivity
  · show ((t.update.val : Nat) : ℚ) / 4294967295 ≤ 1
    rw [div_le_one (by norm_num)]; exact ht'
  · show ((a.update.val : Nat) : ℚ) * (1 / 4294967295) * 4294967295 = _
    ring
  · show (0 : ℚ) ≤ ((a.update.val : Nat) : ℚ) * (1 / 4294967295)
    positivity
  · show ((a.update.val : Nat) : ℚ) * (1 / 4294967295) ≤ 1
    linarith

/-- One second of updates at frequency `f` advances the phase by `f` cycles, short by at most `f * rate` phase units. -/
theorem freq_units_bounds (rate : Nat) (hr : 0 < rate) : rate * freqUnits rate ≤ 2 ^ 32 - 1 ∧ 2 ^ 32 - rate ≤ rate * freqUnits rate := by
  unfold freqUnits
  have h1 := Nat.div_add_mod 0xFFFFFFFF rate
  have h2 := Nat.mod_lt 0xFFFFFFFF hr
  omega

/-- **C95**: set_frequency(f) (with f * (2^32-1)/rate a `uint32_t`), also through the constructors, gives f cycles of 2^32 per `rate` updates, short by at most f * rate
units; set_phase sets the phase; set_frequency does not disturb the phase. -/
theorem C95_frequency (rate f : Nat) (hr : 0 < rate) (hf : f * freqUnits rate < 2 ^ 32) (t : Tri) (a : Accum) (d : Down) (p : Nat) :
    (∀ i, i = (t.setFreq rate f).inc ∨ i = (t.setFreqI rate f).inc ∨ i = (Tri.ofFreq rate f).inc ∨ i = (a.setFreq rate f).inc ∨ i = (Accum.ofFreq rate f).inc ∨ i = (d.setFreq rate f).inc →
      f * (2 ^ 32 - rate) ≤ rate * i ∧ rate * i ≤ f * (2 ^ 32 - 1)) ∧
    (t.setFreq rate f).phase = t.phase ∧ (t.setFreqI rate f).phase = t.phase ∧ (a.setFreq rate f).phase = a.phase ∧ (d.setFreq rate f).phase = d.phase ∧
    (Tri.ofFreq rate f).phase = 0 ∧ (Accum.ofFreq rate f).phase = 0 ∧
    (t.setPhase p) = ⟨p, t.inc⟩ ∧ (a.setPhase p) = ⟨p, a.inc⟩ ∧ d.setPhase p = ⟨d.inc, p⟩ := by
  refine ⟨?_, rfl, rfl, rfl, rfl, rfl, rfl, rfl, rfl, rfl⟩
  intro i hi
  have hm : f * freqUnits rate % W = f * freqUnits rate := Nat.mod_eq_of_lt hf
  have hmI : (((f : Int) * freqUnits rate) % (W : Nat)).toNat = f * freqUnits rate := by
    have : ((f : Int) * freqUnits rate) % (W : Nat) = ((f * freqUnits rate % W : Nat) : Int) := by push_cast; rfl
    rw [this, hm]; rfl
  have hi' : i = f * freqUnits rate := by
    rcases hi with h | h | h | h | h | h
    · rw [h]; exact hm
    · rw [h]; exact hmI
    · rw [h]; exact hm
    · rw [h]; exact hm
    · rw [h]; exact hm
    · rw [h]; exact hm
  obtain ⟨h1, h2⟩ := freq_units_bounds rate hr
  rw [hi', Nat.mul_left_comm]
  exact ⟨Nat.mul_le_mul_left _ h2, Nat.mul_le_mul_left _ h1⟩

example := C95_frequency 48000 440 (by norm_num) (by norm_num [freqUnits]) ⟨1, 2⟩ ⟨3, 4⟩ ⟨5, 6⟩ 7

/-- **C95**: the float overload truncates the same increment: within 1 of freq * (2^32-1)/rate. -/
theorem C95_frequency_float (rate : Nat) (t : Tri) (f : ℚ) (h0 : 0 ≤ f) (h1 : f * freqUnits rate < 2 ^ 32) :
    ∃ t', t.setFreqF rate f = .ok t' ∧ t'.phase = t.phase ∧ (t'.inc : ℚ) ≤ f * freqUnits rate ∧ f * freqUnits rate < t'.inc + 1 := by
  have hx : 0 ≤ f * freqUnits rate := by positivity
  have hfl : (⌊f * freqUnits rate⌋.toNat : ℚ) = (⌊f * freqUnits rate⌋ : ℚ) := by
    have : (0 : Int) ≤ ⌊f * freqUnits rate⌋ := Int.floor_nonneg.mpr hx
    exact_mod_cast Int.toNat_of_nonneg this
  refine ⟨{ t with inc := ⌊f * freqUnits rate⌋.toNat }, ?_, rfl, ?_, ?_⟩
  · unfold Tri.setFreqF Color.trunc
    rw [if_pos ⟨by linarith, by rw [W_val]; push_cast; norm_num at h1; exact h1⟩, R.bind_ok]
  · simp only [hfl]; exact Int.floor_le _
  · simp only [hfl]; exact Int.lt_floor_add_one _

/-- **C95**: the down counter falls by the increment per update and stops at 0: after n updates it is phase - n * increment, or 0. -/
theorem C95_down (d : Down) (hi : d.inc ≠ 0) (n : Nat) :
    (Down.update^[n] d).val = d.phase - n * d.inc ∧ (Down.update^[n] d).inc = d.inc := by
  induction n with
  | zero => exact ⟨by simp [Down.val], rfl⟩
  | succ n ih =>
    rw [Function.iterate_succ_apply']
    obtain ⟨h1, h2⟩ := ih
    obtain ⟨x, hx⟩ : ∃ x, Down.update^[n] d = x := ⟨_, rfl⟩
    rw [hx] at h1 h2 ⊢
    unfold Down.val at h1
    unfold Down.update Down.val
    rw [h2, if_neg hi]
    simp only [h1, Nat.succ_mul]
    split
    · exact ⟨by simp only; omega, rfl⟩
    · exact ⟨by simp only; omega, rfl⟩

/-- **C95**: hence it decreases strictly until it is 0, is 0 after ceil(phase / increment) updates and no earlier, and stays 0; with increment 0 it is 0 at once; reset starts
it over from 2^32 - 1. -/
theorem C95_down_terminates (d : Down) :
    (d.phase ≠ 0 → d.update.val < d.phase) ∧ (d.phase = 0 → d.update.val = 0) ∧ (d.inc = 0 → d.update.val = 0) ∧
    (d.inc ≠ 0 → ∀ n, (Down.update^[n] d).val = 0 ↔ (d.phase + d.inc - 1) / d.inc ≤ n) ∧ d.reset.val = 2 ^ 32 - 1 ∧ d.reset.inc = d.inc ∧ Down.init = ⟨2 ^ 32 - 1, 2 ^ 32 - 1⟩ := by
  refine ⟨?_, ?_, ?_, ?_, rfl, rfl, rfl⟩
  · intro h
    unfold Down.update Down.val
    by_cases hi : d.inc = 0
    · simp only [hi, ite_true]; split <;> simp only <;> omega
    · simp only [hi, ite_false]; split <;> simp only <;> omega
  · intro h
    unfold Down.update Down.val
    rw [h]; simp
  · intro h
    unfold Down.update Down.val
    simp [h]
  · intro hi n
    rw [(C95_down d hi n).1]
    have hpos : 0 < d.inc := Nat.pos_of_ne_zero hi
    constructor
    · intro h
      apply Nat.le_of_lt_succ
      rw [Nat.div_lt_iff_lt_mul hpos, Nat.succ_mul]
      omega
    · intro h
      have := Nat.lt_of_lt_of_le (Nat.lt_succ_self _) (Nat.succ_le_succ h)
      rw [Nat.div_lt_iff_lt_mul hpos, Nat.succ_mul] at this
      omega

example : (Tri.ofFreq 1000 3).inc = 12884901 ∧ (Tri.val ⟨0x80000000, 0⟩) = 0xFFFFFFFF ∧ (Tri.val ⟨0xFFFFFFFF, 0⟩) = 1 ∧ (Down.update (Down.setFreq 1000 Down.init 1)).val = 4290672328 := by decide

/-! ## C96: periods -/

/-- **C96** (partial): for periods of at least a second set_period_ms is defined, and for whole seconds one period is ms/1000 * rate updates, short by less than that many
phase units. -/
theorem C96_set_period_ms_partial (rate s : Nat) (hr : 0 < rate) (hs : 0 < s) (t : Tri) :
    ∃ t', t.setPeriodMs rate (1000 * s) = .ok t' ∧ t'.phase = t.phase ∧ t'.inc * (s * rate) ≤ 2 ^ 32 - 1 ∧ 2 ^ 32 - 1 < t'.inc * (s * rate) + s * rate := by
  refine ⟨{ t with inc := freqUnits rate / s }, ?_, rfl, ?_, ?_⟩
  · unfold Tri.setPeriodMs
    rw [Nat.mul_div_cancel_left _ (by decide), if_neg (by omega)]
  · simp only [freqUnits]
    rw [Nat.div_div_eq_div_mul, Nat.mul_comm s rate]
    exact Nat.div_mul_le_self _ _
  · simp only [freqUnits]
    rw [Nat.div_div_eq_div_mul, Nat.mul_comm s rate]
    have := Nat.lt_div_mul_add (a := 0xFFFFFFFF) (Nat.mul_pos hr hs)
    omega

example := C96_set_period_ms_partial 48000 2 (by norm_num) (by norm_num) ⟨1, 2⟩

/-- **C96**: set_period_sec, the same period in seconds. -/
theorem C96_set_period_sec (rate s : Nat) (t : Tri) : t.setPeriodSec rate s = t.setPeriodMs rate (1000 * s) ∧ t.setPeriodSec rate 0 = .ub := by
  unfold Tri.setPeriodSec Tri.setPeriodMs
  rw [Nat.mul_div_cancel_left _ (by decide)]
  exact ⟨rfl, if_pos rfl⟩

/-- **C96 violated**: any period below one second divides by zero ... -/
theorem C96_set_period_ms_violated (rate ms : Nat) (h : ms < 1000) (t : Tri) : t.setPeriodMs rate ms = .ub := by
  unfold Tri.setPeriodMs
  rw [if_pos (by omega)]

/-- ... and fractions of a second are dropped: all periods from s to s + 0.999 seconds are the same. -/
theorem C96_fraction_violated (rate s f : Nat) (h : f < 1000) (t : Tri) : t.setPeriodMs rate (1000 * s + f) = t.setPeriodMs rate (1000 * s) := by
  unfold Tri.setPeriodMs
  rw [show (1000 * s + f) / 1000 = 1000 * s / 1000 by omega]

/-- **C96**: DownCounter::set_period_ms is defined for every period at update rates of at least 1000 Hz, and the counter does not reach 0 before the period is over. -/
theorem C96_down_period (rate ms : Nat) (hr : 1000 ≤ rate) (hms : 0 < ms) (d : Down) :
    ∃ d', d.setPeriodMs rate ms = .ok d' ∧ d'.phase = d.phase ∧ d'.inc = freqUnits rate * 1000 / ms ∧
      ∀ n, 1000 * n < ms * rate → d'.inc ≠ 0 → (Down.update^[n] d'.reset).val ≠ 0 := by
  have hq : ((freqUnits rate : ℚ) / ((ms : ℚ) / 1000)) = ((freqUnits rate * 1000 : Nat) : ℚ) / (ms : ℚ) := by
    have : (ms : ℚ) ≠ 0 := by exact_mod_cast (Nat.pos_iff_ne_zero.mp hms)
    push_cast; field_simp
  have hfl : ⌊((freqUnits rate * 1000 : Nat) : ℚ) / (ms : ℚ)⌋ = ((freqUnits rate * 1000 / ms : Nat) : Int) := by
    rw [Rat.floor_natCast_div_natCast]; rfl
  obtain ⟨b1, b2⟩ := freq_units_bounds rate (by omega)
  have hfu : freqUnits rate * 1000 ≤ 2 ^ 32 - 1 := by
    have : 1000 * freqUnits rate ≤ rate * freqUnits rate := Nat.mul_le_mul_right _ hr
    omega
  have hlt : ((freqUnits rate * 1000 : Nat) : ℚ) / (ms : ℚ) < (W : Nat) := by
    have h1 : (1 : ℚ) ≤ ms := by exact_mod_cast hms
    have h2 : ((freqUnits rate * 1000 : Nat) : ℚ) < (W : Nat) := by
      have : freqUnits rate * 1000 < W := by rw [W_val]; omega
      exact_mod_cast this
    rw [div_lt_iff₀ (by linarith)]
    have h3 : (0 : ℚ) ≤ (W : Nat) := Nat.cast_nonneg _
    nlinarith
  have hge : (0 : ℚ) ≤ ((freqUnits rate * 1000 : Nat) : ℚ) / (ms : ℚ) := by positivity
  refine ⟨{ d with inc := freqUnits rate * 1000 / ms }, ?_, rfl, rfl, ?_⟩
  · unfold Down.setPeriodMs
    rw [if_neg (by omega), hq]
    unfold Color.trunc
    rw [if_pos ⟨by linarith, hlt⟩, R.bind_ok, hfl]
    rfl
  · intro n hlt' hi
    rw [(C95_down (Down.reset ⟨freqUnits rate * 1000 / ms, d.phase⟩) hi n).1]
    show 0xFFFFFFFF - n * (freqUnits rate * 1000 / ms) ≠ 0
    -- n * inc * ms ≤ n * fu * 1000 < ms * rate * fu ≤ ms * max
    have h1 : freqUnits rate * 1000 / ms * ms ≤ freqUnits rate * 1000 := Nat.div_mul_le_self _ _
    have h2 : n * (freqUnits rate * 1000 / ms) * ms ≤ n * (freqUnits rate * 1000) := by rw [Nat.mul_assoc]; exact Nat.mul_le_mul_left _ h1
    by_cases hz : freqUnits rate = 0
    · exfalso; apply hi; show freqUnits rate * 1000 / ms = 0; rw [hz]; simp
    · have h3 : 1000 * n * freqUnits rate < ms * rate * freqUnits rate := Nat.mul_lt_mul_of_pos_right hlt' (Nat.pos_of_ne_zero hz)
      have h4 : ms * rate * freqUnits rate ≤ ms * (2 ^ 32 - 1) := by rw [Nat.mul_assoc]; exact Nat.mul_le_mul_left _ b1
      have h5 : n * (freqUnits rate * 1000) = 1000 * n * freqUnits rate := by ring
      have h6 : n * (freqUnits rate * 1000 / ms) * ms < (2 ^ 32 - 1) * ms := by rw [Nat.mul_comm (2 ^ 32 - 1)]; omega
      have h7 := Nat.lt_of_mul_lt_mul_right h6
      omega

example := C96_down_period 48000 20 (by norm_num) (by norm_num) ⟨1, 2⟩

/-! ## C97: one shot -/

theorem oneshot_run (o : OneShot) (hi : 0 < o.inc) (n : Nat) : (OneShot.run n o).2 = List.ofFn (fun k : Fin n => decide ((k : ℚ) * o.inc < o.width)) := by
  induction n generalizing o with
  | zero => rfl
  | succ n ih =>
    rw [OneShot.run, List.ofFn_succ]
    by_cases h : o.width > 0
    · have e : o.update = ({ o with width := o.width - o.inc }, true) := by unfold OneShot.update; rw [if_pos h]
      rw [e]
      simp only
      rw [ih ⟨o.inc, o.width - o.inc⟩ hi]
      congr 1
      · simp [h]
      · congr 1; funext k
        simp only [Fin.val_succ]
        push_cast
        congr 1
        apply propext
        constructor <;> intro g <;> linarith
    · have e : o.update = (o, false) := by unfold OneShot.update; rw [if_neg h]
      rw [e]
      simp only
      rw [ih _ hi]
      have hn : ∀ m : Nat, ¬ ((m : ℚ) * o.inc < o.width) := by
        intro m
        have : (0 : ℚ) ≤ (m : ℚ) * o.inc := by positivity
        linarith
      congr 1
      · have := hn 0
        simp only [Nat.cast_zero] at this
        simp only [Fin.val_zero, Nat.cast_zero, this, decide_false]
      · congr 1; funext k
        simp only [Fin.val_succ]
        rw [decide_eq_false (hn _), decide_eq_false (hn _)]

/-- **C97**: after start(w), for every number of later updates, the (k+1)-th update returns true exactly when k < ceil(w * rate): so the pulse is ceil(w * rate) updates long,
and update() is false for ever after. -/
theorem C97_oneshot (rate w : ℚ) (hr : 0 < rate) (o : OneShot) (ho : o.inc = 1 / rate) (n : Nat) :
    (OneShot.run n (o.start w)).2 = List.ofFn (fun k : Fin n => decide ((k : Int) < ⌈w * rate⌉)) := by
  have hi : (o.start w).inc = 1 / rate := ho
  rw [oneshot_run _ (by rw [hi]; positivity)]
  congr 1; funext k
  congr 1
  apply propext
  rw [hi, Int.lt_ceil]
  show (k : ℚ) * (1 / rate) < w ↔ _
  rw [mul_one_div, div_lt_iff₀ hr]
  push_cast
  rfl

/-- **C97**: stop ends the pulse; the constructor and set_update_rate_hz set the rate (non-positive rates are ignored); a new OneShot is idle. -/
theorem C97_control (o : OneShot) (rate : ℚ) : o.stop.update.2 = false ∧ (OneShot.mk' rate).inc = 1 / rate ∧ (OneShot.mk' rate).update.2 = false ∧
    (0 < rate → (o.setRate rate).inc = 1 / rate) ∧ (rate ≤ 0 → o.setRate rate = o) ∧ (o.setRate rate).width = o.width := by
  refine ⟨?_, rfl, ?_, ?_, ?_, ?_⟩
  · simp [OneShot.stop, OneShot.update]
  · simp [OneShot.mk', OneShot.update]
  · intro h; unfold OneShot.setRate; rw [if_pos h]
  · intro h; unfold OneShot.setRate; rw [if_neg (not_lt.mpr h)]
  · unfold OneShot.setRate; split <;> rfl

example : ⌈(7/3 : ℚ) * 3⌉ = 7 ∧ (OneShot.run 4 ((OneShot.mk' 2).start (1))).2 = [true, true, false, false] := by
  refine ⟨by norm_num, ?_⟩
  rw [C97_oneshot 2 1 (by norm_num) _ rfl]
  norm_num

end Oscs

namespace RgbLed
open Oscs Color Color.Spec

/-- What is shown when the flash is over: the base colour with the breathing colour blended in. -/
def rest (l : RgbLed) (n : Nat) : Color :=
  let v := (Tri.update^[n] l.fader).val
  (if v = 0 then l.background else l.background.blend32 l.breatheCol v).adjust l.cal.1 l.cal.2.1 l.cal.2.2

/-- The state after n animation updates. -/
theorem iterate_state (l : RgbLed) (n : Nat) : ((fun l => (updateAnimation l).1)^[n] l) = { l with fader := Tri.update^[n] l.fader, flasher := Down.update^[n] l.flasher } := by
  induction n with
  | zero => rfl
  | succ n ih =>
    rw [Function.iterate_succ_apply', ih, Function.iterate_succ_apply', Function.iterate_succ_apply']
    rfl

/-- **C127** (general form): after a flash (or fade) with whole frequency f, and n earlier updates, the next update shows the flash colour (or, fading, the base colour blended
with it by the remaining fraction) while (n+1) * f * (2^32-1)/rate stays below 2^32-1, and afterwards the base colour with the breathing colour blended in. -/
theorem frame (rate : Nat) (l l' : RgbLed) (c : Color) (ms : ℚ) (f : Nat) (fade : Bool) (hms : ms ≠ 0) (hf : Color.trunc W (1000 / ms) = .ok f) (hf0 : f * freqUnits rate ≠ 0)
    (hfu : f * freqUnits rate < 2 ^ 32) (hl : (if fade then l.fadeOnceMs rate c ms else l.flashOnceMs rate c ms) = .ok l') (n : Nat) :
    (updateAnimation ((fun l => (updateAnimation l).1)^[n] l')).2 =
      if (n + 1) * (f * freqUnits rate) < 2 ^ 32 - 1 then
        (if fade then l.background.blend32 c (2 ^ 32 - 1 - (n + 1) * (f * freqUnits rate)) else c).adjust l.cal.1 l.cal.2.1 l.cal.2.2
      else rest l (n + 1) := by
  have hm : f * freqUnits rate % W = f * freqUnits rate := Nat.mod_eq_of_lt hfu
  have hl' : l' = { l with flashCol := c, flasher := ⟨f * freqUnits rate, 2 ^ 32 - 1⟩, smooth := fade } := by
    have e : l.flashOnceMs rate c ms = .ok { l with flashCol := c, flasher := ⟨f * freqUnits rate, 2 ^ 32 - 1⟩, smooth := false } := by
      unfold flashOnceMs
      rw [if_neg hms, hf, R.bind_ok]
      unfold Down.setFreq Down.reset
      simp only [hm]
      rfl
    cases fade
    · simp only [Bool.false_eq_true, if_false] at hl
      rw [e] at hl
      injection hl with hl; exact hl.symm
    · simp only [if_true, fadeOnceMs] at hl
      rw [e, R.bind_ok] at hl
      injection hl with hl; exact hl.symm
  have hfl : (Down.update^[n + 1] l'.flasher).val = (2 ^ 32 - 1) - (n + 1) * (f * freqUnits rate) := by
    rw [hl']
    exact (C95_down ⟨f * freqUnits rate, 2 ^ 32 - 1⟩ hf0 (n + 1)).1
  rw [iterate_state]
  unfold updateAnimation updateOscillators setColor
  simp only [← Function.iterate_succ_apply' Tri.update, ← Function.iterate_succ_apply' Down.update, Nat.succ_eq_add_one, hfl]
  by_cases h : (n + 1) * (f * freqUnits rate) < 2 ^ 32 - 1
  · rw [if_pos h, if_pos (show 2 ^ 32 - 1 - (n + 1) * (f * freqUnits rate) ≠ 0 by omega), hl']
  · rw [if_neg h, if_neg (show ¬ (2 ^ 32 - 1 - (n + 1) * (f * freqUnits rate) ≠ 0) by omega), hl']
    unfold rest
    simp only
    by_cases hv : (Tri.update^[n + 1] l.fader).val = 0
    · rw [if_neg (not_not.mpr hv), if_pos hv]
    · rw [if_pos hv, if_neg hv]

/-- **C127** (partial): a flash of ms = 1000 / f milliseconds (f a whole number), at any update rate up to 65535 Hz: every update less than ms milliseconds after the flash shows the
flash colour, every update more than ms milliseconds after it shows the base colour again (with the breathing colour blended in), for ever. -/
theorem C127_flash_partial (rate : Nat) (l : RgbLed) (c : Color) (f : Nat) (hr : 0 < rate) (hr2 : rate < 65536) (hf : 0 < f) (hf2 : f ≤ rate) :
    ∃ l', l.flashOnceMs rate c (1000 / f) = .ok l' ∧ ∀ n,
      ((n + 1) * f < rate → (updateAnimation ((fun l => (updateAnimation l).1)^[n] l')).2 = c.adjust l.cal.1 l.cal.2.1 l.cal.2.2) ∧
      (rate < (n + 1) * f → (updateAnimation ((fun l => (updateAnimation l).1)^[n] l')).2 = rest l (n + 1)) := by
  have hfq : (f : ℚ) ≠ 0 := by exact_mod_cast (Nat.pos_iff_ne_zero.mp hf)
  have hms : (1000 / (f : ℚ)) ≠ 0 := by positivity
  have hq : 1000 / (1000 / (f : ℚ)) = f := by field_simp
  have htr : Color.trunc W (1000 / (1000 / (f : ℚ))) = .ok f := by
    rw [hq]; unfold Color.trunc
    have h1 : (0 : ℚ) ≤ f := Nat.cast_nonneg _
    have h2 : (f : ℚ) < (W : Nat) := by exact_mod_cast (show f < W by rw [W_val]; omega)
    rw [if_pos ⟨by linarith, h2⟩]
    simp
  obtain ⟨b1, b2⟩ := freq_units_bounds rate hr
  have hfu1 : rate ≤ freqUnits rate := by
    unfold freqUnits
    rw [Nat.le_div_iff_mul_le hr]
    have : rate * rate ≤ 65535 * 65535 := Nat.mul_le_mul (by omega) (by omega)
    omega
  have hle : f * freqUnits rate ≤ rate * freqUnits rate := Nat.mul_le_mul_right _ hf2
  have hpos : 0 < f * freqUnits rate := Nat.mul_pos hf (by omega)
  have hl : l.flashOnceMs rate c (1000 / f) = .ok { l with flashCol := c, flasher := l.flasher.reset.setFreq rate f, smooth := false } := by
    unfold flashOnceMs
    rw [if_neg hms, htr, R.bind_ok]
  refine ⟨_, hl, ?_⟩
  intro n
  rw [frame rate l _ c (1000 / f) f false hms htr (by omega) (by omega) hl n]
  have e : (n + 1) * (f * freqUnits rate) = (n + 1) * f * freqUnits rate := (Nat.mul_assoc _ _ _).symm
  constructor
  · intro h
    have h1 : (n + 1) * f * freqUnits rate < rate * freqUnits rate := Nat.mul_lt_mul_of_pos_right h (by omega)
    rw [if_pos (by omega)]
    rfl
  · intro h
    have h1 : (rate + 1) * freqUnits rate ≤ (n + 1) * f * freqUnits rate := Nat.mul_le_mul_right _ h
    rw [Nat.succ_mul] at h1
    rw [if_neg (by omega)]

example := C127_flash_partial 1000 init ⟨1, 2, 3⟩ 100 (by decide) (by decide) (by decide) (by decide)

/-- **C127**: with the default calibration and no breathing, the colour after the flash is exactly the base colour. -/
theorem C127_rest (l : RgbLed) (hc : l.cal = (128, 128, 128)) (hb : l.fader = ⟨0, 0⟩) (hv : Valid l.background) (n : Nat) : rest l n = l.background := by
  have e : Tri.update^[n] l.fader = ⟨0, 0⟩ := by
    rw [hb]
    induction n with
    | zero => rfl
    | succ n ih => rw [Function.iterate_succ_apply', ih]; rfl
  unfold rest
  rw [e, hc]
  simp only
  rw [if_pos (by decide)]
  exact (C93_adjust _ hv 0 0 0).2

example := C127_rest init rfl rfl (by unfold Valid; decide) 5

/-- **C127**: a new LED shows nothing but the base colour it is given (off, if it is given none), at every update until it is told to
flash or breathe. -/
theorem C127_fresh (c : Color) (hv : Valid c) (n : Nat) : (run n (init.setBase c)).2 = List.replicate n c ∧ init.background = ⟨0, 0, 0⟩ := by
  refine ⟨?_, rfl⟩
  have key : ∀ (n : Nat) (l : RgbLed), l.fader = ⟨0, 0⟩ → (l.flasher = ⟨0xFFFFFFFF, 0xFFFFFFFF⟩ ∨ l.flasher = ⟨0xFFFFFFFF, 0⟩) → l.cal = (128, 128, 128) →
      l.background = c → (run n l).2 = List.replicate n c := by
    intro n
    induction n with
    | zero => intro l _ _ _ _; rfl
    | succ n ih =>
      intro l h1 h2 h3 h4
      have hfl : l.flasher.update = ⟨0xFFFFFFFF, 0⟩ := by rcases h2 with h | h <;> rw [h] <;> rfl
      have hfa : l.fader.update = ⟨0, 0⟩ := by rw [h1]; rfl
      have hs : l.updateAnimation = ({ l with fader := ⟨0, 0⟩, flasher := ⟨0xFFFFFFFF, 0⟩ }, c) := by
        unfold updateAnimation updateOscillators setColor
        simp only [hfl, hfa, h3, h4]
        rw [if_neg (by decide), if_neg (by decide), (C93_adjust _ hv 0 0 0).2]
      have := ih { l with fader := ⟨0, 0⟩, flasher := ⟨0xFFFFFFFF, 0⟩ } rfl (.inr rfl) h3 h4
      simp only [run, hs, this, List.replicate_succ]
  exact key n _ rfl (.inl rfl) rfl rfl

example : Valid ⟨10, 20, 30⟩ ∧ (run 3 (init.setBase ⟨10, 20, 30⟩)).2 = [⟨10, 20, 30⟩, ⟨10, 20, 30⟩, ⟨10, 20, 30⟩] := by
  have hv : Valid ⟨10, 20, 30⟩ := by unfold Valid; decide
  exact ⟨hv, (C127_fresh _ hv 3).1⟩

/-- **C127**: a fade shows, at each update, a colour between the base colour and the flash colour (default calibration). -/
theorem C127_fade (rate : Nat) (l l' : RgbLed) (c : Color) (ms : ℚ) (f : Nat) (hms : ms ≠ 0) (hf : Color.trunc W (1000 / ms) = .ok f) (hf0 : f * freqUnits rate ≠ 0)
    (hfu : f * freqUnits rate < 2 ^ 32) (hl : l.fadeOnceMs rate c ms = .ok l') (hcal : l.cal = (128, 128, 128)) (hv : Valid l.background) (hc : Valid c) (n : Nat)
    (h : (n + 1) * (f * freqUnits rate) < 2 ^ 32 - 1) (s : Color) (hs : s = (updateAnimation ((fun l => (updateAnimation l).1)^[n] l')).2) :
    Between l.background.r c.r s.r ∧ Between l.background.g c.g s.g ∧ Between l.background.b c.b s.b := by
  have e := frame rate l l' c ms f true hms hf hf0 hfu (by simpa using hl) n
  rw [if_pos h] at e
  obtain ⟨ph, hph⟩ : ∃ p, 2 ^ 32 - 1 - (n + 1) * (f * freqUnits rate) = p := ⟨_, rfl⟩
  obtain ⟨_, q1, q2, q3, _⟩ := C90_blend32 l.background c ph hv hc (by omega)
  have hval : Valid (l.background.blend32 c ph) := by
    obtain ⟨v1, v2, v3⟩ := hv
    obtain ⟨c1, c2, c3⟩ := hc
    exact ⟨between_lt _ _ _ _ q1 v1 c1, between_lt _ _ _ _ q2 v2 c2, between_lt _ _ _ _ q3 v3 c3⟩
  have e2 : s = l.background.blend32 c ph := by
    rw [hs, e, hph, hcal]
    simp only [if_true]
    exact (C93_adjust _ hval 0 0 0).2
  rw [e2]
  exact ⟨q1, q2, q3⟩

example : ∃ l', init.fadeOnceMs 1000 ⟨200, 100, 0⟩ 100 = .ok l' := by
  obtain ⟨l, h, -⟩ := C127_flash_partial 1000 init ⟨200, 100, 0⟩ 10 (by decide) (by decide) (by decide) (by decide)
  have e : (1000 / (10 : ℕ) : ℚ) = 100 := by norm_num
  rw [e] at h
  exact ⟨_, by rw [fadeOnceMs, h]; rfl⟩
example (l' : RgbLed) (hl : init.fadeOnceMs 1000 ⟨200, 100, 0⟩ 100 = .ok l') := C127_fade 1000 init l' ⟨200, 100, 0⟩ 100 10 (by norm_num)
  (by norm_num [Color.trunc, W]; rfl) (by norm_num [freqUnits]) (by norm_num [freqUnits]) hl rfl (by unfold Valid; decide) (by unfold Valid; decide) 50 (by norm_num [freqUnits]) _ rfl

/-- **C127 violated**: a flash longer than one second is never shown: the very next update, and every later one, shows the resting colour. -/
theorem C127_long_flash_violated (rate : Nat) (l : RgbLed) (c : Color) (ms : ℚ) (h : 1000 < ms) :
    ∃ l', l.flashOnceMs rate c ms = .ok l' ∧ ∀ n, (updateAnimation ((fun l => (updateAnimation l).1)^[n] l')).2 = rest l (n + 1) := by
  have hpos : (0 : ℚ) < ms := by linarith
  have h0 : (0 : ℚ) < 1000 / ms := by positivity
  have h1 : 1000 / ms < 1 := by rw [div_lt_one hpos]; exact h
  have htr : Color.trunc W (1000 / ms) = .ok 0 := by
    unfold Color.trunc
    have hW : (1 : ℚ) ≤ (W : Nat) := by exact_mod_cast (show 1 ≤ W by decide)
    rw [if_pos ⟨by linarith, by linarith⟩, Int.floor_eq_zero_iff.mpr ⟨by linarith, h1⟩]; rfl
  refine ⟨{ l with flashCol := c, flasher := l.flasher.reset.setFreq rate 0, smooth := false }, ?_, ?_⟩
  · unfold flashOnceMs
    rw [if_neg (by linarith), htr, R.bind_ok]
  · intro n
    have hz : ∀ n, (Down.update^[n + 1] (l.flasher.reset.setFreq rate 0)) = ⟨0, 0⟩ := by
      have e0 : l.flasher.reset.setFreq rate 0 = ⟨0, 0xFFFFFFFF⟩ := by
        unfold Down.setFreq Down.reset
        simp
      intro n
      induction n with
      | zero => rw [e0]; rfl
      | succ n ih => rw [Function.iterate_succ_apply', ih]; rfl
    rw [iterate_state]
    unfold updateAnimation updateOscillators setColor
    simp only [← Function.iterate_succ_apply' Tri.update, ← Function.iterate_succ_apply' Down.update, Nat.succ_eq_add_one, hz]
    rw [if_neg (by simp [Down.val])]
    unfold rest
    simp only
    by_cases hv : (Tri.update^[n + 1] l.fader).val = 0
    · rw [if_neg (not_not.mpr hv), if_pos hv]
    · rw [if_pos hv, if_neg hv]

/-- **C127 violated**: all flashes longer than 500 and up to 1000 ms are the same flash (of 1000 ms). -/
theorem C127_rounding_violated (rate : Nat) (l : RgbLed) (c : Color) (ms : ℚ) (h : 500 < ms) (h2 : ms ≤ 1000) : l.flashOnceMs rate c ms = l.flashOnceMs rate c 1000 := by
  have hpos : (0 : ℚ) < ms := by linarith
  have h1 : 1 ≤ 1000 / ms := by rw [le_div_iff₀ hpos]; linarith
  have h3 : 1000 / ms < 2 := by rw [div_lt_iff₀ hpos]; linarith
  have htr : ∀ x : ℚ, 1 ≤ x → x < 2 → Color.trunc W x = .ok 1 := by
    intro x hx hx2
    unfold Color.trunc
    have hW : (2 : ℚ) ≤ (W : Nat) := by exact_mod_cast (show 2 ≤ W by decide)
    have : ⌊x⌋ = 1 := by rw [Int.floor_eq_iff]; constructor <;> push_cast <;> linarith
    rw [if_pos ⟨by linarith, by linarith⟩, this]; rfl
  unfold flashOnceMs
  rw [if_neg (by linarith), if_neg (by norm_num), htr _ h1 h3, htr _ (by norm_num) (by norm_num)]

/-- **C127**: the base-colour operations change only the base colour; breathe sets colour and frequency of the fader; reset_breathe stops it at 0. -/
theorem C127_base (rate : Nat) (l : RgbLed) (c : Color) :
    l.setBase c = { l with background := c } ∧ l.blendBase c = { l with background := l.background.blendHalf c } ∧ l.addBase c = { l with background := l.background.add c } ∧
    (l.resetBreathe rate) = { l with fader := ⟨0, 0⟩ } ∧ (∀ a, l.setCal a = { l with cal := a }) ∧
    (∀ f t, l.fader.setFreqF rate f = .ok t → l.breathe rate c f = .ok { l with breatheCol := c, fader := t }) := by
  refine ⟨rfl, rfl, rfl, ?_, fun _ => rfl, ?_⟩
  · unfold resetBreathe Tri.setFreqI Tri.setPhase
    simp
  · intro f t h
    unfold breathe
    rw [h, R.bind_ok]

/-- **C127**: set_color with an 8-bit brightness scales each channel by brightness / 256; with a float in [0, 1], by it; rounding down. -/
theorem C127_brightness (c : Color) (hc : Valid c) (br : Nat) (hb : br < 256) (t : ℚ) (h0 : 0 ≤ t) (h1 : t ≤ 1) :
    setColor8 c br = ⟨c.r * br / 256, c.g * br / 256, c.b * br / 256⟩ ∧ setColorF c t = Color.scale c t ∧ setColor c = c := by
  obtain ⟨v1, v2, v3⟩ := hc
  refine ⟨?_, ?_, rfl⟩
  · unfold setColor8
    simp only [Nat.shiftRight_eq_div_pow]
    have : ∀ x, x < 256 → x * br / 2 ^ 8 < 256 := by
      intro x hx
      have : x * br ≤ 255 * 255 := Nat.mul_le_mul (by omega) (by omega)
      omega
    rw [mk8_eq _ _ _ (this _ v1) (this _ v2) (this _ v3)]; rfl
  · unfold setColorF Color.scale Color.blendF
    simp

example : ((flashOnceMs 1000 init ⟨1, 2, 3⟩ 10 >>= fun l => .ok (updateAnimation l).2)) = .ok ⟨1, 2, 3⟩ := by
  obtain ⟨l', h, g⟩ := C127_flash_partial 1000 init ⟨1, 2, 3⟩ 100 (by decide) (by decide) (by decide) (by decide)
  have h' : flashOnceMs 1000 init ⟨1, 2, 3⟩ 10 = .ok l' := by rw [← h]; norm_num
  rw [h', R.bind_ok]
  have := (g 0).1 (by decide)
  simp only [Function.iterate_zero, id] at this
  rw [this]; rfl

end RgbLed
