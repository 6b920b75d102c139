import Verif.Props.Oscs
import Verif.Spec.LongRun
import Mathlib.Data.Nat.ModEq
import Mathlib.Data.Nat.GCD.Basic
import Mathlib.Data.Int.GCD
/-! # Property C229: oscillators in the long run -/

namespace Oscs
open LongRun

/-- The value of a ramp oscillator after `n` updates. -/
def ramp (t : Accum) (n : Nat) : Nat := (Accum.update^[n] t).val

theorem ramp_eq (t : Accum) (ht : t.phase < 2 ^ 32) (n : Nat) : ramp t n = (t.phase + n * t.inc) % 2 ^ 32 := (C95_accum t ht n).1

/-- **C229**: the number of cycles a ramp oscillator begins in `n` updates is exactly the whole part of what it has travelled, start phase included, for every `n`: no error accumulates. -/
theorem C229_cycles (t : Accum) (ht : t.phase < 2 ^ 32) (hi : t.inc < 2 ^ 32) (n : Nat) : falls (ramp t) n = (t.phase + n * t.inc) / 2 ^ 32 := by
  induction n with
  | zero => simp only [falls, Nat.zero_mul, Nat.add_zero]; omega
  | succ n ih =>
    simp only [falls, ih, ramp_eq t ht]
    have e : t.phase + (n + 1) * t.inc = (t.phase + n * t.inc) + t.inc := by rw [Nat.succ_mul, Nat.add_assoc]
    rw [e]
    generalize t.phase + n * t.inc = a at *
    split <;> omega

example := C229_cycles ⟨12345, 39370534⟩ (by decide) (by decide) 1000000

theorem lin {X R P Y Z V U S Q : Nat} (e1 : Y ≤ Z) (e2 : V ≤ Y) (e3 : X + R = P + Y) (e4 : P ≤ Q) (e5 : R < Q) (e6 : S ≤ V + U) (e7 : Z ≤ S) : X ≤ S + Q ∧ S < X + Q + U := by omega

/-- **C229**: so with `set_frequency(f)` the number of cycles in `n` updates differs from `n * f / rate` by less than one cycle and `n * f / 2^32` of a cycle (the rounding of the increment). -/
theorem C229_frequency (rate f : Nat) (hr : 0 < rate) (hf : f * freqUnits rate < 2 ^ 32) (t : Accum) (ht : t.phase < 2 ^ 32) (n : Nat) :
    rate * 2 ^ 32 * falls (ramp (t.setFreq rate f)) n ≤ n * f * 2 ^ 32 + rate * 2 ^ 32 ∧
    n * f * 2 ^ 32 < rate * 2 ^ 32 * falls (ramp (t.setFreq rate f)) n + rate * 2 ^ 32 + n * f * rate := by
  obtain ⟨h1, h2⟩ := (C95_frequency rate f hr hf ⟨0, 0⟩ t ⟨0, 0⟩ 0).1 (t.setFreq rate f).inc (by simp)
  have hp : (t.setFreq rate f).phase = t.phase := rfl
  have hi : (t.setFreq rate f).inc < 2 ^ 32 := Nat.mod_lt _ (by decide)
  rw [C229_cycles (t.setFreq rate f) ht hi n, hp]
  generalize (t.setFreq rate f).inc = i at *
  have hd := Nat.div_add_mod (t.phase + n * i) (2 ^ 32)
  have hm := Nat.mod_lt (t.phase + n * i) (show 0 < 2 ^ 32 by decide)
  generalize (t.phase + n * i) / 2 ^ 32 = q at *
  generalize (t.phase + n * i) % 2 ^ 32 = r at *
  have e1 : n * (rate * i) ≤ n * (f * (2 ^ 32 - 1)) := Nat.mul_le_mul_left _ h2
  have e2 : n * (f * (2 ^ 32 - rate)) ≤ n * (rate * i) := Nat.mul_le_mul_left _ h1
  have e3 : rate * (2 ^ 32 * q + r) = rate * (t.phase + n * i) := by rw [hd]
  have e4 : rate * t.phase ≤ rate * 2 ^ 32 := Nat.mul_le_mul_left _ (by omega)
  have e5 : rate * r < rate * 2 ^ 32 := Nat.mul_lt_mul_of_pos_left hm hr
  have e6 : n * f * 2 ^ 32 ≤ n * (f * (2 ^ 32 - rate)) + n * f * rate := by
    rw [← Nat.mul_assoc, ← Nat.mul_add]
    exact Nat.mul_le_mul_left _ (by omega)
  have e7 : n * (f * (2 ^ 32 - 1)) ≤ n * f * 2 ^ 32 := by
    rw [← Nat.mul_assoc]; exact Nat.mul_le_mul_left _ (by omega)
  have a1 : rate * (2 ^ 32 * q + r) = rate * 2 ^ 32 * q + rate * r := by rw [Nat.mul_add, Nat.mul_assoc]
  have a2 : rate * (t.phase + n * i) = rate * t.phase + n * (rate * i) := by rw [Nat.mul_add, Nat.mul_left_comm]
  rw [a1, a2] at e3
  exact lin e1 e2 e3 e4 e5 e6 e7

example := C229_frequency 48000 440 (by decide) (by decide) ⟨12345, 1⟩ (by decide) 1000000

/-- **C229**: each cycle of an oscillator takes `2^32 / inc` updates, rounded down or up: between two values `m` updates apart lies less than one cycle if `m` is at most the smaller number and at least one if it is at least the larger. -/
theorem C229_cycle_length (t : Accum) (ht : t.phase < 2 ^ 32) (hi : t.inc < 2 ^ 32) (n m : Nat) :
    (m * t.inc ≤ 2 ^ 32 → falls (ramp t) (n + m) ≤ falls (ramp t) n + 1) ∧ (2 ^ 32 ≤ m * t.inc → falls (ramp t) n + 1 ≤ falls (ramp t) (n + m)) := by
  rw [C229_cycles t ht hi, C229_cycles t ht hi]
  have e : t.phase + (n + m) * t.inc = (t.phase + n * t.inc) + m * t.inc := by rw [Nat.add_mul, Nat.add_assoc]
  rw [e]
  generalize t.phase + n * t.inc = a
  generalize m * t.inc = b
  omega

/-- **C229**: the values repeat exactly every `2^32 / gcd(inc, 2^32)` updates, and after no other number of updates than the multiples of it. -/
theorem C229_repeats (t : Accum) (ht : t.phase < 2 ^ 32) (n m : Nat) : ramp t (n + m) = ramp t n ↔ (2 ^ 32 / Nat.gcd (2 ^ 32) t.inc) ∣ m := by
  rw [ramp_eq t ht, ramp_eq t ht]
  have e : t.phase + (n + m) * t.inc = (t.phase + n * t.inc) + m * t.inc := by rw [Nat.add_mul, Nat.add_assoc]
  rw [e]
  have hg : 0 < Nat.gcd (2 ^ 32) t.inc := Nat.gcd_pos_of_pos_left _ (by decide)
  have h1 : (t.phase + n * t.inc + m * t.inc) % 2 ^ 32 = (t.phase + n * t.inc) % 2 ^ 32 ↔ 2 ^ 32 ∣ m * t.inc := by
    generalize t.phase + n * t.inc = a
    generalize m * t.inc = b
    omega
  rw [h1]
  constructor
  · intro h
    have hc := Nat.coprime_div_gcd_div_gcd hg
    have h2 : 2 ^ 32 / Nat.gcd (2 ^ 32) t.inc ∣ m * (t.inc / Nat.gcd (2 ^ 32) t.inc) := by
      obtain ⟨k, hk⟩ := h
      refine ⟨k, ?_⟩
      apply Nat.eq_of_mul_eq_mul_left hg
      rw [← Nat.mul_assoc _ _ k, Nat.mul_div_cancel' (Nat.gcd_dvd_left _ _), ← hk, Nat.mul_left_comm, Nat.mul_div_cancel' (Nat.gcd_dvd_right _ _)]
    exact hc.dvd_of_dvd_mul_right h2
  · rintro ⟨k, rfl⟩
    obtain ⟨c, hc⟩ := Nat.gcd_dvd_right (2 ^ 32) t.inc
    refine ⟨k * c, ?_⟩
    have h2 : 2 ^ 32 / Nat.gcd (2 ^ 32) t.inc * Nat.gcd (2 ^ 32) t.inc = 2 ^ 32 := Nat.div_mul_cancel (Nat.gcd_dvd_left _ _)
    calc 2 ^ 32 / Nat.gcd (2 ^ 32) t.inc * k * t.inc = 2 ^ 32 / Nat.gcd (2 ^ 32) t.inc * k * (Nat.gcd (2 ^ 32) t.inc * c) := by rw [← hc]
      _ = (2 ^ 32 / Nat.gcd (2 ^ 32) t.inc * Nat.gcd (2 ^ 32) t.inc) * (k * c) := by
        generalize 2 ^ 32 / Nat.gcd (2 ^ 32) t.inc = u
        generalize Nat.gcd (2 ^ 32) t.inc = v
        rw [Nat.mul_assoc, Nat.mul_assoc, Nat.mul_left_comm k v c]
      _ = 2 ^ 32 * (k * c) := by rw [h2]

/-- **C229**: with an odd increment the oscillator takes every one of the `2^32` values, each exactly once per `2^32` updates. -/
theorem C229_all_values (t : Accum) (ht : t.phase < 2 ^ 32) (ho : t.inc % 2 = 1) (v : Nat) (hv : v < 2 ^ 32) : ∃! n, n < 2 ^ 32 ∧ ramp t n = v := by
  have hc : Nat.Coprime t.inc (2 ^ 32) := Nat.Coprime.pow_right _ (by unfold Nat.Coprime; rw [Nat.gcd_comm, Nat.gcd_rec, ho]; rfl)
  have hg : Nat.gcd (2 ^ 32) t.inc = 1 := by rw [Nat.gcd_comm]; exact hc
  obtain ⟨k, hk⟩ := Nat.exists_mul_mod_eq_one_of_coprime hc (by decide)
  have hk' : t.inc * k % 2 ^ 32 = 1 := hk.2
  have hex : ∃ n, n < 2 ^ 32 ∧ ramp t n = v := by
    refine ⟨k * (v + (2 ^ 32 - t.phase)) % 2 ^ 32, Nat.mod_lt _ (by decide), ?_⟩
    rw [ramp_eq t ht]
    have h1 : (k * (v + (2 ^ 32 - t.phase)) % 2 ^ 32 * t.inc) % 2 ^ 32 = (v + (2 ^ 32 - t.phase)) % 2 ^ 32 := by
      rw [Nat.mod_mul_mod, show k * (v + (2 ^ 32 - t.phase)) * t.inc = (t.inc * k) * (v + (2 ^ 32 - t.phase)) by
        rw [Nat.mul_comm _ t.inc, ← Nat.mul_assoc], Nat.mul_mod, hk', Nat.one_mul, Nat.mod_mod]
    rw [Nat.add_mod, h1]
    omega
  obtain ⟨n, hn, hv'⟩ := hex
  refine ⟨n, ⟨hn, hv'⟩, fun m hm => ?_⟩
  obtain ⟨hm1, hm2⟩ := hm
  rcases Nat.le_total n m with h | h
  · have := (C229_repeats t ht n (m - n)).mp (by rw [Nat.add_sub_cancel' h, hm2, hv'])
    rw [hg, Nat.div_one] at this
    have := Nat.eq_zero_of_dvd_of_lt this (by omega)
    omega
  · have := (C229_repeats t ht m (n - m)).mp (by rw [Nat.add_sub_cancel' h, hm2, hv'])
    rw [hg, Nat.div_one] at this
    have := Nat.eq_zero_of_dvd_of_lt this (by omega)
    omega

/-- **C229**: two oscillators with the same increment stay the same distance apart for ever. -/
theorem C229_in_step (s t : Accum) (hs : s.phase < 2 ^ 32) (ht : t.phase < 2 ^ 32) (h : s.inc = t.inc) (n : Nat) :
    (ramp s n + t.phase) % 2 ^ 32 = (ramp t n + s.phase) % 2 ^ 32 := by
  rw [ramp_eq s hs, ramp_eq t ht, h]
  generalize n * t.inc = a
  omega

/-- a 1 Hz ramp at 48000 updates a second: in 48000 * 1000 updates (1000 seconds) it has begun 999 cycles, short of the thousandth by a few updates -/
example : (Accum.ofFreq 48000 1).phase < 2 ^ 32 ∧ (Accum.ofFreq 48000 1).inc = 89478 ∧ falls (ramp (Accum.ofFreq 48000 1)) 48000000 = 999 ∧ falls (ramp (Accum.ofFreq 48000 1)) 48001000 = 1000 := by
  refine ⟨by decide, by decide, ?_, ?_⟩ <;> rw [C229_cycles _ (by decide) (by decide)] <;> decide

end Oscs
