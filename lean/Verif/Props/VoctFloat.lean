import Verif.Model.CalibFloat
import Verif.Lemmas.FltLerp
import Verif.Props.Calib
/-! # Property C162: VoctCalibrator<float> with rounding and noisy measurements -/

namespace VoctFloat
open Flt Voct

/-- The calibrator after one call; `Op` (record or reset) is that of C104. -/
def step (rnd : ℚ → ℚ) (v : Voct) : Op → Voct
  | .record n m => record rnd v n m
  | .reset => v.reset

/-- A measurement of a note, off the line by at most δ, of magnitude at most M. -/
def Good (off slp δ M : ℚ) (p : Nat × ℚ) : Prop := p.1 ≤ 10 ∧ F32 p.2 ∧ |p.2 - (off + slp * p.1)| ≤ δ ∧ |p.2| ≤ M

structure Inv (off slp δ M : ℚ) (ns : List Nat) (v : Voct) : Prop where
  num : v.num = min ns.length 2
  pt0 : 1 ≤ v.num → Good off slp δ M v.pt0
  pt1 : 2 ≤ v.num → Good off slp δ M v.pt1
  last : ns ≠ [] → (if v.num = 1 then v.pt0.1 else v.pt1.1) = ns.getLastD 0
  mag : |v.slope| ≤ 3 * M
  slope : v.slope = 0 ∨ |v.slope - slp| ≤ 2 * δ + 6 * M / 2 ^ 24
  differ : (∃ a ∈ ns, ∃ b ∈ ns, a ≠ b) → |v.slope - slp| ≤ 2 * δ + 6 * M / 2 ^ 24
  c0 : 0 ∈ ns → v.measuredC0 = true
  offset : v.measuredC0 = true → |v.offset - off| ≤ δ
  offset2 : v.measuredC0 = false → 2 ≤ v.num → |v.slope - slp| ≤ 2 * δ + 6 * M / 2 ^ 24 → |v.offset - off| ≤ 21 * δ + 190 * M / 2 ^ 24

theorem inv_init (off slp δ M : ℚ) (hM : 0 ≤ M) : Inv off slp δ M [] init := by
  constructor <;> simp [init, hM]

theorem inv_reset (off slp δ M : ℚ) (hM : 0 ≤ M) (ns : List Nat) (v : Voct) (_ : Inv off slp δ M ns v) : Inv off slp δ M [] v.reset := by
  constructor <;> simp [reset, hM]

/-- the slope from two measurements of different notes -/
theorem slope_close (rnd : ℚ → ℚ) (h : Nearest rnd) (off slp δ M : ℚ) (hM : 1 / 2 ^ 126 ≤ M) (n0 n1 : Nat) (m0 m1 : ℚ) (h0 : Good off slp δ M (n0, m0)) (h1 : Good off slp δ M (n1, m1))
    (hne : ((n0 : Int) - n1) ≠ 0) :
    |rnd (rnd (m0 - m1) / (((n0 : Int) - n1 : Int) : ℚ)) - slp| ≤ 2 * δ + 6 * M / 2 ^ 24 ∧ |rnd (rnd (m0 - m1) / (((n0 : Int) - n1 : Int) : ℚ))| ≤ 3 * M ∧
    (rnd (m0 - m1) = 0 → |slp| ≤ 2 * δ) := by
  obtain ⟨_, f0, d0, b0⟩ := h0
  obtain ⟨_, f1, d1, b1⟩ := h1
  simp only at f0 d0 b0 f1 d1 b1
  have hs1 : (1 : ℚ) ≤ |(((n0 : Int) - n1 : Int) : ℚ)| := by
    have : (1 : ℤ) ≤ |(n0 : Int) - n1| := Int.one_le_abs hne
    exact_mod_cast this
  obtain ⟨k, hk⟩ : ∃ k : ℚ, k = (((n0 : Int) - n1 : Int) : ℚ) := ⟨_, rfl⟩
  rw [← hk] at hs1 ⊢
  have hkp : 0 < |k| := by linarith
  have hk0 : k ≠ 0 := abs_pos.mp hkp
  have r1 := h.sub_rel f0 f1
  have r2 := h.rel (rnd (m0 - m1) / k)
  have hd : |m0 - m1| ≤ 2 * M := by have := abs_sub m0 m1; linarith
  have hline : |(m0 - m1) - slp * k| ≤ 2 * δ := by
    have e : (m0 - m1) - slp * k = (m0 - (off + slp * n0)) - (m1 - (off + slp * n1)) := by rw [hk]; push_cast; ring
    rw [e]; have := abs_sub (m0 - (off + slp * n0)) (m1 - (off + slp * n1)); linarith
  have hδ : 0 ≤ δ := le_trans (abs_nonneg _) d0
  have hM0 : 0 ≤ M := le_trans (abs_nonneg _) b0
  have hdiv : ∀ x : ℚ, |x / k| ≤ |x| := fun x => by
    rw [abs_div]; exact div_le_self (abs_nonneg _) hs1
  have hz : rnd (m0 - m1) = 0 → |slp| ≤ 2 * δ := by
    intro hz
    have e0 : m0 - m1 = 0 := by
      rw [hz, zero_sub, abs_neg] at r1
      have : |m0 - m1| ≤ 0 := by have := abs_nonneg (m0 - m1); linarith
      exact abs_eq_zero.mp (le_antisymm this (abs_nonneg _))
    rw [e0, zero_sub, abs_neg, abs_mul] at hline
    nlinarith [abs_nonneg slp]
  generalize rnd (m0 - m1) = d at *
  have hd2 : |d| ≤ 2 * M + 2 * M / 2 ^ 24 := by
    have : |d| ≤ |d - (m0 - m1)| + |m0 - m1| := by have := abs_add_le (d - (m0 - m1)) (m0 - m1); rwa [sub_add_cancel] at this
    have : |m0 - m1| / 2 ^ 24 ≤ 2 * M / 2 ^ 24 := by gcongr
    linarith
  have r1' : |d - (m0 - m1)| ≤ 2 * M / 2 ^ 24 := by
    have : |m0 - m1| / 2 ^ 24 ≤ 2 * M / 2 ^ 24 := by gcongr
    linarith
  have q1 := hdiv d
  have q2 := hdiv (d - (m0 - m1))
  have q3 := hdiv ((m0 - m1) - slp * k)
  have e : rnd (d / k) - slp = (rnd (d / k) - d / k) + (d - (m0 - m1)) / k + ((m0 - m1) - slp * k) / k := by field_simp; ring
  have u1 : |d / k| / 2 ^ 24 ≤ (2 * M + 2 * M / 2 ^ 24) / 2 ^ 24 := by
    have : |d / k| ≤ 2 * M + 2 * M / 2 ^ 24 := by linarith
    gcongr
  have htiny : (1 : ℚ) / 2 ^ 150 ≤ M / 2 ^ 24 := by
    have : (1 : ℚ) / 2 ^ 150 = 1 / 2 ^ 126 / 2 ^ 24 := by norm_num
    rw [this]; gcongr
  refine ⟨?_, ?_, hz⟩
  · rw [e]
    have a1 := abs_add_le ((rnd (d / k) - d / k) + (d - (m0 - m1)) / k) (((m0 - m1) - slp * k) / k)
    have a2 := abs_add_le (rnd (d / k) - d / k) ((d - (m0 - m1)) / k)
    linarith
  · have a1 := abs_add_le (rnd (d / k) - d / k) (d / k)
    rw [sub_add_cancel] at a1
    linarith

/-- the offset from two measurements -/
theorem offset_close (rnd : ℚ → ℚ) (h : Nearest rnd) (off slp δ M s : ℚ) (hM : 1 / 2 ^ 126 ≤ M) (n0 n1 : Nat) (m0 m1 : ℚ) (h0 : Good off slp δ M (n0, m0)) (h1 : Good off slp δ M (n1, m1))
    (hmag : |s| ≤ 3 * M) (hs : |s - slp| ≤ 2 * δ + 6 * M / 2 ^ 24) :
    |rnd (rnd (rnd (m0 - rnd (s * n0)) + rnd (m1 - rnd (s * n1))) / 2) - off| ≤ 21 * δ + 190 * M / 2 ^ 24 := by
  have htiny : (1 : ℚ) / 2 ^ 150 ≤ M / 2 ^ 24 := by
    have : (1 : ℚ) / 2 ^ 150 = 1 / 2 ^ 126 / 2 ^ 24 := by norm_num
    rw [this]; gcongr
  have hM0 : 0 ≤ M := le_trans (by norm_num) hM
  have one : ∀ (n : Nat) (m : ℚ), Good off slp δ M (n, m) → |rnd (m - rnd (s * n)) - off| ≤ 21 * δ + 123 * M / 2 ^ 24 ∧ |rnd (m - rnd (s * n))| ≤ 32 * M := by
    rintro n m ⟨hn, f, d, b⟩
    simp only at hn f d b
    have hnq : (n : ℚ) ≤ 10 := by exact_mod_cast hn
    have hn0 : (0 : ℚ) ≤ n := Nat.cast_nonneg n
    have r1 := h.rel (s * n)
    have p1 : |s * n| ≤ 30 * M := by
      rw [abs_mul, abs_of_nonneg hn0]
      nlinarith [abs_nonneg s]
    have u1 : |s * n| / 2 ^ 24 ≤ 30 * M / 2 ^ 24 := by gcongr
    have p2 : |(s - slp) * n| ≤ 20 * δ + 60 * M / 2 ^ 24 := by
      rw [abs_mul, abs_of_nonneg hn0]
      have := mul_le_mul hs hnq hn0 (le_trans (abs_nonneg _) hs)
      linarith
    have r2 := h.sub_rel f (h.f32 (s * n))
    generalize rnd (s * n) = p at *
    have hp : |p| ≤ 30 * M + 31 * M / 2 ^ 24 := by
      have := abs_add_le (p - s * n) (s * n)
      rw [sub_add_cancel] at this
      linarith
    have hmp : |m - p| ≤ 31 * M + 31 * M / 2 ^ 24 := by have := abs_sub m p; linarith
    have u2 : |m - p| / 2 ^ 24 ≤ (31 * M + 31 * M / 2 ^ 24) / 2 ^ 24 := by gcongr
    generalize rnd (m - p) = q at *
    constructor
    · have e : q - off = (q - (m - p)) + (m - (off + slp * n)) - (p - s * n) - (s - slp) * n := by ring
      rw [e]
      have a1 := abs_sub ((q - (m - p)) + (m - (off + slp * n)) - (p - s * n)) ((s - slp) * n)
      have a2 := abs_sub ((q - (m - p)) + (m - (off + slp * n))) (p - s * n)
      have a3 := abs_add_le (q - (m - p)) (m - (off + slp * n))
      linarith
    · have := abs_add_le (q - (m - p)) (m - p)
      rw [sub_add_cancel] at this
      linarith
  obtain ⟨a0, a1⟩ := one n0 m0 h0
  obtain ⟨b0, b1⟩ := one n1 m1 h1
  have r3 := h.add_rel (h.f32 (m0 - rnd (s * n0))) (h.f32 (m1 - rnd (s * n1)))
  generalize rnd (m0 - rnd (s * n0)) = x at *
  generalize rnd (m1 - rnd (s * n1)) = y at *
  have r4 := h.rel (rnd (x + y) / 2)
  have hxy : |x + y| ≤ 64 * M := by have := abs_add_le x y; linarith
  have u3 : |x + y| / 2 ^ 24 ≤ 64 * M / 2 ^ 24 := by gcongr
  generalize rnd (x + y) = z at *
  have hz : |z / 2| ≤ 33 * M := by
    rw [abs_div, abs_two]
    have := abs_add_le (z - (x + y)) (x + y)
    rw [sub_add_cancel] at this
    linarith
  have u4 : |z / 2| / 2 ^ 24 ≤ 33 * M / 2 ^ 24 := by gcongr
  have e : rnd (z / 2) - off = (rnd (z / 2) - z / 2) + (z - (x + y)) / 2 + ((x - off) / 2 + (y - off) / 2) := by ring
  rw [e]
  have c1 := abs_add_le ((rnd (z / 2) - z / 2) + (z - (x + y)) / 2) ((x - off) / 2 + (y - off) / 2)
  have c2 := abs_add_le (rnd (z / 2) - z / 2) ((z - (x + y)) / 2)
  have c3 := abs_add_le ((x - off) / 2) ((y - off) / 2)
  rw [abs_div (z - (x + y)), abs_two] at c2
  rw [abs_div (x - off), abs_div (y - off), abs_two] at c3
  linarith

theorem solve_line (rnd : ℚ → ℚ) (h : Nearest rnd) (off slp δ M : ℚ) (hM : 1 / 2 ^ 126 ≤ M) (v : Voct) (hn : v.num = 2) (h0 : Good off slp δ M v.pt0) (h1 : Good off slp δ M v.pt1)
    (hmag : |v.slope| ≤ 3 * M) (hs : v.slope = 0 ∨ |v.slope - slp| ≤ 2 * δ + 6 * M / 2 ^ 24)
    (hC : v.measuredC0 = true → |v.offset - off| ≤ δ) (w : Voct) (hw : w = solve rnd v) :
    (w.pt0 = v.pt0 ∧ w.pt1 = v.pt1 ∧ w.num = 2 ∧ w.measuredC0 = v.measuredC0) ∧ |w.slope| ≤ 3 * M ∧ (w.slope = 0 ∨ |w.slope - slp| ≤ 2 * δ + 6 * M / 2 ^ 24) ∧
    (v.pt0.1 ≠ v.pt1.1 → |w.slope - slp| ≤ 2 * δ + 6 * M / 2 ^ 24) ∧ (|v.slope - slp| ≤ 2 * δ + 6 * M / 2 ^ 24 → |w.slope - slp| ≤ 2 * δ + 6 * M / 2 ^ 24) ∧
    (w.measuredC0 = true → |w.offset - off| ≤ δ) ∧ (w.measuredC0 = false → |w.slope - slp| ≤ 2 * δ + 6 * M / 2 ^ 24 → |w.offset - off| ≤ 21 * δ + 190 * M / 2 ^ 24) := by
  obtain ⟨vo, vs, ⟨n0, m0⟩, ⟨n1, m1⟩, vn, vc⟩ := v
  simp only at hn h0 h1 hs hC hmag
  subst hn
  have hM0 : 0 ≤ M := le_trans (by norm_num) hM
  have hslope : ∀ s, (s = if ((n0 : Int) - n1) ≠ 0 ∧ rnd (m0 - m1) ≠ 0 then rnd (rnd (m0 - m1) / (((n0 : Int) - n1 : Int) : ℚ)) else vs) → |s| ≤ 3 * M ∧
      (s = 0 ∨ |s - slp| ≤ 2 * δ + 6 * M / 2 ^ 24) ∧ (n0 ≠ n1 → |s - slp| ≤ 2 * δ + 6 * M / 2 ^ 24) ∧ (|vs - slp| ≤ 2 * δ + 6 * M / 2 ^ 24 → |s - slp| ≤ 2 * δ + 6 * M / 2 ^ 24) := by
    intro s hsv
    split at hsv
    · next hc =>
      obtain ⟨k1, k2, _⟩ := slope_close rnd h off slp δ M hM n0 n1 m0 m1 h0 h1 hc.1
      rw [hsv]
      exact ⟨k2, .inr k1, fun _ => k1, fun _ => k1⟩
    · next hc =>
      rw [hsv]
      refine ⟨hmag, hs, ?_, fun h => h⟩
      intro hnn
      have hsp : ((n0 : Int) - n1) ≠ 0 := by omega
      have hd0 : rnd (m0 - m1) = 0 := by
        by_contra hd; exact hc ⟨hsp, hd⟩
      obtain ⟨_, _, k3⟩ := slope_close rnd h off slp δ M hM n0 n1 m0 m1 h0 h1 hsp
      rcases hs with hz | hz
      · rw [hz, zero_sub, abs_neg]
        have := k3 hd0
        have : 0 ≤ 6 * M / 2 ^ 24 := by positivity
        linarith
      · exact hz
  unfold solve at hw
  simp only [ge_iff_le, le_refl, if_true] at hw
  obtain ⟨s, hsdef⟩ : ∃ s, s = if ((n0 : Int) - n1) ≠ 0 ∧ rnd (m0 - m1) ≠ 0 then rnd (rnd (m0 - m1) / (((n0 : Int) - n1 : Int) : ℚ)) else vs := ⟨_, rfl⟩
  obtain ⟨r0, r1, r2, r3⟩ := hslope s hsdef
  have hv' : (if ((n0 : Int) - n1) ≠ 0 ∧ rnd (m0 - m1) ≠ 0 then
        ({ offset := vo, slope := rnd (rnd (m0 - m1) / (((n0 : Int) - n1 : Int) : ℚ)), pt0 := (n0, m0), pt1 := (n1, m1), num := 2, measuredC0 := vc } : Voct)
      else ⟨vo, vs, (n0, m0), (n1, m1), 2, vc⟩) = ⟨vo, s, (n0, m0), (n1, m1), 2, vc⟩ := by
    rw [hsdef]; split <;> rfl
  rw [hv'] at hw
  simp only at hw
  cases vc with
  | true =>
    simp only [if_true] at hw
    rw [hw]
    exact ⟨⟨rfl, rfl, rfl, rfl⟩, r0, r1, r2, r3, fun _ => hC rfl, fun h => by cases h⟩
  | false =>
    simp only [Bool.false_eq_true, if_false] at hw
    rw [hw]
    refine ⟨⟨rfl, rfl, rfl, rfl⟩, r0, r1, r2, r3, fun h => by (cases h), ?_⟩
    intro _ hsl
    exact offset_close rnd h off slp δ M s hM n0 n1 m0 m1 h0 h1 r0 hsl

theorem inv_record (rnd : ℚ → ℚ) (h' : Nearest rnd) (off slp δ M : ℚ) (hM : 1 / 2 ^ 126 ≤ M) (ns : List Nat) (v : Voct) (h : Inv off slp δ M ns v) (note : Nat) (hn : note ≠ 11) (m : ℚ)
    (hm : Good off slp δ M (note, m)) : Inv off slp δ M (ns ++ [note]) (record rnd v note m) := by
  unfold record
  rw [if_neg hn]
  obtain ⟨v1, hv1⟩ : ∃ v1, v.noteC0 note m = v1 := ⟨_, rfl⟩
  have f1 : v1.num = v.num ∧ v1.pt0 = v.pt0 ∧ v1.pt1 = v.pt1 ∧ v1.slope = v.slope ∧ (v1.measuredC0 = true → |v1.offset - off| ≤ δ) ∧ (0 ∈ ns ++ [note] → v1.measuredC0 = true) := by
    rw [← hv1]; unfold noteC0
    split
    · next h0 =>
      refine ⟨rfl, rfl, rfl, rfl, fun _ => ?_, fun _ => rfl⟩
      have := hm.2.2.1
      simp only [h0, Nat.cast_zero, mul_zero, add_zero] at this
      exact this
    · next h0 =>
      refine ⟨rfl, rfl, rfl, rfl, h.offset, fun hz => h.c0 ?_⟩
      rcases List.mem_append.mp hz with hz | hz
      · exact hz
      · exact absurd (List.mem_singleton.mp hz).symm h0
  obtain ⟨g1, g2, g3, g4, g5, g6⟩ := f1
  rw [hv1]
  have hlen : (ns ++ [note]).length = ns.length + 1 := by simp
  by_cases hz : ns.length = 0
  · have hn0 : v1.num = 0 := by rw [g1, h.num, hz]; rfl
    have hns : ns = [] := List.length_eq_zero_iff.mp hz
    have hp : v1.push note m = { v1 with pt0 := (note, m), num := 1 } := by
      unfold push
      simp only [hn0, show ¬ (0 : Nat) ≥ 2 by decide, if_false, if_true]
    have hsv : solve rnd (v1.push note m) = { v1 with pt0 := (note, m), num := 1 } := by
      rw [hp]; unfold solve; rw [if_neg (by simp only; omega)]
    rw [hsv, hns]
    constructor
    · simp
    · intro _; exact hm
    · intro h2; simp only at h2; omega
    · intro _; simp
    · simp only [g4]; exact h.mag
    · simp only [g4]; exact h.slope
    · rintro ⟨a, ha, b, hb, hab⟩
      simp at ha hb
      omega
    · rw [hns] at g6; exact g6
    · exact g5
    · intro _ h2; simp only at h2; omega
  · have hn1 : 1 ≤ v1.num := by rw [g1, h.num]; omega
    obtain ⟨w, hw⟩ : ∃ w, v1.push note m = w := ⟨_, rfl⟩
    have hprev : w.num = 2 ∧ w.pt1 = (note, m) ∧ w.pt0 = (if v.num = 1 then v.pt0 else v.pt1) ∧ w.slope = v.slope ∧ w.measuredC0 = v1.measuredC0 ∧ w.offset = v1.offset := by
      rw [← hw]; unfold push
      by_cases h2 : v1.num ≥ 2
      · rw [if_pos h2]
        rw [if_neg (show ¬ (1 : Nat) = 0 by decide)]
        refine ⟨rfl, rfl, ?_, g4, rfl, rfl⟩
        rw [if_neg (by omega)]; exact g3
      · have e1 : v1.num = 1 := by omega
        rw [if_neg h2]
        rw [if_neg (by omega)]
        refine ⟨by simp only [e1], rfl, ?_, g4, rfl, rfl⟩
        rw [if_pos (by omega)]; exact g2
    obtain ⟨w1, w2, w3, w4, w5, w6⟩ := hprev
    rw [hw]
    have hvn : v.num = 1 ∨ v.num = 2 := by have := h.num; omega
    have hp0 : Good off slp δ M w.pt0 := by
      rw [w3]
      rcases hvn with e | e
      · rw [if_pos e]; exact h.pt0 (by omega)
      · rw [if_neg (by omega)]; exact h.pt1 (by omega)
    have hp1 : Good off slp δ M w.pt1 := by rw [w2]; exact hm
    have hns : ns ≠ [] := fun hc => hz (by rw [hc]; rfl)
    have hlast : w.pt0.1 = ns.getLastD 0 := by
      rw [w3, ← h.last hns]
      rcases hvn with e | e
      · rw [if_pos e, if_pos e]
      · rw [if_neg (by omega), if_neg (by omega)]
    obtain ⟨⟨s1, s2, s3, s4⟩, s0, s5, s6, s7, s8, s9⟩ := solve_line rnd h' off slp δ M hM w w1 hp0 hp1 (by rw [w4]; exact h.mag) (by rw [w4]; exact h.slope) (by rw [w5, w6]; exact g5) _ rfl
    constructor
    · rw [s3, hlen]; omega
    · intro _; rw [s1]; exact hp0
    · intro _; rw [s2]; exact hp1
    · intro _; rw [s3, if_neg (by omega), s2, w2]; simp
    · exact s0
    · exact s5
    · rintro hd
      by_cases hdn : ∃ a ∈ ns, ∃ b ∈ ns, a ≠ b
      · exact s7 (by rw [w4]; exact h.differ hdn)
      · apply s6
        rw [hlast, w2]
        simp only
        intro heq
        have hmem : ns.getLastD 0 ∈ ns := by
          cases hc : ns with
          | nil => exact absurd hc hns
          | cons a l => rw [List.getLastD_cons]; simp [List.getLastD_eq_getLast?]; exact Or.symm (by
              by_cases hl : l = []
              · right; simp [hl]
              · left; simp [List.getLast?_eq_some_getLast hl])
        have hall := all_eq_of_not_differ ns hdn _ hmem
        obtain ⟨a, ha, b, hb, hab⟩ := hd
        apply hab
        have conv : ∀ c ∈ ns ++ [note], c = note := by
          intro c hc
          rcases List.mem_append.mp hc with hc | hc
          · rw [hall c hc, heq]
          · exact List.mem_singleton.mp hc
        rw [conv a ha, conv b hb]
    · intro hz; rw [s4, w5]; exact g6 hz
    · exact s8
    · intro c _ d; exact s9 c d

/-- **C162**: VoctCalibrator<float>, rounding included. Every measurement is a float of magnitude at most M and deviates from a line off + slp * octave by at most δ. After every history of measurements and
resets in which two different octaves have been measured since the last reset, slope() is within 2δ + 6M/2^24 of the line's slope, and offset() is within 21δ + 190M/2^24 of the line's offset, and within δ of it if C0 was among the measured octaves. -/
theorem C162_voct (rnd : ℚ → ℚ) (h : Nearest rnd) (off slp δ M : ℚ) (hM : 1 / 2 ^ 126 ≤ M) (ops : List Op)
    (hline : ∀ (n : Nat) (m : ℚ), .record n m ∈ ops → n ≠ 11 → n ≤ 10 ∧ F32 m ∧ |m - (off + slp * n)| ≤ δ ∧ |m| ≤ M)
    (htwo : ∃ a ∈ sinceReset [] ops, ∃ b ∈ sinceReset [] ops, a ≠ b) :
    |(ops.foldl (step rnd) init).slope - slp| ≤ 2 * δ + 6 * M / 2 ^ 24 ∧ |(ops.foldl (step rnd) init).offset - off| ≤ 21 * δ + 190 * M / 2 ^ 24 ∧
    (0 ∈ sinceReset [] ops → |(ops.foldl (step rnd) init).offset - off| ≤ δ) := by
  have hM0 : 0 ≤ M := le_trans (by norm_num) hM
  have gen : ∀ (ops : List Op) (ns : List Nat) (v : Voct), Inv off slp δ M ns v → (∀ (n : Nat) (m : ℚ), .record n m ∈ ops → n ≠ 11 → Good off slp δ M (n, m)) →
      Inv off slp δ M (sinceReset ns ops) (ops.foldl (step rnd) v) := by
    intro ops
    induction ops with
    | nil => intro ns v h _; exact h
    | cons op ops ih =>
      intro ns v hi hl
      rw [List.foldl_cons]
      have hl' : ∀ (n : Nat) (m : ℚ), .record n m ∈ ops → n ≠ 11 → Good off slp δ M (n, m) := fun n m hm => hl n m (List.mem_cons_of_mem _ hm)
      cases op with
      | reset => exact ih [] _ (inv_reset off slp δ M hM0 ns v hi) hl'
      | record n m =>
        rw [sinceReset]
        by_cases hn : n = 11
        · rw [if_pos hn]
          have : step rnd v (.record n m) = v := by show record rnd v n m = v; unfold record; rw [if_pos hn]
          rw [this]; exact ih ns v hi hl'
        · rw [if_neg hn]
          exact ih _ _ (inv_record rnd h off slp δ M hM ns v hi n hn m (hl n m List.mem_cons_self hn)) hl'
  have hinv := gen ops [] init (inv_init off slp δ M hM0) hline
  have hs := hinv.differ htwo
  refine ⟨hs, ?_, fun hz => hinv.offset (hinv.c0 hz)⟩
  have h2 : 2 ≤ (ops.foldl (step rnd) init).num := by
    rw [hinv.num]
    obtain ⟨a, ha, b, hb, hab⟩ := htwo
    have : 2 ≤ (sinceReset [] ops).length := by
      match hl : sinceReset [] ops with
      | [] => rw [hl] at ha; simp at ha
      | [x] => rw [hl] at ha hb; simp at ha hb; omega
      | x :: y :: l => simp
    omega
  cases hc : (ops.foldl (step rnd) init).measuredC0 with
  | true =>
    have := hinv.offset hc
    have : 0 ≤ δ := le_trans (abs_nonneg _) this
    have : 0 ≤ 190 * M / 2 ^ 24 := by positivity
    linarith
  | false => exact hinv.offset2 hc h2 hs

/-- **C162**: once C0 has been measured, the offset is the latest measurement of C0, unrounded, whatever else is measured. -/
theorem C162_C0 (rnd : ℚ → ℚ) (v : Voct) (m : ℚ) : (record rnd v 0 m).offset = m ∧ (record rnd v 0 m).measuredC0 = true ∧
    ∀ n m', v.measuredC0 = true → n ≠ 0 → (record rnd v n m').offset = v.offset ∧ (record rnd v n m').measuredC0 = true := by
  have hsolve : ∀ u : Voct, u.measuredC0 = true → (solve rnd u).offset = u.offset ∧ (solve rnd u).measuredC0 = true := by
    intro u hu
    unfold solve
    split
    · simp only
      split
      · simp only [hu]; exact ⟨trivial, trivial⟩
      · simp only [hu]; exact ⟨trivial, trivial⟩
    · exact ⟨rfl, hu⟩
  have hpush : ∀ (u : Voct) n m, (u.push n m).offset = u.offset ∧ (u.push n m).measuredC0 = u.measuredC0 := by
    intro u n m
    unfold push
    simp only
    split <;> split <;> exact ⟨rfl, rfl⟩
  have hC : v.noteC0 0 m = { v with measuredC0 := true, offset := m } := by unfold noteC0; rw [if_pos rfl]
  refine ⟨?_, ?_, ?_⟩
  · unfold record; rw [if_neg (by decide), hC]
    rw [(hsolve _ (by rw [(hpush _ _ _).2])).1, (hpush _ _ _).1]
  · unfold record; rw [if_neg (by decide), hC]
    exact (hsolve _ (by rw [(hpush _ _ _).2])).2
  · intro n m' hv hn
    unfold record
    split
    · exact ⟨rfl, hv⟩
    · have : v.noteC0 n m' = v := by unfold noteC0; rw [if_neg hn]
      rw [this]
      have k := hsolve (v.push n m') (by rw [(hpush _ _ _).2, hv])
      exact ⟨by rw [k.1, (hpush _ _ _).1], k.2⟩

/-- **C162**: in exact arithmetic the rounded model is the model of C104. -/
theorem C162_exact (v : Voct) (n : Nat) (m : ℚ) : record id v n m = v.record n m := rfl

/-- two octaves up and a wobble of 1/1000 V, measured with a reset in between -/
example (rnd : ℚ → ℚ) (h : Nearest rnd) :
    |(([.record 3 3, .reset, .record 2 (2049 / 1024), .record 4 (4097 / 1024), .record 11 9] : List Op).foldl (step rnd) init).slope - 1| ≤ 2 * (1 / 1000) + 6 * 8 / 2 ^ 24 := by
  refine (C162_voct rnd h 0 1 (1 / 1000) 8 (by norm_num) _ ?_ ⟨2, by decide, 4, by decide, by decide⟩).1
  intro n m hm hn
  simp at hm
  rcases hm with ⟨rfl, rfl⟩ | ⟨rfl, rfl⟩ | ⟨rfl, rfl⟩ | ⟨h1, _⟩
  · exact ⟨by decide, by simpa using f32_int 3 (by norm_num), by norm_num, by norm_num⟩
  · exact ⟨by decide, f32_div 2049 (by norm_num) 10 (by norm_num), by norm_num [abs_le], by norm_num [abs_le]⟩
  · exact ⟨by decide, f32_div 4097 (by norm_num) 10 (by norm_num), by norm_num [abs_le], by norm_num [abs_le]⟩
  · exact absurd h1 hn

end VoctFloat
