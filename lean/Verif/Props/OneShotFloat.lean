import Verif.Props.OscsFloat
/-! # Property C150: one-shot pulses in binary32 -/

namespace OscsFloat
open Oscs Flt

/-- The remaining width after `k` counting updates. -/
def left (rnd : ℚ → ℚ) (i : ℚ) (w : ℚ) (k : Nat) : ℚ := (fun x => rnd (x - i))^[k] w

theorem left_succ (rnd : ℚ → ℚ) (i w : ℚ) (k : Nat) : left rnd i w (k + 1) = rnd (left rnd i w k - i) := by
  unfold left; rw [Function.iterate_succ_apply']

theorem left_succ' (rnd : ℚ → ℚ) (i w : ℚ) (k : Nat) : left rnd i w (k + 1) = left rnd i (rnd (w - i)) k := by
  unfold left; rw [Function.iterate_succ_apply]

theorem left_add (rnd : ℚ → ℚ) (i w : ℚ) (j k : Nat) : left rnd i w (j + k) = left rnd i (left rnd i w j) k := by
  unfold left; rw [Nat.add_comm, Function.iterate_add_apply]

/-- The results of `n` updates: the pulse lasts as long as the remaining width stays positive. -/
theorem run_eq (rnd : ℚ → ℚ) (n : Nat) (o : OneShot) : (run rnd n o).2 = List.ofFn (fun k : Fin n => decide (∀ j, j ≤ k.val → 0 < left rnd o.inc o.width j)) := by
  induction n generalizing o with
  | zero => rfl
  | succ n ih =>
    unfold run
    simp only []
    rw [List.ofFn_succ, ih]
    by_cases hw : o.width > 0
    · have e : update rnd o = ({ o with width := rnd (o.width - o.inc) }, true) := by unfold update; rw [if_pos hw]
      rw [e]
      congr 1
      · symm; rw [decide_eq_true_iff]
        intro j hj
        have : j = 0 := by simpa using hj
        subst this; exact hw
      · congr 1; funext k
        rw [decide_eq_decide]
        constructor
        · intro hk j hj
          rcases j with _ | j
          · exact hw
          · rw [left_succ']; exact hk j (by rw [Fin.val_succ] at hj; omega)
        · intro hk j hj
          have := hk (j + 1) (by rw [Fin.val_succ]; omega)
          rwa [left_succ'] at this
    · have e : update rnd o = (o, false) := by unfold update; rw [if_neg hw]
      rw [e]
      congr 1
      · symm; rw [decide_eq_false_iff_not]
        intro hk; exact hw (hk 0 (Nat.zero_le _))
      · congr 1; funext k
        rw [decide_eq_decide]
        constructor
        · intro hk; exact absurd (hk 0 (Nat.zero_le _)) hw
        · intro hk; exact absurd (hk 0 (Nat.zero_le _)) hw

/-- As long as the pulse lasts, the remaining width is off by at most 2^-24 of the starting width (plus the step) per update. -/
theorem left_err (rnd : ℚ → ℚ) (h : Nearest rnd) (i w : ℚ) (hi : F32 i) (hw : F32 w) (i0 : 0 < i) (w0 : 0 ≤ w) (n : Nat) (hp : ∀ j, j < n → 0 < left rnd i w j) :
    F32 (left rnd i w n) ∧ left rnd i w n ≤ w ∧ |left rnd i w n - (w - n * i)| ≤ n * ((w + i) / 2 ^ 24) := by
  induction n with
  | zero =>
    refine ⟨hw, le_refl _, ?_⟩
    show |w - (w - (0 : ℕ) * i)| ≤ _
    simp
  | succ n ih =>
    obtain ⟨h1, h2, h3⟩ := ih (fun j hj => hp j (by omega))
    have h4 := hp n (by omega)
    rw [left_succ]
    obtain ⟨x, hx⟩ : ∃ x, left rnd i w n = x := ⟨_, rfl⟩
    rw [hx] at h1 h2 h3 h4 ⊢
    have h5 := h.sub_rel h1 hi
    have h6 : |x - i| ≤ w + i := by rw [abs_le]; constructor <;> linarith
    have h7 : |x - i| / 2 ^ 24 ≤ (w + i) / 2 ^ 24 := by gcongr
    refine ⟨h.f32 _, (h.le h1 (by linarith)).trans h2, ?_⟩
    have e : rnd (x - i) - (w - (n + 1 : ℕ) * i) = (rnd (x - i) - (x - i)) + (x - (w - n * i)) := by push_cast; ring
    rw [e]
    refine (abs_add_le _ _).trans ?_
    push_cast
    linarith

/-- **C150** (partial): with `w * rate + 3 < 2^24`, after start(w) the updates return true for a number N of times and false for ever after, where N is w * rate up to a relative error of
(w * rate + 3) / 2^24: one second at 48 kHz is 48000 updates, plus or minus 0.3 %. Missing: that N is exactly w * rate rounded up (see the violations below). -/
theorem C150_pulse_partial (rnd : ℚ → ℚ) (h : Nearest rnd) (rate w : ℚ) (hr : 0 < rate) (hr2 : rate ≤ 2 ^ 126) (hwF : F32 w) (hw : 0 < w) (o : OneShot) (ho : o.inc = (oneShot rnd rate).inc)
    (d : ℚ) (hd : d = (w * rate + 3) / 2 ^ 24) (hd1 : d < 1) :
    ∃ N : Nat, (∀ n, (run rnd n (o.start w)).2 = List.ofFn (fun k : Fin n => decide (k.val < N))) ∧ w * rate ≤ N * (1 + d) ∧ ((N : ℚ) - 1) * (1 - d) < w * rate := by
  obtain ⟨i, hi⟩ : ∃ i, rnd (1 / rate) = i := ⟨_, rfl⟩
  have hiF : F32 i := by rw [← hi]; exact h.f32 _
  have hn : (2 : ℚ) ^ (-126 : ℤ) ≤ 1 / rate := by
    rw [le_div_iff₀ hr]
    calc (2 : ℚ) ^ (-126 : ℤ) * rate ≤ 2 ^ (-126 : ℤ) * 2 ^ 126 := by gcongr
      _ = 1 := by norm_num
  have hrp : 0 < 1 / rate := by positivity
  have hre := h.rel_normal (1 / rate) (by rwa [abs_of_pos hrp])
  rw [abs_of_pos hrp, hi] at hre
  obtain ⟨r1, r2⟩ := abs_le.mp hre
  -- i * rate is 1 up to 2^-24
  have e1 : 1 / rate * rate = 1 := by field_simp
  have s1 : i * rate ≤ 1 + 1 / 2 ^ 24 := by
    have : i * rate ≤ (1 / rate + 1 / rate / 2 ^ 24) * rate := mul_le_mul_of_nonneg_right (by linarith) hr.le
    have e2 : (1 / rate + 1 / rate / 2 ^ 24) * rate = 1 / rate * rate * (1 + 1 / 2 ^ 24) := by ring
    rw [e2, e1] at this; linarith
  have s2 : 1 - 1 / 2 ^ 24 ≤ i * rate := by
    have : (1 / rate - 1 / rate / 2 ^ 24) * rate ≤ i * rate := mul_le_mul_of_nonneg_right (by linarith) hr.le
    have e2 : (1 / rate - 1 / rate / 2 ^ 24) * rate = 1 / rate * rate * (1 - 1 / 2 ^ 24) := by ring
    rw [e2, e1] at this; linarith
  have i0 : 0 < i := by
    have : 0 < i * rate := lt_of_lt_of_le (by norm_num) s2
    exact (pos_iff_pos_of_mul_pos this).mpr hr
  have t1 : (i + (w + i) / 2 ^ 24) * rate ≤ 1 + d := by rw [hd]; norm_num at s1 ⊢; linarith
  have t2 : 1 - d ≤ (i - (w + i) / 2 ^ 24) * rate := by rw [hd]; norm_num at s1 s2 ⊢; linarith
  have d0 : 0 ≤ d := by rw [hd]; positivity
  -- the pulse ends
  have hend : ∃ k, ¬ 0 < left rnd i w k := by
    by_contra hc
    have hc' : ∀ k, 0 < left rnd i w k := fun k => by by_contra hk; exact hc ⟨k, hk⟩
    obtain ⟨k, hk⟩ := exists_nat_gt (w * rate / (1 - d))
    rw [div_lt_iff₀ (by linarith)] at hk
    obtain ⟨_, _, h3⟩ := left_err rnd h i w hiF hwF i0 hw.le k (fun j _ => hc' j)
    have h4 := (abs_le.mp h3).2
    have h5 := hc' k
    have h6 : (k : ℚ) * (i - (w + i) / 2 ^ 24) < w := by linarith
    have h7 : (k : ℚ) * (1 - d) ≤ k * ((i - (w + i) / 2 ^ 24) * rate) := mul_le_mul_of_nonneg_left t2 (Nat.cast_nonneg k)
    have h8 : (k : ℚ) * (i - (w + i) / 2 ^ 24) * rate < w * rate := mul_lt_mul_of_pos_right h6 hr
    linarith
  classical
  obtain ⟨N, hN⟩ : ∃ N, N = Nat.find hend := ⟨_, rfl⟩
  have hN1 : ¬ 0 < left rnd i w N := by rw [hN]; exact Nat.find_spec hend
  have hN2 : ∀ j, j < N → 0 < left rnd i w j := fun j hj => by
    have := Nat.find_min hend (by rwa [← hN] : j < Nat.find hend)
    exact not_not.mp this
  refine ⟨N, ?_, ?_, ?_⟩
  · intro n
    rw [run_eq]
    have e3 : (o.start w).inc = i := by show o.inc = i; rw [ho, ← hi]; rfl
    have e4 : (o.start w).width = w := rfl
    rw [e3, e4]
    congr 1; funext k
    rw [decide_eq_decide]
    constructor
    · intro hk
      by_contra hc
      exact hN1 (hk N (by omega))
    · intro hk j hj
      exact hN2 j (by omega)
  · obtain ⟨_, _, h3⟩ := left_err rnd h i w hiF hwF i0 hw.le N hN2
    have h4 := (abs_le.mp h3).1
    have h6 : w ≤ N * (i + (w + i) / 2 ^ 24) := by linarith
    have h7 : N * ((i + (w + i) / 2 ^ 24) * rate) ≤ N * (1 + d) := mul_le_mul_of_nonneg_left t1 (Nat.cast_nonneg N)
    have h8 : w * rate ≤ N * (i + (w + i) / 2 ^ 24) * rate := mul_le_mul_of_nonneg_right h6 hr.le
    linarith
  · obtain ⟨k, hk⟩ : ∃ k, N = k + 1 := by
      refine Nat.exists_eq_succ_of_ne_zero ?_
      intro h0
      rw [h0] at hN1
      exact hN1 hw
    obtain ⟨_, _, h3⟩ := left_err rnd h i w hiF hwF i0 hw.le k (fun j hj => hN2 j (by omega))
    have h4 := (abs_le.mp h3).2
    have h5 := hN2 k (by omega)
    have h6 : (k : ℚ) * (i - (w + i) / 2 ^ 24) < w := by linarith
    have h7 : (k : ℚ) * (1 - d) ≤ k * ((i - (w + i) / 2 ^ 24) * rate) := mul_le_mul_of_nonneg_left t2 (Nat.cast_nonneg k)
    have h8 : (k : ℚ) * (i - (w + i) / 2 ^ 24) * rate < w * rate := mul_lt_mul_of_pos_right h6 hr
    rw [hk]; push_cast
    linarith

/-- One second at 48 kHz meets the hypotheses. -/
example : F32 1 ∧ ((1 : ℚ) * 48000 + 3) / 2 ^ 24 < 1 := ⟨f32_one, by norm_num⟩

/-- **C150**: at an update rate that is a power of two, and for at most 2^24 updates, the pulse is exactly w * rate updates long, rounded up, for every float w. -/
theorem C150_exact (rnd : ℚ → ℚ) (h : Nearest rnd) (k : Nat) (hk : k ≤ 126) (w : ℚ) (hwF : F32 w) (hw : 0 < w) (hw2 : w * 2 ^ k ≤ 2 ^ 24) (o : OneShot) (ho : o.inc = (oneShot rnd (2 ^ k)).inc) (n : Nat) :
    (run rnd n (o.start w)).2 = List.ofFn (fun j : Fin n => decide ((j : Int) < ⌈w * 2 ^ k⌉)) := by
  have hi : rnd (1 / 2 ^ k) = 1 / 2 ^ k := h.fix (by have := f32_div 1 (by norm_num) k (by omega); rwa [Int.cast_one] at this)
  have e3 : (o.start w).inc = 1 / 2 ^ k := by show o.inc = _; rw [ho, ← hi]; rfl
  have e4 : (o.start w).width = w := rfl
  have hp : (0 : ℚ) < 2 ^ k := by positivity
  -- remaining widths are floats
  have hF : ∀ j : Nat, 0 ≤ w - j * (1 / 2 ^ k) → F32 (w - j * (1 / 2 ^ k)) := by
    intro j hj
    obtain ⟨m, e, hm, he, hx⟩ := hwF
    by_cases hc : e ≤ -(k : ℤ)
    · have e5 : w - j * (1 / 2 ^ k) = ((m - j * 2 ^ (-(k : ℤ) - e).toNat : ℤ) : ℚ) * 2 ^ e := by
        have e6 : (1 : ℚ) / 2 ^ k = 2 ^ (-(k : ℤ) - e).toNat * 2 ^ e := by
          rw [← zpow_natCast (2 : ℚ) (-(k : ℤ) - e).toNat, Int.toNat_of_nonneg (by omega), ← zpow_add₀ (by norm_num), show -(k : ℤ) - e + e = -k by ring, zpow_neg, zpow_natCast, one_div]
        rw [hx, e6]; push_cast; ring
      refine ⟨_, e, ?_, he, e5⟩
      have hpe := two_zpow_pos e
      have h1 : (0 : ℚ) ≤ ((m - j * 2 ^ (-(k : ℤ) - e).toNat : ℤ) : ℚ) := nonneg_of_mul_nonneg_left (by rw [← e5]; exact hj) hpe
      have h2 : 0 ≤ m - j * 2 ^ (-(k : ℤ) - e).toNat := by exact_mod_cast h1
      have h3 : (0 : ℤ) ≤ j * 2 ^ (-(k : ℤ) - e).toNat := by positivity
      have h4 := (abs_lt.mp hm).2
      rw [abs_of_nonneg h2]; omega
    · rw [not_le] at hc
      have e5 : w - j * (1 / 2 ^ k) = ((m * 2 ^ (e + k).toNat - j : ℤ) : ℚ) * 2 ^ (-(k : ℤ)) := by
        have e6 : (2 : ℚ) ^ e = 2 ^ (e + k).toNat * 2 ^ (-(k : ℤ)) := by
          rw [← zpow_natCast (2 : ℚ) (e + k).toNat, Int.toNat_of_nonneg (by omega), ← zpow_add₀ (by norm_num)]
          congr 1; ring
        have e7 : (1 : ℚ) / 2 ^ k = 2 ^ (-(k : ℤ)) := by rw [zpow_neg, zpow_natCast, one_div]
        rw [hx, e6, e7]; push_cast; ring
      rw [e5]
      apply f32_grid _ _ _ (by omega)
      have hpe := two_zpow_pos (-(k : ℤ))
      have h1 : (0 : ℚ) ≤ ((m * 2 ^ (e + k).toNat - j : ℤ) : ℚ) := nonneg_of_mul_nonneg_left (by rw [← e5]; exact hj) hpe
      have h2 : 0 ≤ m * 2 ^ (e + k).toNat - j := by exact_mod_cast h1
      have h3 : ((m * 2 ^ (e + k).toNat - j : ℤ) : ℚ) ≤ 2 ^ 24 := by
        have e8 : ((m * 2 ^ (e + k).toNat - j : ℤ) : ℚ) = (w - j * (1 / 2 ^ k)) * 2 ^ k := by
          rw [e5, mul_assoc, zpow_neg, zpow_natCast, inv_mul_cancel₀ hp.ne', mul_one]
        rw [e8]
        have : (0 : ℚ) ≤ j * (1 / 2 ^ k) := by positivity
        have : (w - j * (1 / 2 ^ k)) * 2 ^ k ≤ w * 2 ^ k := by gcongr; linarith
        linarith
      have h4 : m * 2 ^ (e + k).toNat - j ≤ 2 ^ 24 := by exact_mod_cast h3
      rw [abs_of_nonneg h2]; exact h4
  have hl : ∀ j : Nat, 0 ≤ w - j * (1 / 2 ^ k) → left rnd (1 / 2 ^ k) w j = w - j * (1 / 2 ^ k) := by
    intro j
    induction j with
    | zero => intro _; show w = _; simp
    | succ j ih =>
      intro hj
      have hpk : (0 : ℚ) < 1 / 2 ^ k := by positivity
      rw [left_succ, ih (by push_cast at hj; linarith)]
      have e5 : w - j * (1 / 2 ^ k) - 1 / 2 ^ k = w - (j + 1 : ℕ) * (1 / 2 ^ k) := by push_cast; ring
      rw [e5, h.fix (hF _ hj)]
  have hiff : ∀ j : Nat, (j : Int) < ⌈w * 2 ^ k⌉ ↔ 0 < w - j * (1 / 2 ^ k) := by
    intro j
    rw [Int.lt_ceil]
    constructor
    · intro hj
      have : ((j : Int) : ℚ) * (1 / 2 ^ k) < w * 2 ^ k * (1 / 2 ^ k) := mul_lt_mul_of_pos_right hj (by positivity)
      rw [mul_assoc w, mul_one_div_cancel hp.ne', mul_one] at this
      push_cast at this; linarith
    · intro hj
      have : (j : ℚ) * (1 / 2 ^ k) * 2 ^ k < w * 2 ^ k := mul_lt_mul_of_pos_right (by linarith) hp
      rw [mul_assoc, one_div_mul_cancel hp.ne', mul_one] at this
      exact_mod_cast this
  rw [run_eq, e3, e4]
  congr 1; funext j
  rw [decide_eq_decide, hiff]
  constructor
  · intro hj
    by_contra hc
    rw [not_lt] at hc
    -- the first step at or below zero
    obtain ⟨a, ha⟩ : ∃ a : Nat, ¬ 0 < w - a * (1 / 2 ^ k) := ⟨j, not_lt.mpr hc⟩
    classical
    have hex : ∃ a : Nat, ¬ 0 < w - a * (1 / 2 ^ k) := ⟨j, not_lt.mpr hc⟩
    have hf := Nat.find_spec hex
    have hmin : Nat.find hex ≤ j := Nat.find_min' hex (not_lt.mpr hc)
    obtain ⟨b, hb⟩ : ∃ b, Nat.find hex = b + 1 := by
      refine Nat.exists_eq_succ_of_ne_zero ?_
      intro h0; rw [h0] at hf; apply hf; simpa using hw
    have hbp : 0 < w - b * (1 / 2 ^ k) := not_not.mp (Nat.find_min hex (by omega))
    rw [hb] at hf hmin
    have := hj (b + 1) hmin
    rw [left_succ, hl b hbp.le] at this
    have h5 : rnd (w - b * (1 / 2 ^ k) - 1 / 2 ^ k) ≤ 0 := h.le f32_zero (by push_cast at hf; linarith)
    linarith
  · intro hj a ha
    have hle : (a : ℚ) ≤ (j.val : ℚ) := by exact_mod_cast ha
    have hpk : (0 : ℚ) < 1 / 2 ^ k := by positivity
    have : (a : ℚ) * (1 / 2 ^ k) ≤ j.val * (1 / 2 ^ k) := mul_le_mul_of_nonneg_right hle hpk.le
    rw [hl a (by linarith)]; linarith

/-- At 1024 Hz, a pulse of one third of a second (as a float) qualifies. -/
example : F32 (11184811 * (2 : ℚ) ^ (-25 : ℤ)) ∧ (11184811 * (2 : ℚ) ^ (-25 : ℤ)) * 2 ^ 10 ≤ 2 ^ 24 := ⟨⟨11184811, -25, by norm_num, by norm_num, by norm_num⟩, by norm_num⟩

theorem inc48 (rnd : ℚ → ℚ) (h : Nearest rnd) : 20833 / 10 ^ 9 < rnd (1 / 48000) ∧ rnd (1 / 48000) < 20834 / 10 ^ 9 := by
  have := h.rel_normal (1 / 48000) (by norm_num)
  rw [abs_of_pos (by norm_num : (0 : ℚ) < 1 / 48000)] at this
  obtain ⟨h1, h2⟩ := abs_le.mp this
  constructor
  · norm_num at h1 ⊢; linarith
  · norm_num at h2 ⊢; linarith

/-- **C150 violated**: at the default rate of 48 kHz, a pulse of 600 seconds never ends: the step is lost in the rounding. -/
theorem C150_never_ends_violated (rnd : ℚ → ℚ) (h : Nearest rnd) (n : Nat) : (run rnd n ((oneShot rnd 48000).start 600)).2 = List.replicate n true := by
  have hs : ∀ j, left rnd (rnd (1 / 48000)) 600 j = 600 := by
    intro j
    induction j with
    | zero => rfl
    | succ j ih =>
      obtain ⟨h1, h2⟩ := inc48 rnd h
      rw [left_succ, ih, h.eq_of_close (600 - rnd (1 / 48000)) 9830400 (-14) (by norm_num) (by norm_num) ?_ ?_]
      · norm_num
      · rw [abs_of_pos (by norm_num at h2 ⊢; linarith)]; norm_num at h2 ⊢; linarith
      · rw [abs_of_pos (by norm_num at h1 ⊢; linarith)]; norm_num at h2 ⊢; linarith
  rw [run_eq]
  have : ∀ k : Fin n, decide (∀ j, j ≤ k.val → 0 < left rnd ((oneShot rnd 48000).start 600).inc ((oneShot rnd 48000).start 600).width j) = true := by
    intro k
    rw [decide_eq_true_iff]
    intro j _
    show 0 < left rnd (rnd (1 / 48000)) 600 j
    rw [hs]; norm_num
  simp only [this]
  exact List.ofFn_const n true

/-- **C150 violated**: a pulse of 250 seconds at 48 kHz is 12000000 updates, but is still on 260 seconds (12480000 updates) later. -/
theorem C150_late_violated (rnd : ℚ → ℚ) (h : Nearest rnd) (n : Nat) (hn : n ≤ 12480000) : (run rnd n ((oneShot rnd 48000).start 250)).2 = List.replicate n true := by
  obtain ⟨h1, h2⟩ := inc48 rnd h
  obtain ⟨i, hi⟩ : ∃ i, rnd (1 / 48000) = i := ⟨_, rfl⟩
  rw [hi] at h1 h2
  have hiF : F32 i := by rw [← hi]; exact h.f32 _
  norm_num at h1 h2
  -- above 128 the step is 2^-16
  have hs : ∀ j : Nat, j ≤ 7995391 → left rnd i 250 j = 250 - j / 65536 := by
    intro j
    induction j with
    | zero => intro _; show (250 : ℚ) = _; norm_num
    | succ j ih =>
      intro hj
      have hj' : (j : ℚ) + 1 ≤ 7995391 := by exact_mod_cast hj
      have j0 : (0 : ℚ) ≤ j := Nat.cast_nonneg j
      have e0 : (2 : ℚ) ^ (-16 : ℤ) = 1 / 65536 := by norm_num
      rw [left_succ, ih (by omega), h.eq_of_close (250 - j / 65536 - i) (16384000 - j - 1) (-16) ?_ (by norm_num) ?_ ?_]
      · push_cast; rw [e0]; ring
      · rw [abs_of_nonneg (by omega)]; omega
      · rw [abs_of_pos (by linarith)]; norm_num; linarith
      · push_cast
        rw [e0, abs_lt]
        constructor <;> linarith
  have hx := hs 7995391 (le_refl _)
  have hxF : F32 (left rnd i 250 7995391) := by
    show F32 (left rnd i 250 (7995390 + 1))
    rw [left_succ]; exact h.f32 _
  have hpos : ∀ j : Nat, j ≤ 12480000 → 0 < left rnd i 250 j := by
    intro j hj
    by_cases hc : j ≤ 7995391
    · rw [hs j hc]
      have : (j : ℚ) ≤ 7995391 := by exact_mod_cast hc
      linarith
    · -- below 128 the error per update is at most 2^-17 and a bit
      obtain ⟨k, rfl⟩ : ∃ k, j = 7995391 + k := ⟨j - 7995391, by omega⟩
      have hk : k ≤ 4484609 := by omega
      rw [left_add]
      clear hj hc
      induction k using Nat.strong_induction_on with
      | _ k ih =>
        have herr := (left_err rnd h i _ hiF hxF (by linarith) (by rw [hx]; norm_num) k (fun j hj => ih j hj (by omega))).2.2
        have h3 := (abs_le.mp herr).1
        rw [hx] at h3 ⊢
        have hk' : (k : ℚ) ≤ 4484609 := by exact_mod_cast hk
        have k0 : (0 : ℚ) ≤ k := Nat.cast_nonneg k
        have h4 : (k : ℚ) * (i + (250 - ((7995391 : ℕ) : ℚ) / 65536 + i) / 2 ^ 24) ≤ 4484609 * (28471 / 10 ^ 9) := by
          apply mul_le_mul hk' _ (by norm_num; linarith) (by norm_num)
          norm_num; linarith
        have h5 : (4484609 : ℚ) * (28471 / 10 ^ 9) < 250 - ((7995391 : ℕ) : ℚ) / 65536 := by norm_num
        linarith
  rw [run_eq]
  have : ∀ k : Fin n, decide (∀ j, j ≤ k.val → 0 < left rnd ((oneShot rnd 48000).start 250).inc ((oneShot rnd 48000).start 250).width j) = true := by
    intro k
    rw [decide_eq_true_iff]
    intro j hj
    show 0 < left rnd (rnd (1 / 48000)) 250 j
    rw [hi]; exact hpos j (by have := k.isLt; omega)
  simp only [this]
  exact List.ofFn_const n true

/-- **C150**: stop ends the pulse at once; the constructor and set_update_rate_hz set the step to the rounded reciprocal (rates that are not positive are ignored); a new OneShot is idle. -/
theorem C150_control (rnd : ℚ → ℚ) (o : OneShot) (rate : ℚ) : (update rnd o.stop).2 = false ∧ (oneShot rnd rate).inc = rnd (1 / rate) ∧ (update rnd (oneShot rnd rate)).2 = false ∧
    (0 < rate → (setRate rnd o rate).inc = (oneShot rnd rate).inc) ∧ (rate ≤ 0 → setRate rnd o rate = o) ∧ (setRate rnd o rate).width = o.width := by
  refine ⟨?_, rfl, ?_, ?_, ?_, ?_⟩
  · simp [OneShot.stop, update]
  · simp [oneShot, update]
  · intro h; unfold setRate; rw [if_pos h]; rfl
  · intro h; unfold setRate; rw [if_neg (not_lt.mpr h)]
  · unfold setRate; split <;> rfl

example (rnd : ℚ → ℚ) := (C150_control rnd (oneShot rnd 48000) 44100).2.2.2.1 (by norm_num)

end OscsFloat
