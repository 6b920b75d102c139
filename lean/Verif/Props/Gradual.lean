import Verif.Spec.Gradual
import Verif.Props.Color
/-! # C223: colours from hue, saturation and value change gradually -/

namespace HSV
open Color

/-- A channel `a` below the largest one. -/
def ramp (v a : Nat) : Nat := v * (255 - a) / 256

theorem ramp_le (v a : Nat) (hv : v < 256) : ramp v a ≤ v := by
  unfold ramp
  have : v * (255 - a) ≤ v * 255 := Nat.mul_le_mul_left _ (by omega)
  omega

theorem ramp_near (v a b k : Nat) (hv : v < 256) (h1 : b ≤ a + k) (h2 : b ≤ 255) : ramp v a ≤ ramp v b + k := by
  unfold ramp
  have h3 : v * (255 - a) ≤ v * (255 - b) + v * k := by rw [← Nat.mul_add]; exact Nat.mul_le_mul_left _ (by omega)
  have h4 : v * k ≤ 255 * k := Nat.mul_le_mul_right _ (by omega)
  omega

theorem ramp_top (v a k : Nat) (hv : v < 256) (h : a < k) (ha : a ≤ 255) : v ≤ ramp v a + k := by
  unfold ramp
  obtain ⟨c, hc⟩ : ∃ c, 255 - a = c := ⟨_, rfl⟩
  rw [hc]
  have h3 : v * 255 = v * a + v * c := by rw [← Nat.mul_add]; congr 1; omega
  have h4 : v * a ≤ 255 * a := Nat.mul_le_mul_right _ (by omega)
  omega

theorem ramp_mono (v a b : Nat) (h : a ≤ b) : ramp v b ≤ ramp v a := by
  unfold ramp
  exact Nat.div_le_div_right (Nat.mul_le_mul_left _ (by omega))

theorem ramp_val (v a : Nat) : ramp v a ≤ ramp (v + 1) a ∧ ramp (v + 1) a ≤ ramp v a + 1 := by
  unfold ramp
  rw [Nat.succ_mul]
  omega

/-- The conversion for a saturation other than 0. -/
theorem toColor_ramp (h s v : Nat) (hh : h < 256) (hs : s < 256) (hv : v < 256) (h0 : s ≠ 0) (k r : Nat) (hk : k = h / 43) (hr : r = (h - k * 43) * 6) :
    toColor h s v =
      if k = 0 then ⟨v, ramp v (s * (255 - r) / 256), ramp v s⟩
      else if k = 1 then ⟨ramp v (s * r / 256), v, ramp v s⟩
      else if k = 2 then ⟨ramp v s, v, ramp v (s * (255 - r) / 256)⟩
      else if k = 3 then ⟨ramp v s, ramp v (s * r / 256), v⟩
      else if k = 4 then ⟨ramp v (s * (255 - r) / 256), ramp v s, v⟩
      else ⟨v, ramp v s, ramp v (s * r / 256)⟩ := by
  have lt : ∀ a, ramp v a < 256 := fun a => by have := ramp_le v a hv; omega
  have e : ∀ a, (v * (255 - a)) >>> 8 % 256 = ramp v a := fun a => by
    rw [Nat.shiftRight_eq_div_pow]; exact Nat.mod_eq_of_lt (lt a)
  rw [toColor, if_neg h0]
  simp only [e, ← hk, ← hr]
  simp only [Nat.shiftRight_eq_div_pow, show 2 ^ 8 = 256 from rfl]
  simp only [mk8_eq _ _ _ hv (lt _) (lt _), mk8_eq _ _ _ (lt _) hv (lt _), mk8_eq _ _ _ (lt _) (lt _) hv]

/-- **C223**: the next hue changes no channel by more than 6. -/
theorem C223_hue (h s v : Nat) (hh : h + 1 < 256) (hs : s < 256) (hv : v < 256) : Near 6 (toColor h s v) (toColor (h + 1) s v) := by
  by_cases h0 : s = 0
  · subst h0; simp [toColor, Near]
  obtain ⟨k, hk⟩ : ∃ k, k = h / 43 := ⟨_, rfl⟩
  obtain ⟨r, hr⟩ : ∃ r, r = (h - k * 43) * 6 := ⟨_, rfl⟩
  obtain ⟨k', hk'⟩ : ∃ k', k' = (h + 1) / 43 := ⟨_, rfl⟩
  obtain ⟨r', hr'⟩ : ∃ r', r' = (h + 1 - k' * 43) * 6 := ⟨_, rfl⟩
  rw [toColor_ramp h s v (by omega) hs hv h0 k r hk hr, toColor_ramp (h + 1) s v hh hs hv h0 k' r' hk' hr']
  by_cases hb : k' = k
  · rw [hb]
    have er : r' = r + 6 := by omega
    have r255 : r + 6 ≤ 255 := by omega
    have b1 : s * r ≤ s * 255 := Nat.mul_le_mul_left _ (by omega)
    have b2 : s * (255 - r) ≤ s * 255 := Nat.mul_le_mul_left _ (by omega)
    have e1 : s * (r + 6) = s * r + s * 6 := Nat.mul_add _ _ _
    have e2 : s * (255 - r) = s * (255 - (r + 6)) + s * 6 := by rw [← Nat.mul_add]; congr 1; omega
    have b3 : s * (r + 6) ≤ s * 255 := Nat.mul_le_mul_left _ r255
    have q1 := ramp_near v (s * r / 256) (s * (r + 6) / 256) 6 hv (by omega) (by omega)
    have q2 := ramp_mono v (s * r / 256) (s * (r + 6) / 256) (by omega)
    have t1 := ramp_near v (s * (255 - (r + 6)) / 256) (s * (255 - r) / 256) 6 hv (by omega) (by omega)
    have t2 := ramp_mono v (s * (255 - (r + 6)) / 256) (s * (255 - r) / 256) (by omega)
    rw [er]
    unfold Near
    repeat' split
    all_goals (simp only; omega)
  · have hk1 : k' = k + 1 := by omega
    have hr0 : r = 252 := by omega
    have hr0' : r' = 0 := by omega
    have hk5 : k = 0 ∨ k = 1 ∨ k = 2 ∨ k = 3 ∨ k = 4 := by omega
    have a1 := ramp_le v (s * 0 / 256) hv
    have a2 := ramp_top v (s * 0 / 256) 1 hv (by omega) (by omega)
    have a3 := ramp_le v (s * (255 - 252) / 256) hv
    have a4 := ramp_top v (s * (255 - 252) / 256) 3 hv (by omega) (by omega)
    have a5 := ramp_near v (s * 252 / 256) s 4 hv (by omega) (by omega)
    have a6 := ramp_mono v (s * 252 / 256) s (by omega)
    have a7 := ramp_near v (s * (255 - 0) / 256) s 1 hv (by omega) (by omega)
    have a8 := ramp_mono v (s * (255 - 0) / 256) s (by omega)
    rw [hk1, hr0, hr0']
    unfold Near
    rcases hk5 with rfl | rfl | rfl | rfl | rfl <;> simp only [Nat.zero_add, Nat.reduceAdd, Nat.reduceEqDiff, if_true, if_false] <;> omega

/-- **C223**: going round from the last hue to the first changes no channel by more than 16, and 16 happens. -/
theorem C223_round (s v : Nat) (hs : s < 256) (hv : v < 256) : Near 16 (toColor 255 s v) (toColor 0 s v) := by
  by_cases h0 : s = 0
  · subst h0; simp [toColor, Near]
  rw [toColor_ramp 255 s v (by omega) hs hv h0 5 240 rfl rfl, toColor_ramp 0 s v (by omega) hs hv h0 0 0 rfl rfl]
  have a5 := ramp_near v (s * 240 / 256) s 16 hv (by omega) (by omega)
  have a6 := ramp_mono v (s * 240 / 256) s (by omega)
  have a7 := ramp_near v (s * (255 - 0) / 256) s 1 hv (by omega) (by omega)
  have a8 := ramp_mono v (s * (255 - 0) / 256) s (by omega)
  unfold Near
  simp only [if_true, Nat.reduceEqDiff, if_false]
  omega

/-- **C223**: the next value makes no channel darker and none brighter by more than 1; the next saturation makes none brighter, and from 1 on none
darker by more than 1 (from 0 to 1: by more than 2). -/
theorem C223_value_saturation (h s v : Nat) (hh : h < 256) (hs : s < 256) (hv : v < 256) :
    (v + 1 < 256 → Darker (toColor h s v) (toColor h s (v + 1)) ∧ Near 1 (toColor h s v) (toColor h s (v + 1))) ∧
    (s + 1 < 256 → Darker (toColor h (s + 1) v) (toColor h s v) ∧ Near (if s = 0 then 2 else 1) (toColor h s v) (toColor h (s + 1) v)) := by
  obtain ⟨k, hk⟩ : ∃ k, k = h / 43 := ⟨_, rfl⟩
  obtain ⟨r, hr⟩ : ∃ r, r = (h - k * 43) * 6 := ⟨_, rfl⟩
  have r255 : r ≤ 255 := by omega
  constructor
  · intro hv1
    by_cases h0 : s = 0
    · subst h0
      simp only [toColor, if_true, mk8_eq v v v hv hv hv, mk8_eq (v + 1) (v + 1) (v + 1) hv1 hv1 hv1, Near, Darker]
      omega
    rw [toColor_ramp h s v hh hs hv h0 k r hk hr, toColor_ramp h s (v + 1) hh hs hv1 h0 k r hk hr]
    have p := ramp_val v s
    have q := ramp_val v (s * r / 256)
    have t := ramp_val v (s * (255 - r) / 256)
    unfold Near Darker
    repeat' split
    all_goals (simp only; omega)
  · intro hs1
    rw [toColor_ramp h (s + 1) v hh hs1 hv (by omega) k r hk hr]
    by_cases h0 : s = 0
    · subst h0
      have p1 := ramp_le v (0 + 1) hv
      have p2 := ramp_top v (0 + 1) 2 hv (by omega) (by omega)
      have q1 := ramp_le v ((0 + 1) * r / 256) hv
      have q2 := ramp_top v ((0 + 1) * r / 256) 1 hv (by omega) (by omega)
      have t1 := ramp_le v ((0 + 1) * (255 - r) / 256) hv
      have t2 := ramp_top v ((0 + 1) * (255 - r) / 256) 1 hv (by omega) (by omega)
      have e : toColor h 0 v = ⟨v, v, v⟩ := by rw [toColor, if_pos rfl, mk8_eq v v v hv hv hv]
      rw [e]
      unfold Near Darker
      repeat' split
      all_goals (simp only; omega)
    · rw [toColor_ramp h s v hh hs hv h0 k r hk hr, if_neg h0]
      have e1 : (s + 1) * r = s * r + r := Nat.succ_mul _ _
      have e2 : (s + 1) * (255 - r) = s * (255 - r) + (255 - r) := Nat.succ_mul _ _
      have b1 : (s + 1) * r ≤ 255 * 255 := Nat.mul_le_mul (by omega) (by omega)
      have b2 : (s + 1) * (255 - r) ≤ 255 * 255 := Nat.mul_le_mul (by omega) (by omega)
      have p1 := ramp_near v s (s + 1) 1 hv (by omega) (by omega)
      have p2 := ramp_mono v s (s + 1) (by omega)
      have q1 := ramp_near v (s * r / 256) ((s + 1) * r / 256) 1 hv (by omega) (by omega)
      have q2 := ramp_mono v (s * r / 256) ((s + 1) * r / 256) (by omega)
      have t1 := ramp_near v (s * (255 - r) / 256) ((s + 1) * (255 - r) / 256) 1 hv (by omega) (by omega)
      have t2 := ramp_mono v (s * (255 - r) / 256) ((s + 1) * (255 - r) / 256) (by omega)
      unfold Near Darker
      repeat' split
      all_goals (simp only; omega)

/-- The bounds are reached. -/
theorem C223_reached : ¬ Near 5 (toColor 1 255 255) (toColor 2 255 255) ∧ ¬ Near 15 (toColor 255 241 248) (toColor 0 241 248) ∧
    ¬ Near 1 (toColor 0 0 255) (toColor 0 1 255) := by decide +kernel

example := C223_hue 42 200 100 (by decide) (by decide) (by decide)

end HSV
