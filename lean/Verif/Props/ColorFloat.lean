import Verif.Model.ColorFloat
import Verif.Props.OscsFloat
import Verif.Props.Color
/-! # Properties C151, C152: colours and LED animations in binary32 -/

namespace ColorFloat
open Color Color.Spec Flt

theorem nat_lt_of (a b : Nat) (h : (a : ℚ) < (b : ℚ) + 1) : a ≤ b := by
  have : ((a : ℕ) : ℚ) < ((b + 1 : ℕ) : ℚ) := by push_cast; exact h
  have : a < b + 1 := by exact_mod_cast this
  omega

/-- One channel. -/
theorem chan (rnd : ℚ → ℚ) (h : Nearest rnd) (x y : Nat) (hx : x < 256) (hy : y < 256) (t : ℚ) (h0 : 0 ≤ t) (h1 : t ≤ 1) (htF : F32 t) :
    ∃ n : Nat, chanF rnd x y t = .ok n ∧ n < 256 ∧ min x y ≤ n + 1 ∧ n ≤ max x y ∧ (n : ℚ) ≤ x * (1 - t) + y * t + 1 / 2 ^ 15 ∧ x * (1 - t) + y * t < n + 1 + 1 / 2 ^ 15 ∧ (t = 0 → n = x) ∧ (t = 1 → n = y) := by
  have hx' : (x : ℚ) ≤ 255 := by exact_mod_cast (show x ≤ 255 by omega)
  have hy' : (y : ℚ) ≤ 255 := by exact_mod_cast (show y ≤ 255 by omega)
  have hx0 : (0 : ℚ) ≤ x := Nat.cast_nonneg x
  have hy0 : (0 : ℚ) ≤ y := Nat.cast_nonneg y
  have q0 : 0 ≤ rnd (1 - t) := h.ge f32_zero (by linarith)
  have q1 : rnd (1 - t) ≤ 1 := h.le f32_one (by linarith)
  have q2 := h.grid (1 - t) (-24) (by norm_num) (by rw [abs_of_nonneg (by linarith)]; norm_num; linarith)
  unfold chanF
  have hsp : t = 0 ∨ t = 1 → rnd (rnd (x * rnd (1 - t)) + rnd (y * t)) = x * (1 - t) + y * t := by
    have fn : ∀ k : Nat, k < 256 → rnd k = k := fun k hk => h.fix (by
      have := f32_int k (by rw [abs_of_nonneg (by positivity)]; omega)
      exact_mod_cast this)
    rintro (rfl | rfl)
    · rw [sub_zero, h.fix f32_one, mul_one, mul_zero, h.zero, add_zero, fn x hx, fn x hx, add_zero]
    · rw [sub_self, h.zero, mul_zero, h.zero, mul_one, zero_add, fn y hy, fn y hy, zero_add]
  obtain ⟨q, hq⟩ : ∃ q, rnd (1 - t) = q := ⟨_, rfl⟩
  rw [hq] at q0 q1 q2 hsp ⊢
  have hxq : (x : ℚ) * q ≤ 255 := by nlinarith
  have hyt : (y : ℚ) * t ≤ 255 := by nlinarith
  have hxq0 : 0 ≤ (x : ℚ) * q := by positivity
  have hyt0 : 0 ≤ (y : ℚ) * t := by positivity
  have A0 : 0 ≤ rnd (x * q) := h.ge f32_zero hxq0
  have B0 : 0 ≤ rnd (y * t) := h.ge f32_zero hyt0
  have A2 := h.grid (x * q) (-16) (by norm_num) (by rw [abs_of_nonneg hxq0]; norm_num; linarith)
  have B2 := h.grid (y * t) (-16) (by norm_num) (by rw [abs_of_nonneg hyt0]; norm_num; linarith)
  obtain ⟨A, hA⟩ : ∃ A, rnd (x * q) = A := ⟨_, rfl⟩
  obtain ⟨B, hB⟩ : ∃ B, rnd (y * t) = B := ⟨_, rfl⟩
  rw [hA] at A0 A2 hsp ⊢
  rw [hB] at B0 B2 hsp ⊢
  have n1 : (2 : ℚ) ^ (-24 : ℤ) / 2 = 1 / 2 ^ 25 := by norm_num
  have n2 : (2 : ℚ) ^ (-16 : ℤ) / 2 = 1 / 2 ^ 17 := by norm_num
  rw [n1] at q2
  rw [n2] at A2 B2
  obtain ⟨v, hv⟩ : ∃ v, (x : ℚ) * (1 - t) + y * t = v := ⟨_, rfl⟩
  have hxq2 : |(x : ℚ) * q - x * (1 - t)| ≤ 1 / 2 ^ 17 := by
    rw [← mul_sub, abs_mul, abs_of_nonneg hx0]
    calc (x : ℚ) * |q - (1 - t)| ≤ 255 * (1 / 2 ^ 25) := mul_le_mul hx' q2 (abs_nonneg _) (by norm_num)
      _ ≤ _ := by norm_num
  have hmin : (min x y : ℚ) ≤ v := by
    rw [← hv]
    rcases min_choice (x : ℚ) y with e | e <;> rw [e]
    · have : (x : ℚ) ≤ y := min_eq_left_iff.mp e
      nlinarith
    · have : (y : ℚ) ≤ x := min_eq_right_iff.mp e
      nlinarith
  have hmax : v ≤ (max x y : ℚ) := by
    rw [← hv]
    rcases max_choice (x : ℚ) y with e | e <;> rw [e]
    · have : (y : ℚ) ≤ x := max_eq_left_iff.mp e
      nlinarith
    · have : (x : ℚ) ≤ y := max_eq_right_iff.mp e
      nlinarith
  have hmax2 : (max x y : ℚ) ≤ 255 := max_le hx' hy'
  rw [hv] at hsp ⊢
  have hAB : |A + B - v| ≤ 3 / 2 ^ 17 := by
    rw [abs_le] at A2 B2 hxq2 ⊢
    rw [← hv]
    constructor <;> norm_num at A2 B2 hxq2 ⊢ <;> linarith [A2.1, A2.2, B2.1, B2.2, hxq2.1, hxq2.2]
  have S2 := h.grid (A + B) (-16) (by norm_num) (by
    rw [abs_of_nonneg (by linarith)]
    have := (abs_le.mp hAB).2
    norm_num at this ⊢
    linarith)
  rw [n2] at S2
  have S0 : 0 ≤ rnd (A + B) := h.ge f32_zero (by linarith)
  obtain ⟨S, hS⟩ : ∃ S, rnd (A + B) = S := ⟨_, rfl⟩
  rw [hS] at S0 S2 hsp ⊢
  have hSv : |S - v| ≤ 1 / 2 ^ 15 := by
    rw [abs_le] at S2 hAB ⊢
    constructor <;> norm_num at S2 hAB ⊢ <;> linarith [S2.1, S2.2, hAB.1, hAB.2]
  obtain ⟨s1, s2⟩ := abs_le.mp hSv
  obtain ⟨n, hn, hn1, hn2⟩ := OscsFloat.trunc_ok 256 S S0 (by norm_num at s2 ⊢; linarith)
  have hmin' : ((min x y : ℕ) : ℚ) = (min x y : ℚ) := by push_cast; rfl
  have hmax' : ((max x y : ℕ) : ℚ) = (max x y : ℚ) := by push_cast; rfl
  refine ⟨n, hn, ?_, ?_, ?_, by linarith, by linarith, ?_, ?_⟩
  · have := nat_lt_of n (max x y) (by rw [hmax']; norm_num at s2 ⊢; linarith)
    omega
  · apply nat_lt_of
    rw [hmin', Nat.cast_add, Nat.cast_one]
    have : (1 : ℚ) / 2 ^ 15 ≤ 1 := by norm_num
    linarith
  · apply nat_lt_of
    rw [hmax']; norm_num at s2 ⊢; linarith
  · intro ht
    rw [hsp (Or.inl ht), ← hv, ht] at hn1 hn2
    apply le_antisymm
    · exact nat_lt_of _ _ (by linarith)
    · exact nat_lt_of _ _ (by linarith)
  · intro ht
    rw [hsp (Or.inr ht), ← hv, ht] at hn1 hn2
    apply le_antisymm
    · exact nat_lt_of _ _ (by linarith)
    · exact nat_lt_of _ _ (by linarith)

/-- **C151** (partial): blend(that, float phase) with a float phase in [0, 1] is defined, gives the first colour at 0 and the second at 1 exactly, never exceeds the larger channel, is at most one below the smaller,
and is within 1 + 2^-15 below and 2^-15 above the exact weighted mean. Missing: between the two colours (see the violation). -/
theorem C151_blend_partial (rnd : ℚ → ℚ) (h : Nearest rnd) (a b : Color) (ha : Valid a) (hb : Valid b) (t : ℚ) (htF : F32 t) (h0 : 0 ≤ t) (h1 : t ≤ 1) :
    ∃ c, blendF rnd a b t = .ok c ∧ Valid c ∧ (t = 0 → c = a) ∧ (t = 1 → c = b) ∧
      (∀ x y z, (x, y, z) = (a.r, b.r, c.r) ∨ (x, y, z) = (a.g, b.g, c.g) ∨ (x, y, z) = (a.b, b.b, c.b) →
        min x y ≤ z + 1 ∧ z ≤ max x y ∧ (z : ℚ) ≤ x * (1 - t) + y * t + 1 / 2 ^ 15 ∧ x * (1 - t) + y * t < z + 1 + 1 / 2 ^ 15) := by
  obtain ⟨a1, a2, a3⟩ := ha
  obtain ⟨b1, b2, b3⟩ := hb
  obtain ⟨r, r1, r2, r3, r4, r5, r6, r7, r8⟩ := chan rnd h a.r b.r a1 b1 t h0 h1 htF
  obtain ⟨g, g1, g2, g3, g4, g5, g6, g7, g8⟩ := chan rnd h a.g b.g a2 b2 t h0 h1 htF
  obtain ⟨l, l1, l2, l3, l4, l5, l6, l7, l8⟩ := chan rnd h a.b b.b a3 b3 t h0 h1 htF
  refine ⟨⟨r, g, l⟩, ?_, ⟨r2, g2, l2⟩, ?_, ?_, ?_⟩
  · rw [blendF, r1, R.bind_ok, g1, R.bind_ok, l1, R.bind_ok, mk8_eq _ _ _ r2 g2 l2]
  · intro ht; rw [r7 ht, g7 ht, l7 ht]
  · intro ht; rw [r8 ht, g8 ht, l8 ht]
  · rintro x y z (e | e | e) <;> (injection e with e1 e2; injection e2 with e2 e3; subst e1 e2 e3)
    · exact ⟨r3, r4, r5, r6⟩
    · exact ⟨g3, g4, g5, g6⟩
    · exact ⟨l3, l4, l5, l6⟩

/-- 0.105f is a float in [0, 1]. -/
example : F32 (14092861 / 134217728) ∧ (0 : ℚ) ≤ 14092861 / 134217728 ∧ (14092861 / 134217728 : ℚ) ≤ 1 := ⟨⟨14092861, -27, by norm_num, by norm_num, by norm_num⟩, by norm_num, by norm_num⟩

/-- **C151 violated**: blending white with white at phase 0.105f gives (254, 254, 254). -/
theorem C151_white_violated (rnd : ℚ → ℚ) (h : Nearest rnd) : blendF rnd ⟨255, 255, 255⟩ ⟨255, 255, 255⟩ (14092861 / 134217728) = .ok ⟨254, 254, 254⟩ := by
  have e1 : rnd (1 - 14092861 / 134217728) = 1876951 / 2097152 := by
    rw [h.eq_of_close _ 15015608 (-24) (by norm_num) (by norm_num) (by norm_num [abs_of_nonneg]) (by norm_num [abs_of_nonneg, abs_of_neg])]; norm_num
  have e2 : rnd (255 * (1876951 / 2097152)) = 14956953 / 65536 := by
    rw [h.eq_of_close _ 14956953 (-16) (by norm_num) (by norm_num) (by norm_num [abs_of_nonneg]) (by norm_num [abs_of_nonneg, abs_of_neg])]; norm_num
  have e3 : rnd (255 * (14092861 / 134217728)) = 14037811 / 524288 := by
    rw [h.eq_of_close _ 14037811 (-19) (by norm_num) (by norm_num) (by norm_num [abs_of_nonneg]) (by norm_num [abs_of_nonneg, abs_of_neg])]; norm_num
  have e4 : rnd (14956953 / 65536 + 14037811 / 524288) = 16711679 / 65536 := by
    rw [h.eq_of_close _ 16711679 (-16) (by norm_num) (by norm_num) (by norm_num [abs_of_nonneg]) (by norm_num [abs_of_nonneg, abs_of_neg])]; norm_num
  have c : chanF rnd 255 255 (14092861 / 134217728) = .ok 254 := by
    unfold chanF
    push_cast
    rw [e1, e2, e3, e4]
    unfold trunc
    rw [if_pos (by norm_num)]
    congr 1
    have : ⌊(16711679 / 65536 : ℚ)⌋ = 254 := by rw [Int.floor_eq_iff]; norm_num
    rw [this]; rfl
  unfold blendF
  simp only [c, R.bind_ok]
  rfl

theorem scaleChan (rnd : ℚ → ℚ) (h : Nearest rnd) (x : Nat) (hx : x < 256) (t : ℚ) (h0 : 0 ≤ t) (h1 : t ≤ 1) :
    ∃ n : Nat, trunc 256 (rnd (x * t)) = .ok n ∧ n ≤ x ∧ (n : ℚ) ≤ x * t + 1 / 2 ^ 17 ∧ x * t < n + 1 + 1 / 2 ^ 17 ∧ chanF rnd 0 x t = .ok n ∧ (t = 1 → n = x) := by
  have hx' : (x : ℚ) ≤ 255 := by exact_mod_cast (show x ≤ 255 by omega)
  have hx0 : (0 : ℚ) ≤ x := Nat.cast_nonneg x
  have hF : F32 (x : ℚ) := by
    have := f32_int x (by rw [abs_of_nonneg (by positivity)]; omega)
    exact_mod_cast this
  have hxt : (x : ℚ) * t ≤ x := by nlinarith
  have hxt0 : 0 ≤ (x : ℚ) * t := by positivity
  have B2 := h.grid (x * t) (-16) (by norm_num) (by rw [abs_of_nonneg hxt0]; norm_num; linarith)
  have n2 : (2 : ℚ) ^ (-16 : ℤ) / 2 = 1 / 2 ^ 17 := by norm_num
  rw [n2] at B2
  obtain ⟨b1, b2⟩ := abs_le.mp B2
  have y0 : 0 ≤ rnd (x * t) := h.ge f32_zero hxt0
  have y1 : rnd (x * t) ≤ x := h.le hF hxt
  obtain ⟨n, hn, hn1, hn2⟩ := OscsFloat.trunc_ok 256 _ y0 (by norm_num; linarith)
  refine ⟨n, hn, nat_lt_of _ _ (by linarith), by linarith, by linarith, ?_, ?_⟩
  · unfold chanF
    rw [Nat.cast_zero, zero_mul, h.zero, zero_add, h.fix (h.f32 _)]
    exact hn
  · intro ht
    rw [ht, mul_one, h.fix hF] at hn2
    exact le_antisymm (nat_lt_of _ _ (by linarith)) (nat_lt_of _ _ (by linarith))

/-- **C151**: colour * phase, and the LED's set_color(colour, brightness), with a float in [0, 1], are defined, agree, never brighten a channel, leave it at 1, and are the scaled channel rounded down, up to 2^-17. -/
theorem C151_scale (rnd : ℚ → ℚ) (h : Nearest rnd) (a : Color) (ha : Valid a) (t : ℚ) (h0 : 0 ≤ t) (h1 : t ≤ 1) :
    ∃ c, scale rnd a t = .ok c ∧ setColorF rnd a t = .ok c ∧ c.r ≤ a.r ∧ c.g ≤ a.g ∧ c.b ≤ a.b ∧ (t = 1 → c = a) ∧
      (∀ x z, (x, z) = (a.r, c.r) ∨ (x, z) = (a.g, c.g) ∨ (x, z) = (a.b, c.b) → (z : ℚ) ≤ x * t + 1 / 2 ^ 17 ∧ x * t < z + 1 + 1 / 2 ^ 17) := by
  obtain ⟨a1, a2, a3⟩ := ha
  obtain ⟨r, r1, r2, r3, r4, r5, r6⟩ := scaleChan rnd h a.r a1 t h0 h1
  obtain ⟨g, g1, g2, g3, g4, g5, g6⟩ := scaleChan rnd h a.g a2 t h0 h1
  obtain ⟨l, l1, l2, l3, l4, l5, l6⟩ := scaleChan rnd h a.b a3 t h0 h1
  refine ⟨⟨r, g, l⟩, ?_, ?_, r2, g2, l2, ?_, ?_⟩
  · rw [scale, blendF, r5, R.bind_ok, g5, R.bind_ok, l5, R.bind_ok, mk8_eq _ _ _ (by omega) (by omega) (by omega)]
  · rw [setColorF, r1, R.bind_ok, g1, R.bind_ok, l1, R.bind_ok, mk8_eq _ _ _ (by omega) (by omega) (by omega)]
  · intro ht; rw [r6 ht, g6 ht, l6 ht]
  · rintro x z (e | e | e) <;> (injection e with e1 e2; subst e1 e2)
    · exact ⟨r3, r4⟩
    · exact ⟨g3, g4⟩
    · exact ⟨l3, l4⟩

example (rnd : ℚ → ℚ) (h : Nearest rnd) := C151_scale rnd h ⟨200, 0, 255⟩ (by unfold Valid; decide) (1 / 3) (by norm_num) (by norm_num)

/-- **C151**: the packed blends with a float alpha in [0, 1] are the 8-bit blends with an alpha that is 0 for 0, 255 for 1, never decreases as alpha grows, and is 255 alpha rounded down up to 2^-17. -/
theorem C151_packed (rnd : ℚ → ℚ) (h : Nearest rnd) (c1 c2 : Nat) (alpha beta : ℚ) (h0 : 0 ≤ alpha) (hab : alpha ≤ beta) (h1 : beta ≤ 1) :
    ∃ m n : Nat, blendPackedF rnd c1 c2 alpha = .ok (blendPacked c1 c2 m) ∧ slowBlend rnd c1 c2 alpha = .ok (rgb565 (blend8 (of565 c1) (of565 c2) m)) ∧
      blendPackedF rnd c1 c2 beta = .ok (blendPacked c1 c2 n) ∧ m ≤ n ∧ n ≤ 255 ∧ (alpha = 0 → m = 0) ∧ (beta = 1 → n = 255) ∧ (m : ℚ) ≤ 255 * alpha + 1 / 2 ^ 17 ∧ 255 * alpha < m + 1 + 1 / 2 ^ 17 := by
  obtain ⟨m, m1, m2, m3, m4, _, _⟩ := scaleChan rnd h 255 (by norm_num) alpha h0 (by linarith)
  obtain ⟨n, n1, n2, n3, n4, _, n6⟩ := scaleChan rnd h 255 (by norm_num) beta (by linarith) h1
  have c : ((255 : ℕ) : ℚ) = 255 := by norm_num
  rw [c, mul_comm] at m1 n1
  rw [c] at m3 m4
  have hm : ∀ x k, 0 ≤ x → trunc 256 (rnd (x * 255)) = .ok k → k = ⌊rnd (x * 255)⌋.toNat := by
    intro x k _ hk
    unfold trunc at hk
    split at hk
    · injection hk with hk; exact hk.symm
    · exact absurd hk (by simp)
  refine ⟨m, n, by rw [blendPackedF, m1, R.bind_ok], by rw [slowBlend, m1, R.bind_ok], by rw [blendPackedF, n1, R.bind_ok], ?_, n2, ?_, n6, m3, m4⟩
  · rw [hm _ _ h0 m1, hm _ _ (by linarith) n1]
    apply Int.toNat_le_toNat
    apply Int.floor_le_floor
    apply h.mono
    nlinarith
  · intro h'
    rw [hm _ _ h0 m1, h', zero_mul, h.zero]; rfl

example (rnd : ℚ → ℚ) (h : Nearest rnd) := C151_packed rnd h 0xFFFF 0x1234 (1 / 3) (2 / 3) (by norm_num) (by norm_num) (by norm_num)

/-- **C151**: making an RGB565 from floats loses nothing to rounding: it is what exact arithmetic gives (C91). -/
theorem C151_rgb565 (rnd : ℚ → ℚ) (h : Nearest rnd) (r g b : ℚ) (hr : F32 r) (hg : F32 g) (hb : F32 b) : ofF rnd r g b = RGB565.ofF r g b := by
  have e : ∀ x, F32 x → ∀ k : Nat, rnd (x * 2 ^ k) = x * 2 ^ k := fun x hx k => h.fix (f32_scale hx k)
  have e5r := e r hr 5
  have e5b := e b hb 5
  have e6 := e g hg 6
  norm_num at e5r e5b e6
  unfold ofF RGB565.ofF
  rw [e5r, e5b, e6]

end ColorFloat

namespace OscsFloat
open Oscs Flt RgbLed

/-- **C152**: in binary32 a flash (or fade) of `ms` milliseconds is the flash of 1000 / f milliseconds, f being 1000 / ms rounded down, unless 1000 / ms is within 2^-23 (relative) of a larger integer;
how that flash is shown is C127. -/
theorem C152_flash_partial (rnd : ℚ → ℚ) (h : Nearest rnd) (rate : Nat) (l : RgbLed) (c : Color) (ms : ℚ) (hms : 0 < ms) (f : Nat) (hf : 0 < f) (hf2 : f < 2 ^ 24) (h1 : (f : ℚ) ≤ 1000 / ms)
    (h2 : 1000 / ms < (f + 1) * (1 - 1 / 2 ^ 23)) :
    flashOnceMs rnd rate l c ms = l.flashOnceMs rate c (1000 / f) ∧ fadeOnceMs rnd rate l c ms = l.fadeOnceMs rate c (1000 / f) := by
  have f0 : (1 : ℚ) ≤ f := by exact_mod_cast hf
  have fu : (f : ℚ) + 1 ≤ 2 ^ 24 := by exact_mod_cast hf2
  have hF : F32 (f : ℚ) := by
    have := f32_int f (by rw [abs_of_nonneg (by positivity)]; exact_mod_cast hf2)
    exact_mod_cast this
  have y1 : (f : ℚ) ≤ rnd (1000 / ms) := h.ge hF h1
  have hr := h.rel_normal (1000 / ms) (by rw [abs_of_nonneg (by linarith)]; norm_num; linarith)
  rw [abs_of_nonneg (show 0 ≤ 1000 / ms by linarith)] at hr
  obtain ⟨x, hx⟩ : ∃ x, 1000 / ms = x := ⟨_, rfl⟩
  rw [hx] at hr h1 h2 y1
  have y2 : rnd x < f + 1 := by
    have := (abs_le.mp hr).2
    have e : x + x / 2 ^ 24 < (f + 1) * (1 - 1 / 2 ^ 23) * (1 + 1 / 2 ^ 24) := by
      have : x * (1 + 1 / 2 ^ 24) < (f + 1) * (1 - 1 / 2 ^ 23) * (1 + 1 / 2 ^ 24) := mul_lt_mul_of_pos_right h2 (by norm_num)
      linarith
    have e2 : ((f : ℚ) + 1) * ((1 - 1 / 2 ^ 23) * (1 + 1 / 2 ^ 24)) ≤ (f + 1) * 1 := mul_le_mul_of_nonneg_left (by norm_num) (by linarith)
    linarith
  have ht : ∀ z : ℚ, (f : ℚ) ≤ z → z < f + 1 → Color.trunc W z = .ok f := by
    intro z hz1 hz2
    unfold Color.trunc
    rw [if_pos ⟨by linarith, by rw [W_val]; norm_num at fu ⊢; linarith⟩]
    congr 1
    have : ⌊z⌋ = (f : ℤ) := by rw [Int.floor_eq_iff]; exact ⟨by exact_mod_cast hz1, by exact_mod_cast hz2⟩
    rw [this]; rfl
  have q : 1000 / (1000 / (f : ℚ)) = f := by field_simp
  have e : flashOnceMs rnd rate l c ms = l.flashOnceMs rate c (1000 / f) := by
    unfold flashOnceMs RgbLed.flashOnceMs
    rw [if_neg hms.ne', if_neg (by positivity), hx, ht _ y1 y2, q, ht _ (le_refl _) (by linarith)]
  exact ⟨e, by unfold fadeOnceMs RgbLed.fadeOnceMs; rw [e]⟩

/-- 80 ms: f = 12. -/
example : ((12 : ℕ) : ℚ) ≤ 1000 / 80 ∧ (1000 : ℚ) / 80 < ((12 : ℕ) + 1) * (1 - 1 / 2 ^ 23) := by norm_num

/-- **C152 violated**: a flash of 1000/13 ms, passed as the nearest float (76.92308f), is the flash of 1000/12 = 83.33 ms. -/
theorem C152_truncated_violated (rnd : ℚ → ℚ) (h : Nearest rnd) (rate : Nat) (l : RgbLed) (c : Color) : rnd (1000 / 13) = 10082462 / 131072 ∧
    flashOnceMs rnd rate l c (rnd (1000 / 13)) = l.flashOnceMs rate c (1000 / 12) := by
  have e1 : rnd (1000 / 13) = 10082462 / 131072 := by
    rw [h.eq_of_close _ 10082462 (-17) (by norm_num) (by norm_num) (by norm_num [abs_of_nonneg]) (by norm_num [abs_of_nonneg, abs_of_neg])]; norm_num
  refine ⟨e1, ?_⟩
  have e2 : rnd (1000 / (10082462 / 131072)) = 13631487 / 1048576 := by
    rw [h.eq_of_close _ 13631487 (-20) (by norm_num) (by norm_num) (by norm_num [abs_of_nonneg]) (by norm_num [abs_of_nonneg, abs_of_neg])]; norm_num
  have ht : ∀ z : ℚ, 12 ≤ z → z < 13 → Color.trunc W z = .ok 12 := by
    intro z hz1 hz2
    unfold Color.trunc
    rw [if_pos ⟨by linarith, by rw [W_val]; norm_num; linarith⟩]
    congr 1
    have : ⌊z⌋ = 12 := by rw [Int.floor_eq_iff]; norm_num; exact ⟨hz1, by linarith⟩
    rw [this]; rfl
  unfold flashOnceMs RgbLed.flashOnceMs
  rw [e1, if_neg (by norm_num), if_neg (by norm_num), e2, ht _ (by norm_num) (by norm_num), ht (1000 / (1000 / 12)) (by norm_num) (by norm_num)]

/-- **C152**: in binary32 a flash of more than one second, from the second float above 1000 ms on, is never shown: f is 0 and the next update shows the resting colour (C127). -/
theorem C152_long_flash_violated (rnd : ℚ → ℚ) (h : Nearest rnd) (rate : Nat) (l : RgbLed) (c : Color) (ms : ℚ) (hms : 1000 * (1 + 1 / 2 ^ 22) ≤ ms) :
    ∃ l', flashOnceMs rnd rate l c ms = .ok l' ∧ ∀ n, (updateAnimation ((fun l => (updateAnimation l).1)^[n] l')).2 = rest l (n + 1) := by
  have hp : 0 < ms := by norm_num at hms; linarith
  obtain ⟨l', h1, h2⟩ := C127_long_flash_violated rate l c ms (by norm_num at hms; linarith)
  refine ⟨l', ?_, h2⟩
  rw [← h1]
  have x0 : 0 ≤ 1000 / ms := by positivity
  have x1 : 1000 / ms ≤ 1 - 1 / 2 ^ 24 := by
    rw [div_le_iff₀ hp]; norm_num at hms ⊢; linarith
  have y0 : 0 ≤ rnd (1000 / ms) := h.ge f32_zero x0
  have y1 : rnd (1000 / ms) ≤ 1 - 1 / 2 ^ 24 := h.le ⟨16777215, -24, by norm_num, by norm_num, by norm_num⟩ x1
  have ht : ∀ z : ℚ, 0 ≤ z → z ≤ 1 - 1 / 2 ^ 24 → Color.trunc W z = .ok 0 := by
    intro z hz1 hz2
    unfold Color.trunc
    norm_num at hz2
    rw [if_pos ⟨by linarith, by rw [W_val]; norm_num; linarith⟩]
    congr 1
    have : ⌊z⌋ = 0 := by rw [Int.floor_eq_iff]; norm_num; exact ⟨hz1, by linarith⟩
    rw [this]; rfl
  unfold flashOnceMs RgbLed.flashOnceMs
  rw [if_neg hp.ne', if_neg hp.ne', ht _ y0 y1, ht _ x0 x1]

example : (1000 : ℚ) * (1 + 1 / 2 ^ 22) ≤ 1500 := by norm_num

/-- **C152**: breathe sets colour and fader frequency, which is accurate (C149) for every float frequency from 0 up to just below the update rate, and changes nothing else. -/
theorem C152_breathe (rnd : ℚ → ℚ) (h : Nearest rnd) (rate : Nat) (hr : 0 < rate) (l : RgbLed) (c : Color) (f : ℚ) (h0 : 0 ≤ f) (h1 : f ≤ rate * (1 - 1 / 2 ^ 21)) :
    ∃ inc : Nat, breathe rnd rate l c f = .ok { l with breatheCol := c, fader := ⟨l.fader.phase, inc⟩ } ∧ (inc : ℚ) * rate ≤ f * 2 ^ 32 * (1 + 1 / 2 ^ 22) ∧ f * 2 ^ 32 * (1 - 1 / 2 ^ 22) ≤ inc * rate + rate + f * rate := by
  obtain ⟨t', e, e2, e3, e4⟩ := C149_frequency rnd h rate hr l.fader f h0 h1
  refine ⟨t'.inc, ?_, e3, e4⟩
  unfold breathe
  rw [e, R.bind_ok, ← e2]

example (rnd : ℚ → ℚ) (h : Nearest rnd) (l : RgbLed) := C152_breathe rnd h 1000 (by norm_num) l ⟨200, 0, 255⟩ (3 / 2) (by norm_num) (by norm_num)

end OscsFloat
