import Verif.Model.XAudio
import Verif.Props.AudioFrame
import Verif.Props.XMath
/-! # Properties C196, C197: audio samples, oscillators, colours and LEDs given any float, including infinities and NaN -/
namespace XAudio
open XFlt AudioFrame Oscs Flt

/-! ### Conversions -/

theorem toUnsigned_ofQ (rnd : ℚ → ℚ) (w : Nat) (hw : w ≤ 128) (q : ℚ) : toUnsigned w (ofQ rnd q) = Color.trunc (2 ^ w) (rnd q) := by
  have hp : (2 : ℚ) ^ w ≤ big := pow_le_pow_right₀ (by norm_num) hw
  have := big_pos
  unfold ofQ Color.trunc
  split
  · next h =>
    rw [if_neg (by push_cast; rintro ⟨_, h2⟩; linarith)]; rfl
  · split
    · next h1 h2 => rw [if_neg (by rintro ⟨h3, _⟩; norm_num [big] at h2; linarith)]; rfl
    · simp [toUnsigned]

theorem toSigned_ofQ (rnd : ℚ → ℚ) (w : Nat) (hw : w ≤ 128) (q : ℚ) : toSigned w (ofQ rnd q) = truncS w (rnd q) := by
  have hp : (2 : ℚ) ^ (w - 1) ≤ 2 ^ 127 := pow_le_pow_right₀ (by norm_num) (by omega)
  unfold ofQ truncS
  split
  · next h => rw [if_neg (by rintro ⟨_, h2⟩; norm_num [big] at h; linarith)]; rfl
  · split
    · next h1 h2 => rw [if_neg (by rintro ⟨h3, _⟩; norm_num [big] at h2; linarith)]; rfl
    · simp [toSigned, trunc]

theorem toUnsigned_special (w : Nat) (x : XF) (h : ¬ Fin x) : toUnsigned w x = .ub := by
  cases x with
  | nan => rfl
  | inf b => rfl
  | fin q => exact absurd trivial h

theorem constrain_fin (v lo hi : ℚ) : XMath.constrain (.fin v) (.fin lo) (.fin hi) = .fin (AudioFrame.constrain v lo hi) := by
  unfold XMath.constrain AudioFrame.constrain
  simp only [lt, decide_eq_true_eq, gt_iff_lt]
  split
  · rfl
  · split <;> rfl

theorem constrain_lo {v lo hi : XF} (h : lt v lo = true) : XMath.constrain v lo hi = lo := by
  unfold XMath.constrain; rw [if_pos h]

theorem constrain_hi {v lo hi : XF} (h : lt v lo = false) (h2 : lt hi v = true) : XMath.constrain v lo hi = hi := by
  unfold XMath.constrain; rw [if_neg (by rw [h]; exact Bool.false_ne_true), if_pos h2]

theorem constrain_flo {v lo : ℚ} {hi : XF} (h : v < lo) : XMath.constrain (.fin v) (.fin lo) hi = .fin lo := constrain_lo (decide_eq_true h)

theorem constrain_fhi {v lo hi : ℚ} (h : lo ≤ v) (h2 : hi < v) : XMath.constrain (.fin v) (.fin lo) (.fin hi) = .fin hi :=
  constrain_hi (decide_eq_false (not_lt.mpr h)) (decide_eq_true h2)

theorem k_fin {rnd : ℚ → ℚ} (hr : Nearest rnd) (t : Ty) (h1 : 1 ≤ t.used) (h2 : t.used ≤ 32) : ofQ rnd t.kMaxValue = .fin (t.kOutScaling rnd) ∧ 1 ≤ t.kOutScaling rnd ∧ t.kOutScaling rnd ≤ 2 ^ 31 := by
  have e := scaling t rnd h1 h2 (Or.inr hr)
  have hp : (2 : ℚ) ^ (t.used - 1) ≤ 2 ^ 31 := pow_le_pow_right₀ (by norm_num) (by omega)
  refine ⟨?_, by rw [e]; exact one_le_pow₀ (by norm_num), by rw [e]; exact hp⟩
  refine ofQ_fin ?_
  show |t.kOutScaling rnd| < big
  rw [e, abs_of_pos (by positivity)]
  exact lt_of_le_of_lt hp (by norm_num [big])

theorem lim_fin {rnd : ℚ → ℚ} (hr : Nearest rnd) (k : ℚ) (h1 : 1 ≤ k) (h2 : k ≤ 2 ^ 31) : div rnd (sub rnd (.fin k) (.fin 1)) (.fin k) = .fin (rnd (rnd (k - 1) / k)) ∧ 0 ≤ rnd (rnd (k - 1) / k) := by
  obtain ⟨e, c⟩ := fin_of_le hr 31 (by norm_num) (q := k - 1) (by rw [abs_of_nonneg (by linarith)]; linarith)
  have n0 : 0 ≤ rnd (k - 1) := hr.ge f32_zero (by linarith)
  have h0 : 0 ≤ rnd (k - 1) / k := div_nonneg n0 (by linarith)
  rw [sub_fin, e]
  simp only [div, if_neg (show ¬ k = 0 by linarith)]
  refine ⟨(fin_of_le hr 31 (by norm_num) ?_).1, hr.ge f32_zero h0⟩
  rw [abs_of_nonneg h0, div_le_iff₀ (by linarith)]
  have := (abs_le.mp c).2
  nlinarith

/-! ## C196: scaleOutput -/

/-- **C196**: for every finite float scaleOutput does what C116 describes: nothing overflows on the way. -/
theorem C196_finite (rnd : ℚ → ℚ) (hr : Nearest rnd) (t : Ty) (h1 : 1 ≤ t.used) (h2 : t.used ≤ 32) (hb : t.bits ≤ 64) (x : ℚ) (hx : F32 x) (hx2 : |x| < big) : scaleOutput rnd t (.fin x) = t.scaleOutput rnd x := by
  obtain ⟨ek, k1, k2⟩ := k_fin hr t h1 h2
  unfold scaleOutput Ty.scaleOutput
  simp only [ek]
  split
  · split
    · rw [XMath.mul_fin, toSigned_ofQ rnd _ (by omega)]
    · rw [(lim_fin hr _ k1 k2).1, constrain_fin, XMath.mul_fin, toSigned_ofQ rnd _ (by omega)]
  · obtain ⟨e1, c1⟩ := fin_of_le hr 127 (by norm_num) (q := x * (1 / 2)) (by
      rw [abs_mul, show |(1 / 2 : ℚ)| = 1 / 2 by norm_num [abs_of_pos]]
      norm_num [big] at *
      linarith)
    rw [XMath.mul_fin, e1, XMath.add_fin, ofQ_le hr (by
      refine (abs_add_le _ _).trans ?_
      have : (2 : ℚ) ^ 127 + 1 / 2 ≤ maxF := by norm_num [maxF]
      rw [show |(1 / 2 : ℚ)| = 1 / 2 by norm_num [abs_of_pos]]
      linarith)]
    rw [constrain_fin]
    have em : ofQ rnd (((IntMath.ipow 2 t.used + 2 ^ 32 - 1) % 2 ^ 32 : Nat) : ℚ) = .fin (rnd ((IntMath.ipow 2 t.used + 2 ^ 32 - 1) % 2 ^ 32 : Nat)) := by
      refine (fin_of_le hr 32 (by norm_num) ?_).1
      rw [abs_of_nonneg (Nat.cast_nonneg _)]
      have : (IntMath.ipow 2 t.used + 2 ^ 32 - 1) % 2 ^ 32 ≤ 2 ^ 32 := (Nat.mod_lt _ (by norm_num)).le
      exact_mod_cast this
    rw [em, XMath.mul_fin, toUnsigned_ofQ rnd _ (by omega)]

example (rnd : ℚ → ℚ) (hr : Nearest rnd) := C196_finite rnd hr ⟨16, 16, true⟩ (by norm_num) (by norm_num) (by norm_num) (-maxF) (f32_neg f32_maxF) (by rw [abs_neg, abs_of_pos (by norm_num [maxF])]; exact maxF_lt)

/-- **C196**: infinities saturate like any other large value: signed samples using all their (up to 25) bits, and unsigned samples of up to 24 bits. -/
theorem C196_infinite (rnd : ℚ → ℚ) (hr : Nearest rnd) (t : Ty) (h1 : 1 ≤ t.used) :
    (t.signed = true → t.bits = t.used → t.used ≤ 25 → scaleOutput rnd t (.inf false) = .ok (2 ^ (t.used - 1) - 1) ∧ scaleOutput rnd t (.inf true) = .ok (-2 ^ (t.used - 1))) ∧
    (t.signed = false → t.used ≤ 24 → t.used ≤ t.bits → t.bits ≤ 64 → scaleOutput rnd t (.inf false) = .ok (2 ^ t.used - 1) ∧ scaleOutput rnd t (.inf true) = .ok 0) := by
  constructor
  · intro hs hb hu
    obtain ⟨ek, k1, k2⟩ := k_fin hr t h1 (by omega)
    have f2 : F32 (2 : ℚ) := by have := f32_pow2 1; simpa using this
    have hp : (1 : ℚ) ≤ 2 ^ (t.used - 1) := one_le_pow₀ (by norm_num)
    have eq1 : scaleOutput rnd t (.inf false) = scaleOutput rnd t (.fin 2) := by
      unfold scaleOutput
      simp only [ek, hs, if_true, hb, gt_iff_lt, lt_irrefl, if_false]
      obtain ⟨el, l0⟩ := lim_fin hr _ k1 k2
      rw [el]
      have l1 : rnd (rnd (t.kOutScaling rnd - 1) / t.kOutScaling rnd) ≤ 1 := by
        refine hr.le f32_one ?_
        rw [div_le_one (by linarith), scaling t rnd h1 (by omega) (Or.inr hr)]
        exact hr.le (f32_pow2 _) (by linarith)
      have : XMath.constrain (.inf false) (.fin (-1)) (.fin (rnd (rnd (t.kOutScaling rnd - 1) / t.kOutScaling rnd))) = XMath.constrain (.fin 2) (.fin (-1)) (.fin (rnd (rnd (t.kOutScaling rnd - 1) / t.kOutScaling rnd))) := by
        rw [constrain_hi rfl rfl, constrain_fhi (by norm_num) (by linarith)]
      rw [this]
    have eq2 : scaleOutput rnd t (.inf true) = scaleOutput rnd t (.fin (-2)) := by
      unfold scaleOutput
      simp only [ek, hs, if_true, hb, gt_iff_lt, lt_irrefl, if_false]
      have : ∀ hi, XMath.constrain (.inf true) (.fin (-1)) hi = XMath.constrain (.fin (-2)) (.fin (-1)) hi := by
        intro hi
        rw [constrain_lo rfl, constrain_flo (by norm_num)]
      rw [this]
    rw [eq1, eq2, C196_finite rnd hr t h1 (by omega) (by omega) 2 f2 (by norm_num [big]), C196_finite rnd hr t h1 (by omega) (by omega) (-2) (f32_neg f2) (by norm_num [big]),
      C116_saturates_partial t rnd 2 hs h1 hb (Or.inl hu) (Or.inr ⟨hr, f2⟩), C116_saturates_partial t rnd (-2) hs h1 hb (Or.inl hu) (Or.inr ⟨hr, f32_neg f2⟩)]
    have c1 : clamp (-2 ^ (t.used - 1)) (2 ^ (t.used - 1) - 1) (2 * 2 ^ (t.used - 1)) = 2 ^ (t.used - 1) - 1 := by
      unfold clamp; rw [min_eq_left (by linarith), max_eq_right (by linarith)]
    have c2 : clamp (-2 ^ (t.used - 1)) (2 ^ (t.used - 1) - 1) (-2 * 2 ^ (t.used - 1)) = -2 ^ (t.used - 1) := by
      unfold clamp; rw [min_eq_right (by linarith), max_eq_left (by linarith)]
    rw [c1, c2]
    constructor
    · unfold towardZero
      rw [if_pos (by linarith), show ((2 : ℚ) ^ (t.used - 1) - 1) = (((2 : ℤ) ^ (t.used - 1) - 1 : ℤ) : ℚ) by push_cast; ring, Int.floor_intCast]
    · unfold towardZero
      rw [if_neg (by linarith), show (-(2 : ℚ) ^ (t.used - 1)) = ((-(2 : ℤ) ^ (t.used - 1) : ℤ) : ℚ) by push_cast; ring, Int.ceil_intCast]
  · intro hs hu hub hb
    have f2 : F32 (2 : ℚ) := by have := f32_pow2 1; simpa using this
    have half : ∀ q : ℚ, F32 q → |q| < big → mul rnd (.fin (2 * q)) (.fin (1 / 2)) = .fin q := by
      intro q hq hq2
      rw [XMath.mul_fin, show 2 * q * (1 / 2) = q by ring]; exact ofQ_exact hr hq hq2
    have same : ∀ (b : Bool) (q : ℚ), (b = false ∧ q = 2) ∨ (b = true ∧ q = -2) → scaleOutput rnd t (.inf b) = scaleOutput rnd t (.fin q) := by
      rintro b q (⟨rfl, rfl⟩ | ⟨rfl, rfl⟩)
      · have e1 : XMath.constrain (add rnd (mul rnd (.inf false) (.fin (1 / 2))) (.fin (1 / 2))) (.fin 0) (.fin 1) = .fin 1 := by
          have : mul rnd (.inf false) (.fin (1 / 2)) = .inf false := by simp [mul]
          rw [this]; rfl
        have e2 : XMath.constrain (add rnd (mul rnd (.fin 2) (.fin (1 / 2))) (.fin (1 / 2))) (.fin 0) (.fin 1) = .fin 1 := by
          have e0 := half 1 f32_one (by norm_num [big])
          rw [mul_one] at e0
          rw [e0, XMath.add_fin]
          have h32 : ofQ rnd (1 + 1 / 2) = .fin (3 / 2) := by
            rw [show (1 : ℚ) + 1 / 2 = 3 / 2 by norm_num]
            refine ofQ_exact hr ?_ (by norm_num [big, abs_lt])
            have := f32_div 3 (by norm_num) 1 (by norm_num); simpa using this
          rw [h32, constrain_fhi (by norm_num) (by norm_num)]
        unfold scaleOutput
        simp only [hs, Bool.false_eq_true, if_false]
        rw [e1, e2]
      · have e1 : XMath.constrain (add rnd (mul rnd (.inf true) (.fin (1 / 2))) (.fin (1 / 2))) (.fin 0) (.fin 1) = .fin 0 := by
          have : mul rnd (.inf true) (.fin (1 / 2)) = .inf true := by simp [mul]
          rw [this]; rfl
        have e2 : XMath.constrain (add rnd (mul rnd (.fin (-2)) (.fin (1 / 2))) (.fin (1 / 2))) (.fin 0) (.fin 1) = .fin 0 := by
          rw [show (-2 : ℚ) = 2 * (-1) by norm_num, half (-1) (f32_neg f32_one) (by norm_num [big]), XMath.add_fin]
          have h32 : ofQ rnd (-1 + 1 / 2) = .fin (-(1 / 2)) := by
            rw [show (-1 : ℚ) + 1 / 2 = -(1 / 2) by norm_num]
            refine ofQ_exact hr ?_ (by norm_num [big, abs_lt])
            have := f32_div (-1) (by norm_num) 1 (by norm_num); rw [show -((1 : ℚ) / 2) = ((-1 : ℤ) : ℚ) / 2 ^ 1 by norm_num]; exact this
          rw [h32, constrain_flo (by norm_num)]
        unfold scaleOutput
        simp only [hs, Bool.false_eq_true, if_false]
        rw [e1, e2]
    rw [same false 2 (Or.inl ⟨rfl, rfl⟩), same true (-2) (Or.inr ⟨rfl, rfl⟩), C196_finite rnd hr t h1 (by omega) hb 2 f2 (by norm_num [big]), C196_finite rnd hr t h1 (by omega) hb (-2) (f32_neg f2) (by norm_num [big])]
    obtain ⟨a, b, ea, eb, -, ha, -, -⟩ := C116_unsigned t rnd (Or.inr hr) hs h1 hu hub (-2) 2
    obtain ⟨c, d, ec, ed, -, -, hc, -⟩ := C116_unsigned t rnd (Or.inr hr) hs h1 hu hub 2 2
    rw [ea, ec, ha (by norm_num), hc (by norm_num)]
    refine ⟨?_, rfl⟩
    have := Nat.one_le_two_pow (n := t.used)
    push_cast [this]; rfl

example (rnd : ℚ → ℚ) (hr : Nearest rnd) := (C196_infinite rnd hr ⟨16, 16, true⟩ (by norm_num)).1 rfl rfl (by norm_num)
example (rnd : ℚ → ℚ) (hr : Nearest rnd) := (C196_infinite rnd hr ⟨8, 8, false⟩ (by norm_num)).2 rfl (by norm_num) (by norm_num) (by norm_num)

/-- **C196, violated**: NaN is undefined for every sample type, and infinities for samples that do not use all their bits. -/
theorem C196_violated (rnd : ℚ → ℚ) (t : Ty) : scaleOutput rnd t .nan = .ub ∧ (t.signed = true → t.used < t.bits → ∀ b, scaleOutput rnd t (.inf b) = .ub) := by
  constructor
  · unfold scaleOutput
    simp only [nan_mul, nan_add, XMath.C194_constrain_violated]
    split
    · split <;> rfl
    · rfl
  · intro hs hb b
    unfold scaleOutput
    simp only [hs, if_true, gt_iff_lt, hb]
    have := mul_special rnd (.inf b) (ofQ rnd t.kMaxValue) (Or.inl (fun h => h))
    generalize mul rnd (.inf b) (ofQ rnd t.kMaxValue) = m at this
    cases m with
    | nan => rfl
    | inf c => rfl
    | fin q => exact absurd trivial this

example (rnd : ℚ → ℚ) := (C196_violated rnd ⟨32, 24, true⟩).2 rfl (by norm_num) true

/-! ## C197: oscillators, LEDs and colours -/

/-- **C197**: set_frequency(float), flash_once_ms, the packed blends, RGB565 from floats and set_color do for every finite float what the finite models (C149, C151, C152) describe. -/
theorem C197_finite (rnd : ℚ → ℚ) (hr : Nearest rnd) (rate : Nat) (t : Tri) (l : RgbLed) (c : Color) (hc : c.r < 256 ∧ c.g < 256 ∧ c.b < 256) (c1 c2 : Nat) (x y z : ℚ) :
    triSetFreq rnd rate t (.fin x) = OscsFloat.triSetFreqF rnd rate t x ∧ flashOnceMs rnd rate l c (.fin x) = OscsFloat.flashOnceMs rnd rate l c x ∧
    blendPacked rnd c1 c2 (.fin x) = ColorFloat.blendPackedF rnd c1 c2 x ∧ slowBlend rnd c1 c2 (.fin x) = ColorFloat.slowBlend rnd c1 c2 x ∧
    rgb565 rnd (.fin x) (.fin y) (.fin z) = ColorFloat.ofF rnd x y z ∧ setColor rnd c (.fin x) = ColorFloat.setColorF rnd c x := by
  have e8 : (2 : Nat) ^ 8 = 256 := by norm_num
  have e16 : (2 : Nat) ^ 16 = 65536 := by norm_num
  have e32 : (2 : Nat) ^ 32 = W := by norm_num [W]
  have hch : ∀ n : Nat, n < 256 → ofQ rnd (n : ℚ) = .fin n := by
    intro n hn
    have f : F32 (n : ℚ) := by have := f32_int (n : ℤ) (by rw [abs_of_nonneg (by positivity)]; omega); exact_mod_cast this
    refine ofQ_exact hr f ?_
    rw [abs_of_nonneg (Nat.cast_nonneg _)]
    have : (n : ℚ) < 256 := by exact_mod_cast hn
    exact lt_trans this (by norm_num [big])
  refine ⟨?_, ?_, ?_, ?_, ?_, ?_⟩
  · unfold triSetFreq OscsFloat.triSetFreqF
    have hu : freqUnits rate ≤ 2 ^ 32 := (Nat.div_le_self _ _).trans (by norm_num)
    rw [(fin_of_le hr 32 (by norm_num) (q := ((freqUnits rate : ℕ) : ℚ)) (by rw [abs_of_nonneg (Nat.cast_nonneg _)]; exact_mod_cast hu)).1, XMath.mul_fin, toUnsigned_ofQ rnd 32 (by norm_num), e32]
  · unfold flashOnceMs OscsFloat.flashOnceMs
    by_cases h : x = 0
    · simp [h, div, toUnsigned]
    · simp only [div, if_neg h]
      rw [toUnsigned_ofQ rnd 32 (by norm_num), e32]
  · unfold blendPacked ColorFloat.blendPackedF
    rw [XMath.mul_fin, toUnsigned_ofQ rnd 8 (by norm_num), e8]
  · unfold slowBlend ColorFloat.slowBlend
    rw [XMath.mul_fin, toUnsigned_ofQ rnd 8 (by norm_num), e8]
  · unfold rgb565 ColorFloat.ofF
    rw [XMath.mul_fin, XMath.mul_fin, XMath.mul_fin, toUnsigned_ofQ rnd 16 (by norm_num), toUnsigned_ofQ rnd 16 (by norm_num), toUnsigned_ofQ rnd 16 (by norm_num), e16]
  · unfold setColor ColorFloat.setColorF
    rw [hch _ hc.1, hch _ hc.2.1, hch _ hc.2.2, XMath.mul_fin, XMath.mul_fin, XMath.mul_fin, toUnsigned_ofQ rnd 8 (by norm_num), toUnsigned_ofQ rnd 8 (by norm_num), toUnsigned_ofQ rnd 8 (by norm_num), e8]

example (rnd : ℚ → ℚ) (hr : Nearest rnd) := C197_finite rnd hr 48000 ⟨0, 0⟩ RgbLed.init ⟨1, 2, 3⟩ (by decide) 5 6 (-1) 2 3

/-- **C197**: blending colours does what C151 describes for every phase of magnitude at most 2^100. -/
theorem C197_blend (rnd : ℚ → ℚ) (hr : Nearest rnd) (a b : Color) (ha : a.r < 256 ∧ a.g < 256 ∧ a.b < 256) (hb : b.r < 256 ∧ b.g < 256 ∧ b.b < 256) (p : ℚ) (hp : |p| ≤ 2 ^ 100) :
    blend rnd a b (.fin p) = ColorFloat.blendF rnd a b p := by
  have hch : ∀ n : Nat, n < 256 → ofQ rnd (n : ℚ) = .fin n ∧ |(n : ℚ)| ≤ 2 ^ 8 := by
    intro n hn
    have f : F32 (n : ℚ) := by have := f32_int (n : ℤ) (by rw [abs_of_nonneg (by positivity)]; omega); exact_mod_cast this
    have : (n : ℚ) < 256 := by exact_mod_cast hn
    refine ⟨ofQ_exact hr f ?_, ?_⟩
    · rw [abs_of_nonneg (Nat.cast_nonneg _)]
      exact lt_trans this (by norm_num [big])
    · rw [abs_of_nonneg (Nat.cast_nonneg _)]
      exact le_trans this.le (by norm_num)
  obtain ⟨e1, q1⟩ := fin_of_le hr 101 (by norm_num) (q := 1 - p) (by
    have := abs_sub 1 p
    have : (2 : ℚ) ^ 100 + 1 ≤ 2 ^ 101 := by norm_num
    rw [abs_one] at *
    linarith)
  have hm : ∀ n v : ℚ, |n| ≤ 2 ^ 8 → |v| ≤ 2 ^ 101 → |n * v| ≤ 2 ^ 109 := by
    intro n v hn hv
    rw [abs_mul]
    calc |n| * |v| ≤ 2 ^ 8 * 2 ^ 101 := mul_le_mul hn hv (abs_nonneg _) (by norm_num)
      _ = 2 ^ 109 := by norm_num
  have key : ∀ n m : Nat, n < 256 → m < 256 → chan rnd n m (.fin p) = ColorFloat.chanF rnd n m p := by
    intro n m hn hm'
    unfold chan ColorFloat.chanF
    rw [(hch n hn).1, (hch m hm').1, sub_fin, e1, XMath.mul_fin, XMath.mul_fin]
    obtain ⟨e2, q2⟩ := fin_of_le hr 109 (by norm_num) (hm n _ (hch n hn).2 q1)
    obtain ⟨e3, q3⟩ := fin_of_le hr 109 (by norm_num) (hm m p (hch m hm').2 (hp.trans (by norm_num)))
    rw [e2, e3, XMath.add_fin, toUnsigned_ofQ rnd 8 (by norm_num)]
    norm_num
  unfold blend ColorFloat.blendF
  rw [key _ _ ha.1 hb.1, key _ _ ha.2.1 hb.2.1, key _ _ ha.2.2 hb.2.2]

example (rnd : ℚ → ℚ) (hr : Nearest rnd) := C197_blend rnd hr ⟨1, 2, 3⟩ ⟨4, 5, 6⟩ (by decide) (by decide) (1 / 2) (by norm_num [abs_of_pos])

/-- **C197, violated**: an infinity or NaN given to any of them is undefined, even as the brightness or phase of black; only flash_once_ms accepts infinities, as frequency 0. -/
theorem C197_violated (rnd : ℚ → ℚ) (x : XF) (hx : ¬ Fin x) (rate : Nat) (t : Tri) (l : RgbLed) (a b : Color) (c1 c2 : Nat) (y z : XF) :
    triSetFreq rnd rate t x = .ub ∧ blendPacked rnd c1 c2 x = .ub ∧ slowBlend rnd c1 c2 x = .ub ∧ rgb565 rnd z y x = .ub ∧ setColor rnd a x = .ub ∧ blend rnd a b x = .ub ∧
    flashOnceMs rnd rate l a x = (if x = .nan then .ub else .ok { l with flashCol := a, flasher := l.flasher.reset.setFreq rate 0, smooth := false }) := by
  refine ⟨?_, ?_, ?_, ?_, ?_, ?_, ?_⟩
  · unfold triSetFreq; rw [toUnsigned_special _ _ (mul_special rnd _ _ (Or.inl hx)), R.bind_ub]
  · unfold blendPacked; rw [toUnsigned_special _ _ (mul_special rnd _ _ (Or.inl hx)), R.bind_ub]
  · unfold slowBlend; rw [toUnsigned_special _ _ (mul_special rnd _ _ (Or.inl hx)), R.bind_ub]
  · unfold rgb565; rw [toUnsigned_special _ _ (mul_special rnd _ _ (Or.inl hx)), R.bind_ub]
  · unfold setColor; rw [toUnsigned_special _ _ (mul_special rnd _ _ (Or.inr hx)), R.bind_ub]
  · unfold blend chan; rw [toUnsigned_special _ _ (add_special rnd _ _ (Or.inr (mul_special rnd _ _ (Or.inr hx)))), R.bind_ub]
  · unfold flashOnceMs
    cases x with
    | nan => rfl
    | inf b => simp [div, toUnsigned]
    | fin q => exact absurd trivial hx

example (rnd : ℚ → ℚ) := C197_violated rnd .nan (fun h => h) 48000 ⟨0, 0⟩ RgbLed.init ⟨0, 0, 0⟩ ⟨0, 0, 0⟩ 0 0 (.fin 0) (.fin 0)

/-- **C197**: a one-shot with a finite increment from 0 to 2^126 and a width of magnitude at most 2^126 answers what C150 describes. -/
theorem C197_shot (rnd : ℚ → ℚ) (hr : Nearest rnd) (n : Nat) (o : OneShot) (h0 : 0 ≤ o.inc) (h1 : o.inc ≤ 2 ^ 126) (h2 : |o.width| ≤ 2 ^ 126) :
    Shot.run rnd n ⟨.fin o.inc, .fin o.width⟩ = (OscsFloat.run rnd n o).2 := by
  induction n generalizing o with
  | zero => rfl
  | succ n ih =>
    rw [Shot.run]
    by_cases hw : 0 < o.width
    · have hw' := (abs_le.mp h2).2
      obtain ⟨e, c⟩ := fin_of_le hr 126 (by norm_num) (q := o.width - o.inc) (abs_le.mpr ⟨by linarith, by linarith⟩)
      have e1 : Shot.update rnd ⟨.fin o.inc, .fin o.width⟩ = (⟨.fin o.inc, .fin (rnd (o.width - o.inc))⟩, true) := by
        unfold Shot.update
        rw [if_pos (show lt (.fin 0) (.fin o.width) = true from decide_eq_true hw), sub_fin, e]
      have e2 : OscsFloat.update rnd o = ({ o with width := rnd (o.width - o.inc) }, true) := by
        unfold OscsFloat.update; rw [if_pos hw]
      rw [e1, OscsFloat.run, e2]
      simp only
      rw [ih { o with width := rnd (o.width - o.inc) } h0 h1 c]
    · have e1 : Shot.update rnd ⟨.fin o.inc, .fin o.width⟩ = (⟨.fin o.inc, .fin o.width⟩, false) := by
        unfold Shot.update
        rw [if_neg (show ¬ lt (.fin 0) (.fin o.width) = true from fun h => hw (of_decide_eq_true h))]
      have e2 : OscsFloat.update rnd o = (o, false) := by
        unfold OscsFloat.update; rw [if_neg hw]
      rw [e1, OscsFloat.run, e2]
      simp only
      rw [ih o h0 h1 h2]

example (rnd : ℚ → ℚ) (hr : Nearest rnd) := C197_shot rnd hr 5 ⟨1 / 4, 1⟩ (by norm_num) (by norm_num) (by norm_num)

/-- **C197, violated**: a pulse of infinite width, or any positive pulse after the rate has been set to infinity, never ends; stop() ends it. -/
theorem C197_shot_violated (rnd : ℚ → ℚ) (hr : Nearest rnd) (o : Shot) (i w : ℚ) (hi : o.inc = .fin i) (hw : F32 w) (hw0 : 0 < w) (hw1 : w < big) (n : Nat) :
    Shot.run rnd n (o.start (.inf false)) = List.replicate n true ∧ Shot.run rnd n ((o.setRate rnd (.inf false)).start (.fin w)) = List.replicate n true ∧
    Shot.run rnd n (o.start (.inf false)).stop = List.replicate n false := by
  refine ⟨?_, ?_, ?_⟩
  · have e : Shot.update rnd (o.start (.inf false)) = (o.start (.inf false), true) := by
      unfold Shot.update Shot.start
      simp [lt, hi, sub, add, neg]
    induction n with
    | zero => rfl
    | succ n ih => rw [Shot.run, e, List.replicate_succ, ih]
  · have e : Shot.update rnd ((o.setRate rnd (.inf false)).start (.fin w)) = ((o.setRate rnd (.inf false)).start (.fin w), true) := by
      unfold Shot.update Shot.start Shot.setRate
      simp only [lt, div, Bool.not_false, if_true]
      rw [if_pos (by simpa using hw0), sub_fin, sub_zero, ofQ_exact hr hw (by rw [abs_of_pos hw0]; exact hw1)]
    induction n with
    | zero => rfl
    | succ n ih => rw [Shot.run, e, List.replicate_succ, ih]
  · have e : Shot.update rnd (o.start (.inf false)).stop = ((o.start (.inf false)).stop, false) := by
      unfold Shot.update Shot.start Shot.stop
      simp [lt]
    induction n with
    | zero => rfl
    | succ n ih => rw [Shot.run, e, List.replicate_succ, ih]

example (rnd : ℚ → ℚ) (hr : Nearest rnd) := C197_shot_violated rnd hr ⟨.fin 1, .fin 0⟩ 1 1 rfl f32_one (by norm_num) (by norm_num [big]) 100

/-- **C197**: a pulse of NaN width never starts, a rate of NaN, zero or below is ignored by set_rate, and a one-shot constructed with rate NaN answers true once per pulse. -/
theorem C197_shot_nan (rnd : ℚ → ℚ) (o : Shot) (n : Nat) : Shot.run rnd n (o.start .nan) = List.replicate n false ∧ o.setRate rnd .nan = o ∧ (∀ q : ℚ, q ≤ 0 → o.setRate rnd (.fin q) = o) ∧
    o.setRate rnd (.inf true) = o ∧ (∀ r, Shot.run rnd n (Shot.make rnd r) = List.replicate n false) ∧
    ∀ w : ℚ, 0 < w → Shot.run rnd (n + 1) ((Shot.make rnd .nan).start (.fin w)) = true :: List.replicate n false := by
  have stuck : ∀ i, Shot.run rnd n ⟨i, .nan⟩ = List.replicate n false := by
    intro i
    induction n with
    | zero => rfl
    | succ n ih =>
      rw [Shot.run]
      unfold Shot.update
      simp only [lt_nan, Bool.false_eq_true, if_false]
      rw [List.replicate_succ, ih]
  refine ⟨stuck _, ?_, ?_, ?_, ?_, ?_⟩
  · unfold Shot.setRate; rw [lt_nan]; rfl
  · intro q hq; unfold Shot.setRate; rw [if_neg (show ¬ lt (.fin 0) (.fin q) = true from fun h => absurd (of_decide_eq_true h) (not_lt.mpr hq))]
  · rfl
  · intro r
    clear stuck
    induction n with
    | zero => rfl
    | succ n ih =>
      rw [Shot.run]
      unfold Shot.update
      rw [if_neg (by simp [Shot.make, lt]), List.replicate_succ]
      exact congrArg _ ih
  · intro w hw
    have e : Shot.update rnd ((Shot.make rnd .nan).start (.fin w)) = (⟨.nan, .nan⟩, true) := by
      unfold Shot.update Shot.start Shot.make
      rw [if_pos (show lt (.fin 0) (.fin w) = true from decide_eq_true hw)]; rfl
    rw [Shot.run, e]
    simp only
    rw [stuck]

/-- a one-shot under way with a width of 2 and steps of 1 / 4 -/
example (rnd : ℚ → ℚ) := (C197_shot_nan rnd ⟨.fin (1 / 4), .fin 2⟩ 10).2.2.1 (-1) (by norm_num)

end XAudio
