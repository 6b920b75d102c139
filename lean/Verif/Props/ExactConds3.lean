import Verif.Props.FilterInt
import Verif.Props.RatMath
/-! # Exact behaviour behind the partial properties C86 and C173 -/

namespace RatMath

/-- **C86** (exact behaviour on `int`): map_value is defined exactly if the three differences, the product, the quotient and the result are ints and the input range is not empty;
then it is the product over the width, truncated, plus the lower end. -/
theorem C86_int_exact (x inMin inMax outMin outMax r : Int) :
    let fits := fun z : Int => -2147483648 ≤ z ∧ z ≤ 2147483647
    let q := ((x - inMin) * (outMax - outMin)).tdiv (inMax - inMin)
    mapValueI x inMin inMax outMin outMax = .ok r ↔
      inMin ≠ inMax ∧ fits (x - inMin) ∧ fits (outMax - outMin) ∧ fits (inMax - inMin) ∧ fits ((x - inMin) * (outMax - outMin)) ∧ fits q ∧ fits (q + outMin) ∧ r = q + outMin := by
  intro fits q
  have bnd : ∀ (z : Int) (f : Int → R Int), ((IntMath.i32 z >>= f) = .ok r) ↔ (fits z ∧ f z = .ok r) := by
    intro z f
    unfold IntMath.i32 IntMath.fit
    by_cases h : -2147483648 ≤ z ∧ z ≤ 2147483647
    · rw [if_pos h, R.bind_ok]; exact ⟨fun g => ⟨h, g⟩, fun g => g.2⟩
    · rw [if_neg h, R.bind_ub]; exact ⟨fun g => by (cases g), fun g => absurd g.1 h⟩
  have lst : ∀ z : Int, (IntMath.i32 z = .ok r) ↔ (fits z ∧ r = z) := by
    intro z
    unfold IntMath.i32 IntMath.fit
    by_cases h : -2147483648 ≤ z ∧ z ≤ 2147483647
    · rw [if_pos h]; exact ⟨fun g => ⟨h, by cases g; rfl⟩, fun g => by rw [g.2]⟩
    · rw [if_neg h]; exact ⟨fun g => by (cases g), fun g => absurd g.1 h⟩
  unfold mapValueI
  rw [bnd, bnd, bnd, bnd]
  by_cases h0 : inMax - inMin = 0
  · rw [if_pos h0]
    constructor
    · rintro ⟨_, _, _, _, h⟩; cases h
    · rintro ⟨h, _⟩; omega
  · rw [if_neg h0, bnd, lst]
    constructor
    · rintro ⟨h1, h2, h3, h4, h5, h6, h7⟩; exact ⟨by omega, h1, h2, h4, h3, h5, h6, h7⟩
    · rintro ⟨_, h1, h2, h4, h3, h5, h6, h7⟩; exact ⟨h1, h2, h3, h4, h5, h6, h7⟩

example : mapValueI 7 0 10 255 0 = .ok 77 ∧ (7 * (0 - 255 : Int)).tdiv 10 + 255 = 77 := by decide

/-- **C86** (exact on `unsigned`): for an increasing input range containing x, an increasing output range, and a product below 2^32, map_value is the exact value rounded down, so inside the output range, with
exactly the ends at the ends. An empty input range is undefined. -/
theorem C86_unsigned_exact (x inMin inMax outMin outMax : Nat) :
    (∀ (a b c : BitVec 32), mapValueU a b b c c = .ub) ∧
    (inMin < inMax → inMin ≤ x → x ≤ inMax → inMax < 2 ^ 32 → outMin ≤ outMax → outMax < 2 ^ 32 → (x - inMin) * (outMax - outMin) < 2 ^ 32 →
      ∃ r : Nat, mapValueU (.ofNat 32 x) (.ofNat 32 inMin) (.ofNat 32 inMax) (.ofNat 32 outMin) (.ofNat 32 outMax) = .ok (.ofNat 32 r) ∧
        r = outMin + (x - inMin) * (outMax - outMin) / (inMax - inMin) ∧ outMin ≤ r ∧ r ≤ outMax ∧ (x = inMin → r = outMin) ∧ (x = inMax → r = outMax)) := by
  constructor
  · intro a b c; unfold mapValueU; simp
  · intro h1 h2 h3 h4 h5 h6 h7
    have sub : ∀ a b : Nat, b ≤ a → a < 2 ^ 32 → (BitVec.ofNat 32 a - BitVec.ofNat 32 b) = BitVec.ofNat 32 (a - b) := by
      intro a b hab ha
      apply BitVec.eq_of_toNat_eq
      rw [BitVec.toNat_sub, BitVec.toNat_ofNat, BitVec.toNat_ofNat, BitVec.toNat_ofNat, Nat.mod_eq_of_lt ha, Nat.mod_eq_of_lt (show b < 2 ^ 32 by omega),
        Nat.mod_eq_of_lt (show a - b < 2 ^ 32 by omega)]
      omega
    have hle : (x - inMin) * (outMax - outMin) / (inMax - inMin) ≤ outMax - outMin := by
      rw [Nat.div_le_iff_le_mul (by omega)]
      have : (x - inMin) * (outMax - outMin) ≤ (inMax - inMin) * (outMax - outMin) := Nat.mul_le_mul_right _ (by omega)
      rw [Nat.mul_comm (outMax - outMin)]
      omega
    refine ⟨outMin + (x - inMin) * (outMax - outMin) / (inMax - inMin), ?_, rfl, Nat.le_add_right _ _, by
      generalize (x - inMin) * (outMax - outMin) / (inMax - inMin) = z at *; omega, ?_, ?_⟩
    · unfold mapValueU
      rw [sub inMax inMin h1.le h4, sub x inMin h2 (by omega), sub outMax outMin h5 h6]
      have hne : ¬ (BitVec.ofNat 32 (inMax - inMin) = 0) := by
        intro h
        have := congrArg BitVec.toNat h
        rw [BitVec.toNat_ofNat, Nat.mod_eq_of_lt (by omega)] at this
        simp at this; omega
      rw [if_neg hne]
      congr 1
      apply BitVec.eq_of_toNat_eq
      rw [BitVec.toNat_add, BitVec.toNat_udiv, BitVec.toNat_mul]
      simp only [BitVec.toNat_ofNat]
      rw [Nat.mod_eq_of_lt (show x - inMin < 2 ^ 32 by omega), Nat.mod_eq_of_lt (show outMax - outMin < 2 ^ 32 by omega), Nat.mod_eq_of_lt h7,
        Nat.mod_eq_of_lt (show inMax - inMin < 2 ^ 32 by omega), Nat.mod_eq_of_lt (show outMin < 2 ^ 32 by omega), Nat.add_comm]
    · rintro rfl; simp
    · rintro rfl; rw [Nat.mul_div_cancel_left _ (by omega)]; omega

example := (C86_unsigned_exact 7 0 10 0 255).2 (by decide) (by decide) (by decide) (by decide) (by decide) (by decide) (by decide)

end RatMath

namespace FilterInt
open ParamsInt Filter Filter.Spec Spec

theorem conv_char (t : Ty) (hw : 0 < t.w) (z : Int) : InTy t (conv t z) ∧ conv t z % 2 ^ t.w = z % 2 ^ t.w := by
  have hp : (0 : Int) < 2 ^ t.w := by positivity
  have h2 : (2 : Int) ^ t.w = 2 * 2 ^ (t.w - 1) := by rw [← pow_succ']; congr 1; omega
  unfold InTy conv
  split
  · have h3 := Int.emod_nonneg (z + 2 ^ (t.w - 1)) hp.ne'
    have h4 := Int.emod_lt_of_pos (z + 2 ^ (t.w - 1)) hp
    refine ⟨⟨by linarith, by linarith⟩, ?_⟩
    rw [Int.emod_sub_emod]; congr 1; ring
  · exact ⟨⟨Int.emod_nonneg _ hp.ne', Int.emod_lt_of_pos _ hp⟩, Int.emod_emod_of_dvd _ (dvd_refl _)⟩

theorem shifted_char (t : Ty) (hw : 0 < t.w) (size : Nat) (hk : size = 2 ^ IntMath.log2T size) (S : Int) :
    InTy t (shifted t size (S % 4294967296)) ∧ shifted t size (S % 4294967296) % 2 ^ t.w = (S % 2 ^ 32 / size) % 2 ^ t.w := by
  have hsz : (size : Int) = 2 ^ IntMath.log2T size := by exact_mod_cast hk
  have hcast : (((S % 4294967296).toNat >>> IntMath.log2T size : Nat) : Int) = S % 2 ^ 32 / size := by
    rw [Nat.shiftRight_eq_div_pow, Int.natCast_ediv, Int.toNat_of_nonneg (Int.emod_nonneg _ (by norm_num)), hsz]
    push_cast
    norm_num
  unfold shifted
  rw [hcast]
  exact conv_char t hw _

/-- **C173** (exact behaviour of MovingAverage, for every sample type and stream): each add_val returns the value of the type that is congruent (modulo the size of the type) to the sum over the window modulo 2^32, divided by
the size and rounded down; so does val(). -/
theorem C173_moving_average_exact (t : Ty) (hw : 0 < t.w) (size : Nat) (hp : IntMath.isPowerOf2 size = true) (xs : List Int) :
    ∃ m vs, MovingAverage.run t size xs (MovingAverage.init size) = .ok (m, vs) ∧ vs.length = xs.length ∧
      (∀ i (hi : i < vs.length), InTy t vs[i] ∧ vs[i] % 2 ^ t.w = ((window size (xs.take (i + 1))).sum % 2 ^ 32 / size) % 2 ^ t.w) ∧
      InTy t (m.val t size) ∧ m.val t size % 2 ^ t.w = ((window size xs).sum % 2 ^ 32 / size) % 2 ^ t.w := by
  obtain ⟨m, vs, e1, e2, e3, hk⟩ := MovingAverage.exact t size hp xs
  refine ⟨m, vs, e1, by rw [e2]; simp, ?_, ?_⟩
  · intro i hi
    subst e2
    simp only [List.getElem_map, List.getElem_range]
    exact shifted_char t hw size hk _
  · rw [e3]; exact shifted_char t hw size hk _

example := C173_moving_average_exact ⟨32, true⟩ (by decide) 4 (by decide +kernel) [-4, -4, -4, -4]

/-- **C173** (exact behaviour of SmoothOversampler, for every stream): the value is the sum of the last complete block modulo 2^32, divided by the size; so it is the average exactly if the sum is in 0..2^32-1. -/
theorem C173_smooth_exact (size : Nat) (h0 : 0 < size) (xs : List Int) (hl : size ≤ xs.length) :
    (xs.foldl (Smooth.addVal size) Smooth.init).value = (((lastBlock size xs).sum % 2 ^ 32 : Int) : ℚ) / size ∧
    ((xs.foldl (Smooth.addVal size) Smooth.init).value = ((lastBlock size xs).sum : ℚ) / size ↔ 0 ≤ (lastBlock size xs).sum ∧ (lastBlock size xs).sum < 2 ^ 32) := by
  have sim : ∀ (xs : List Int) (o : Smooth) (s : Int × ℚ × Nat), s = (o.buff, o.value, o.idx) →
      (xs.foldl (Smooth.addVal size) o).value = (xs.foldl (blockStep size (fun b x => (b + x) % 4294967296) 0 (fun b : Int => (b : ℚ) / size)) s).2.1 := by
    intro xs
    induction xs with
    | nil => intro o s h; rw [h]; rfl
    | cons x xs ih =>
      intro o s h
      rw [List.foldl_cons, List.foldl_cons]
      apply ih
      rw [h]; unfold blockStep Smooth.addVal
      simp only
      by_cases hw : o.idx + 1 ≥ size
      · rw [if_pos hw, if_pos hw]
      · rw [if_neg hw, if_neg hw]
  have e : (xs.foldl (Smooth.addVal size) Smooth.init).value = (((lastBlock size xs).sum % 2 ^ 32 : Int) : ℚ) / size := by
    rw [sim xs Smooth.init (0, 0, 0) rfl, block_run size h0]
    simp only
    rw [if_neg (by omega)]
    have hf := foldl_imod (lastBlock size xs) 0
    rw [Int.zero_emod, Int.zero_add] at hf
    rw [hf]
    norm_num
  refine ⟨e, ?_⟩
  rw [e]
  have hs : (size : ℚ) ≠ 0 := by exact_mod_cast h0.ne'
  rw [div_left_inj' hs, Int.cast_inj]
  constructor
  · intro h
    have h1 := Int.emod_nonneg (lastBlock size xs).sum (show (2 ^ 32 : Int) ≠ 0 by norm_num)
    have h2 := Int.emod_lt_of_pos (lastBlock size xs).sum (show (0 : Int) < 2 ^ 32 by norm_num)
    rw [h] at h1 h2; exact ⟨h1, h2⟩
  · rintro ⟨h1, h2⟩; exact Int.emod_eq_of_lt h1 h2

example := C173_smooth_exact 4 (by decide) [-1, -1, -1, -1] (by decide)

end FilterInt
