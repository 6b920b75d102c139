import Verif.Props.Poll
import Verif.Props.Color
import Verif.Props.MathFns
import Verif.Props.Oscs
import Verif.Props.Filter
import Verif.Props.FilterInt
import Verif.Props.WrapInt
import Verif.Props.Strings
import Verif.Props.CircAccess
import Verif.Props.IntMath
import Verif.Props.SequentialMap
import Verif.Props.Params
import Verif.Props.Alloc
/-!
# Exact conditions

For properties that the code only keeps under a condition: the condition under which it does, as an equivalence, and what happens otherwise.
-/

namespace PollChange

/-- **C72**, exact condition: force_next_poll makes the next poll look if and only if `now` is at least update_ticks. -/
theorem C72_force_exact (ticks : BitVec 32) (p : PollChange) (now : BitVec 32) (state : Bool) :
    (pollFn ticks p.forceNextPoll now state).1 = true ↔ ticks ≤ now := by
  constructor
  · intro h
    by_contra hc
    rw [C72_force_violated ticks p now state (by simpa using hc)] at h
    cases h
  · exact C72_force_partial ticks p now state

end PollChange

namespace Color
open Spec

/-- **C93**, exactly: the portable operator+ adds each channel modulo 256, and so saturates if and only if no channel sum exceeds 255. -/
theorem C93_add_exact (a b : Color) (ha : Valid a) (hb : Valid b) :
    add a b = map2 (fun x y => (x + y) % 256) a b ∧
    (add a b = map2 (fun x y => min 255 (x + y)) a b ↔ a.r + b.r ≤ 255 ∧ a.g + b.g ≤ 255 ∧ a.b + b.b ≤ 255) := by
  obtain ⟨ar, ag, ab⟩ := a
  obtain ⟨br, bg, bb⟩ := b
  obtain ⟨h1, h2, h3⟩ := ha
  obtain ⟨h4, h5, h6⟩ := hb
  simp only at *
  constructor
  · rfl
  · simp only [add, mk8, map2, Color.mk.injEq]
    omega

example : Valid ⟨200, 0, 255⟩ ∧ Valid ⟨100, 3, 0⟩ ∧ add ⟨200, 0, 255⟩ ⟨100, 3, 0⟩ = ⟨44, 3, 255⟩ := by unfold Valid; decide

end Color

namespace MathFns
open Interp Interp.Spec InterpArray MathTables Tables

/-- **C132** for ints, exact condition, for a `long` of any number of bits from 32 on: randomNumber is defined if and only if the width of the range is an `int` and its product with what std::rand() returned is a `long`; and then it lies between the
bounds, at the place given by std::rand(). -/
theorem C132_int_exact (w randMax r : Nat) (hw : 32 ≤ w) (hm : 0 < randMax) (hM : randMax < 2 ^ 31) (hr : r ≤ randMax) (lo hi : Int) (h : lo ≤ hi) (hl : -2 ^ 31 ≤ lo) (hh : hi < 2 ^ 31) :
    ((∃ v, randomInt w randMax r lo hi = .ok v) ↔ hi - lo < 2 ^ 31 ∧ (r : Int) * (hi - lo) < 2 ^ (w - 1)) ∧
    ∀ v, randomInt w randMax r lo hi = .ok v → v = lo + (r : Int) * (hi - lo) / randMax ∧ lo ≤ v ∧ v ≤ hi := by
  obtain ⟨d, hd⟩ : ∃ d : Nat, hi - lo = d := ⟨(hi - lo).toNat, by omega⟩
  have hq : r * d / randMax ≤ d := by
    apply Nat.div_le_of_le_mul
    exact Nat.mul_le_mul_right d hr
  have hpw : (2 : Int) ^ 31 ≤ 2 ^ (w - 1) := pow_le_pow_right₀ (by norm_num) (by omega)
  have hprodI : ((r : Int) * (d : Int)) = ((r * d : Nat) : Int) := by push_cast; rfl
  have f1 : IntMath.fit (-2 ^ (w - 1)) (2 ^ (w - 1) - 1) (r : Int) = .ok (r : Int) := by unfold IntMath.fit; rw [if_pos (by omega)]
  have f4 : IntMath.fit (-2 ^ (w - 1)) (2 ^ (w - 1) - 1) (randMax : Int) = .ok (randMax : Int) := by unfold IntMath.fit; rw [if_pos (by omega)]
  obtain ⟨q, hqe⟩ : ∃ q, r * d / randMax = q := ⟨_, rfl⟩
  have e : Int.tdiv ((r * d : Nat) : Int) randMax = (q : Int) := by
    rw [Int.tdiv_eq_ediv_of_nonneg (by omega), ← hqe]; norm_cast
  rw [hqe] at hq
  by_cases hD : hi - lo < 2 ^ 31
  · have f2 : IntMath.fit (-2147483648) 2147483647 (d : Int) = .ok (d : Int) := by unfold IntMath.fit; rw [if_pos (by omega)]
    by_cases hP : (r : Int) * (hi - lo) < 2 ^ (w - 1)
    · have f3 : IntMath.fit (-2 ^ (w - 1)) (2 ^ (w - 1) - 1) ((r : Int) * d) = .ok ((r * d : Nat) : Int) := by
        rw [hd, hprodI] at hP
        unfold IntMath.fit; rw [hprodI, if_pos (by omega)]
      have f5 : IntMath.fit (-2 ^ (w - 1)) (2 ^ (w - 1) - 1) (q : Int) = .ok (q : Int) := by
        unfold IntMath.fit; rw [if_pos (by omega)]
      have f6 : IntMath.fit (-2 ^ (w - 1)) (2 ^ (w - 1) - 1) ((q : Int) + lo) = .ok ((q : Int) + lo) := by
        unfold IntMath.fit; rw [if_pos (by omega)]
      have hval : randomInt w randMax r lo hi = .ok ((q : Int) + lo) := by
        unfold randomInt IntMath.i32
        rw [hd, sub_zero, sub_zero, f1, R.bind_ok, f2, R.bind_ok, f3, R.bind_ok, f4, R.bind_ok, if_neg (by omega), e, f5, R.bind_ok, f6, R.bind_ok]
        congr 1
        unfold IntMath.toI32
        omega
      refine ⟨⟨fun _ => ⟨hD, hP⟩, fun _ => ⟨_, hval⟩⟩, ?_⟩
      intro v hv
      rw [hval] at hv
      cases hv
      refine ⟨?_, by omega, by omega⟩
      rw [hd, ← hqe]
      push_cast
      ring
    · have f3 : IntMath.fit (-2 ^ (w - 1)) (2 ^ (w - 1) - 1) ((r : Int) * d) = .ub := by
        rw [hd] at hP
        unfold IntMath.fit; rw [if_neg (by intro hc; omega)]
      have hval : randomInt w randMax r lo hi = .ub := by
        unfold randomInt IntMath.i32
        rw [hd, sub_zero, f1, R.bind_ok, f2, R.bind_ok, f3, R.bind_ub]
      rw [hval]
      exact ⟨⟨fun ⟨v, hv⟩ => by (cases hv), fun h => absurd h.2 hP⟩, fun v hv => by (cases hv)⟩
  · rw [C132_wide_violated w randMax r lo hi (by omega)]
    exact ⟨⟨fun ⟨v, hv⟩ => by (cases hv), fun h => absurd h.1 hD⟩, fun v hv => by (cases hv)⟩

example := C132_int_exact 32 32767 20000 (by decide) (by decide) (by decide) (by decide) (-50000) 50000 (by decide) (by decide) (by decide)

/-- **C118**, exact domain (exact arithmetic): sin is defined if and only if its argument is above -2·M_PIF/2048 and below 2^21 periods; cos likewise a quarter of a period earlier. -/
theorem C118_domain_exact (x : ℚ) :
    ((∃ v, sin x = .ok v) ↔ -(2 * pif) / 2048 < x ∧ x < 2 ^ 21 * (2 * pif)) ∧
    ((∃ v, cos x = .ok v) ↔ -(2 * pif) / 2048 < x + pif / 2 ∧ x + pif / 2 < 2 ^ 21 * (2 * pif)) := by
  have hp := pif_pos
  have key : ∀ x : ℚ, (∃ v, sin x = .ok v) ↔ -(2 * pif) / 2048 < x ∧ x < 2 ^ 21 * (2 * pif) := by
    intro x
    constructor
    · rintro ⟨v, hv⟩
      constructor
      · by_contra hc
        rw [(C118_negative_violated x (not_lt.mp hc)).1] at hv
        cases hv
      · by_contra hc
        rw [C118_large_violated x (not_lt.mp hc)] at hv
        cases hv
    · rintro ⟨h1, h2⟩
      have g1 : -1 < x / (2 * pif) * 2048 := by
        rw [div_mul_eq_mul_div, lt_div_iff₀ (by positivity)]; linarith
      have g2 : x / (2 * pif) * 2048 < 4294967296 := by
        rw [div_mul_eq_mul_div, div_lt_iff₀ (by positivity)]; linarith
      unfold sin interpWrap interpByIndexWrap Color.trunc
      rw [sin_len, if_pos ⟨by push_cast; exact g1, by push_cast; exact g2⟩, R.bind_ok]
      simp only
      have hlt : ∀ k, wrapIdx 2048 k < 2048 := by
        intro k
        rw [wrapIdx_eq 2048 (by norm_num)]
        exact Nat.mod_lt _ (by norm_num)
      rw [blend_eq _ _ (by rw [sin_len]; exact hlt _)]
      exact ⟨_, rfl⟩
  refine ⟨key x, ?_⟩
  have e : cos x = sin (x + pif / 2) := by
    unfold sin cos
    congr 1
    field_simp
    ring
  rw [e]
  exact key _

example : (∃ v, sin 13000000 = .ok v) ∧ ¬ ∃ v, sin 14000000 = .ok v := by
  rw [(C118_domain_exact _).1, (C118_domain_exact _).1]; unfold pif; norm_num

end MathFns

namespace RgbLed
open Color.Spec Oscs

/-- **C127**, exactly: a flash of `ms` milliseconds is the flash of `1000 / f` milliseconds, `f` being `1000 / ms` rounded down; that is never shorter than asked for, and it is the one asked for if and only if `1000 / ms` is a whole number. -/
theorem C127_flash_exact (rate : Nat) (l : RgbLed) (c : Color) (ms : ℚ) (h0 : 0 < ms) (h1 : ms ≤ 1000) (h2 : 1000 / ms < 2 ^ 32) :
    ∃ f : Nat, 0 < f ∧ (f : ℚ) ≤ 1000 / ms ∧ 1000 / ms < f + 1 ∧ l.flashOnceMs rate c ms = l.flashOnceMs rate c (1000 / f) ∧
      ms ≤ 1000 / f ∧ (1000 / (f : ℚ) = ms ↔ ∃ k : Nat, 1000 / ms = k) := by
  have hge : 1 ≤ 1000 / ms := by rw [le_div_iff₀ h0]; linarith
  have hfl : (⌊1000 / ms⌋₊ : ℚ) ≤ 1000 / ms := Nat.floor_le (by linarith)
  have hfl2 : 1000 / ms < (⌊1000 / ms⌋₊ : ℚ) + 1 := Nat.lt_floor_add_one _
  have hpos : 0 < ⌊1000 / ms⌋₊ := Nat.floor_pos.mpr hge
  obtain ⟨f, hf⟩ : ∃ f, ⌊1000 / ms⌋₊ = f := ⟨_, rfl⟩
  rw [hf] at hfl hfl2 hpos
  have hfq : (0 : ℚ) < f := by exact_mod_cast hpos
  refine ⟨f, hpos, hfl, hfl2, ?_, ?_, ?_⟩
  · have htr : ∀ x : ℚ, (f : ℚ) ≤ x → x < f + 1 → x < 2 ^ 32 → Color.trunc W x = .ok f := by
      intro x a1 a2 a3
      unfold Color.trunc
      have : ⌊x⌋ = (f : ℤ) := by rw [Int.floor_eq_iff]; push_cast; exact ⟨a1, a2⟩
      rw [if_pos ⟨by linarith, by unfold W; push_cast; norm_num at a3 ⊢; exact a3⟩, this]
      simp
    have hq : 1000 / (1000 / (f : ℚ)) = f := by field_simp
    unfold flashOnceMs
    rw [if_neg h0.ne', if_neg (by positivity), htr _ hfl hfl2 h2, hq, htr f le_rfl (by linarith) (by linarith)]
  · rw [le_div_iff₀ hfq]
    rw [le_div_iff₀ h0] at hfl
    linarith
  · constructor
    · intro h
      exact ⟨f, by rw [← h]; field_simp⟩
    · rintro ⟨k, hk⟩
      rw [hk] at hfl hfl2
      have : f = k := by
        have a : f ≤ k := by exact_mod_cast hfl
        have b : k < f + 1 := by exact_mod_cast hfl2
        omega
      rw [this, ← hk]
      field_simp

example (l : RgbLed) := C127_flash_exact 1000 l ⟨1, 2, 3⟩ 300 (by norm_num) (by norm_num) (by norm_num)

end RgbLed

namespace Filter
open Spec

/-- **C99**, exactly: SmoothOversampler gives the average of the last complete block with the sum taken modulo 2^32, for every size and every stream; so it is right if and only if that sum is below 2^32. -/
theorem C99_smooth_exact (size : Nat) (h0 : 0 < size) (xs : List Nat) (hl : size ≤ xs.length) :
    (xs.foldl (Smooth.addVal size) Smooth.init).val = (((lastBlock size xs).sum % 2 ^ 32 : Nat) : ℚ) / size ∧
    ((xs.foldl (Smooth.addVal size) Smooth.init).val = ((lastBlock size xs).sum : ℚ) / size ↔ (lastBlock size xs).sum < 2 ^ 32) := by
  have hv : (xs.foldl (Smooth.addVal size) Smooth.init).val = (((lastBlock size xs).sum % 2 ^ 32 : Nat) : ℚ) / size := by
    unfold Smooth.val
    rw [smooth_sim size xs Smooth.init (0, 0, 0) rfl, block_run size h0]
    simp only
    rw [if_neg (by omega)]
    have := foldl_mod (lastBlock size xs) 0
    rw [Nat.zero_mod, Nat.zero_add, W_val] at this
    rw [W_val, this, show (2 : Nat) ^ 32 = 4294967296 by norm_num]
  refine ⟨hv, ?_⟩
  rw [hv]
  have hs : (size : ℚ) ≠ 0 := by positivity
  rw [div_left_inj' hs]
  constructor
  · intro h
    have h' : (lastBlock size xs).sum % 2 ^ 32 = (lastBlock size xs).sum := by exact_mod_cast h
    rw [← h']
    exact Nat.mod_lt _ (by norm_num)
  · intro h
    rw [Nat.mod_eq_of_lt h]

example := C99_smooth_exact 3 (by decide) [2 ^ 31 - 1, 2 ^ 31 - 1, 2 ^ 31 - 1, 5] (by decide)

end Filter

namespace WrapInt
open ParamsInt FilterInt

/-- **C177**, exactly: `wrap<Max, T>` in any integer type of at most 32 bits, Max within the positive half of the type: it ends with the remainder of the value reduced modulo `2^w`; so it gives the remainder of the value itself if and only if the value is not negative or
Max divides `2^w`. -/
theorem C177_wrap_max_exact (t : Ty) (hw : 0 < t.w ∧ t.w ≤ 32) (max : Nat) (hm : 0 < max) (hmx : (max : Int) ≤ 2 ^ (t.w - 1)) (val : Int) (hv : InTy t val) :
    (∃ fuel, ∀ f, fuel ≤ f → wrapMax t max f val = some (val % 2 ^ t.w % max)) ∧
    (val % 2 ^ t.w % max = val % max ↔ 0 ≤ val ∨ (max : Int) ∣ 2 ^ t.w) := by
  have hpw : (2 : Int) ^ t.w = 2 * 2 ^ (t.w - 1) := by
    rw [← pow_succ']; congr 1; omega
  have hpos : (0 : Int) < 2 ^ (t.w - 1) := by positivity
  have h32 : (2 : Int) ^ t.w ≤ 4294967296 := by
    have : (2 : Int) ^ t.w ≤ 2 ^ 32 := pow_le_pow_right₀ (by norm_num) hw.2
    norm_num at this ⊢; exact this
  have key : ∀ (n : Nat) (v : Int), InTy t v → v < 0 → v + 2 ^ (t.w - 1) < n → ∃ fuel, ∀ f, fuel ≤ f → wrapMax t max f v = some (v % 2 ^ t.w % max) := by
    intro n
    induction n with
    | zero =>
      intro v hv h0 hn
      unfold InTy at hv
      push_cast at hn
      split at hv <;> omega
    | succ n ih =>
      intro v hv h0 hn
      have hs : t.signed = true := by
        by_contra hc
        unfold InTy at hv
        rw [if_neg hc] at hv
        omega
      have hb : -2 ^ (t.w - 1) ≤ v := by unfold InTy at hv; rw [if_pos hs] at hv; omega
      have hge : v % 4294967296 ≥ max := by
        have : v % 4294967296 = v + 4294967296 := by omega
        rw [this]; omega
      by_cases hc : -2 ^ (t.w - 1) ≤ v - max
      · have hin : InTy t (v - max) := by unfold InTy; rw [if_pos hs]; omega
        obtain ⟨fuel, hf⟩ := ih (v - max) hin (by omega) (by push_cast at hn; omega)
        refine ⟨fuel + 1, ?_⟩
        intro f hle
        obtain ⟨g, rfl⟩ : ∃ g, f = g + 1 := ⟨f - 1, by omega⟩
        rw [wrapMax, if_pos hge, conv_id hw.1 hin, hf g (by omega)]
        have e1 : v % 2 ^ t.w = v + 2 ^ t.w := by rw [← Int.add_emod_right, Int.emod_eq_of_lt] <;> omega
        have e2 : (v - max) % 2 ^ t.w = v - max + 2 ^ t.w := by rw [← Int.add_emod_right, Int.emod_eq_of_lt] <;> omega
        rw [e1, e2, show v - max + 2 ^ t.w = v + 2 ^ t.w - max by ring, Int.sub_emod_right]
      · have e0 : conv t (v - max) = v - max + 2 ^ t.w := by
          unfold conv
          rw [if_pos hs, ← Int.add_emod_right, Int.emod_eq_of_lt] <;> omega
        have hin : InTy t (v - max + 2 ^ t.w) := by unfold InTy; rw [if_pos hs]; omega
        obtain ⟨fuel, hf⟩ := C177_wrap_max_partial t hw max hm (v - max + 2 ^ t.w) hin (by omega)
        refine ⟨fuel + 1, ?_⟩
        intro f hle
        obtain ⟨g, rfl⟩ : ∃ g, f = g + 1 := ⟨f - 1, by omega⟩
        rw [wrapMax, if_pos hge, e0, hf g (by omega)]
        have e1 : v % 2 ^ t.w = v + 2 ^ t.w := by rw [← Int.add_emod_right, Int.emod_eq_of_lt] <;> omega
        rw [e1, show v - max + 2 ^ t.w = v + 2 ^ t.w - max by ring, Int.sub_emod_right]
  constructor
  · by_cases h0 : 0 ≤ val
    · have : val % 2 ^ t.w = val := by
        apply Int.emod_eq_of_lt h0
        unfold InTy at hv
        split at hv <;> omega
      rw [this]
      exact C177_wrap_max_partial t hw max hm val hv h0
    · exact key ((val + 2 ^ (t.w - 1)).toNat + 1) val hv (by omega) (by omega)
  · by_cases h0 : 0 ≤ val
    · have : val % 2 ^ t.w = val := by
        apply Int.emod_eq_of_lt h0
        unfold InTy at hv
        split at hv <;> omega
      rw [this]
      simp [h0]
    · have hb : -2 ^ (t.w - 1) ≤ val := by
        unfold InTy at hv
        split at hv <;> omega
      have e1 : val % 2 ^ t.w = val + 2 ^ t.w := by rw [← Int.add_emod_right, Int.emod_eq_of_lt] <;> omega
      rw [e1]
      constructor
      · intro h
        right
        have := Int.emod_emod_of_dvd
        have h2 := (Int.emod_eq_emod_iff_emod_sub_eq_zero).mp h
        rw [show val + 2 ^ t.w - val = 2 ^ t.w by ring] at h2
        exact Int.dvd_of_emod_eq_zero h2
      · rintro (h | ⟨k, hk⟩)
        · exact absurd h h0
        · rw [hk, Int.add_mul_emod_self_left]

example := C177_wrap_max_exact ⟨8, true⟩ (by decide) 12 (by decide) (by decide) (-1) (by decide)

end WrapInt

namespace Strings
open Spec

/-- **C142**, exact condition: where `char` is signed, contains_word is defined for exactly the names and words without a byte from 128 to 254, and then finds the word. -/
theorem C142_defined_exact (name word : List Nat) (hb : ∀ c ∈ name ++ word, c < 256) :
    ((∃ b, containsWordC true name word = .ok b) ↔ ∀ c ∈ name ++ word, c < 128 ∨ c = 255) ∧
    ∀ b, containsWordC true name word = .ok b → (b = true ↔ HasWord name word) := by
  by_cases h : ∀ c ∈ name ++ word, c < 128 ∨ c = 255
  · have hv : containsWordC true name word = .ok (containsWord name word) := by
      unfold containsWordC containsWord
      rw [lowerAll_eq true name (Or.inr fun x hx => by have := h x (by simp [hx]); omega), lowerAll_eq true word (Or.inr fun x hx => by have := h x (by simp [hx]); omega)]
      simp only [R.bind_ok]
      split
      · rfl
      · split
        · rfl
        · split
          · rfl
          · split <;> rfl
    refine ⟨⟨fun _ => h, fun _ => ⟨_, hv⟩⟩, ?_⟩
    intro b hb'
    rw [hv] at hb'
    cases hb'
    exact C60_contains_word name word
  · have hex : ∃ c ∈ name ++ word, 128 ≤ c ∧ c < 255 := by
      push Not at h
      obtain ⟨c, hc, h1, h2⟩ := h
      exact ⟨c, hc, h1, by have := hb c hc; omega⟩
    rw [C142_signed_violated name word hex]
    exact ⟨⟨fun ⟨b, hb'⟩ => by (cases hb'), fun h' => absurd h' h⟩, fun b hb' => by (cases hb')⟩

example := C142_defined_exact [67, 104, 97, 110, 32, 255] [99] (by decide)

end Strings

namespace IntMath
open Spec

/-- **C79**, exact condition: for a 64-bit value, next_power_of_2 gives the least power of two that is at least the value (if there is one) if and only if the value is below 2^32, or neither it nor its low half is a power of two. -/
theorem C79_next64_exact (v : Nat) (hv : v < 2 ^ 64) :
    ((∃ r, r < 2 ^ 64 ∧ LeastPow2 v r ∧ nextPowerOf2 64 v = r) ∨ ((∀ r, LeastPow2 v r → ¬ r < 2 ^ 64) ∧ nextPowerOf2 64 v = 0)) ↔
      v < 2 ^ 32 ∨ (¬ IsPow2 v ∧ ¬ IsPow2 (v % 2 ^ 32)) := by
  constructor
  · intro h
    by_contra hc
    have hge : 2 ^ 32 ≤ v := by omega
    have hc2 : IsPow2 v ∨ IsPow2 (v % 2 ^ 32) := by tauto
    have hself : ∀ v, IsPow2 v → LeastPow2 v v := fun v hp => ⟨hp, Nat.le_refl _, fun p _ h => h⟩
    have huniq : ∀ v r s, LeastPow2 v r → LeastPow2 v s → r = s := fun v r s h1 h2 => Nat.le_antisymm (h1.2.2 s h2.1 h2.2.1) (h2.2.2 r h1.1 h1.2.1)
    rcases hc2 with ⟨k, rfl⟩ | ⟨j, hj⟩
    · have hk : 32 ≤ k := by
        by_contra hk
        have := Nat.pow_lt_pow_right (show 1 < 2 by omega) (show k < 32 by omega)
        omega
      have hk2 : k < 64 := (Nat.pow_lt_pow_iff_right (by omega)).mp hv
      rcases h with ⟨r, h1, h2, h3⟩ | ⟨h1, h2⟩
      · rw [huniq _ _ _ h2 (hself _ ⟨k, rfl⟩)] at h3
        by_cases hk3 : k < 63
        · rw [(C79_pow2_violated k hk hk3).1, Nat.pow_succ] at h3
          have := Nat.two_pow_pos k
          omega
        · have : k = 63 := by omega
          subst this
          revert h3
          decide +kernel
      · exact h1 _ (hself _ ⟨k, rfl⟩) hv
    · have hj2 : j < 32 := (Nat.pow_lt_pow_iff_right (show 1 < 2 by omega)).mp (hj ▸ Nat.mod_lt _ (by norm_num))
      have hdm := Nat.div_add_mod v (2 ^ 32)
      have hv' : v = (v / 2 ^ 32) * 2 ^ 32 + 2 ^ j := by rw [← hj]; omega
      obtain ⟨a1, a2⟩ := C79_low_violated j (v / 2 ^ 32) hj2 (by omega)
      rw [← hv'] at a1 a2
      rcases h with ⟨r, h1, h2, h3⟩ | ⟨h1, h2⟩
      · rw [a1] at h3
        rw [← h3] at h2
        exact a2 h2.1
      · rw [a1] at h2; omega
  · exact C79_next64_partial v hv

example := C79_next64_exact (2 ^ 40 + 5) (by decide)

end IntMath

namespace SequentialMap
variable {K V : Type} [DecidableEq K]

/-- **C27**, exactly: a successful insert stores the key beside the value its slot already held; the value given is ignored. -/
theorem C27_insert_exact (s : St K V) (h : Ok s) (e : K × V) (hc : contains s e.1 = false) (hf : isFull s = false) :
    ∃ s' old, s.data[size s]? = some old ∧ insert s e = .ok (s', size s, true) ∧
      FixedVector.toList s' = FixedVector.toList s ++ [(e.1, old.2)] ∧ ∀ v, insert s (e.1, v) = insert s e := by
  have hs := search_eq e.1 (FixedVector.toList s) 0
  have hcn : ¬ e.1 ∈ (FixedVector.toList s).map (·.1) := by
    rw [← Bool.not_eq_true] at hc
    simpa [contains] using hc
  have hfv := h.fv
  have hlen : (FixedVector.toList s).length = s.back := by rw [hfv.back]
  have hle : s.back ≤ s.data.length := h
  rw [if_neg hcn] at hs
  have hf : ¬ s.back = s.data.length := of_decide_eq_false hf
  have hlt : s.back < s.data.length := by omega
  have h1 : ¬ s.data.length ≤ s.back := by omega
  refine ⟨⟨s.data.set s.back (e.1, s.data[s.back].2), s.back + 1⟩, s.data[s.back], ?_, ?_, ?_, ?_⟩
  · simp [size, FixedVector.size, List.getElem?_eq_getElem hlt]
  · simp [insert, hs, FixedVector.pushBackForOverwrite, FixedVector.maxSize, h1, hf, size, FixedVector.size, arrGet_lt hlt, arrSet_lt hlt]
  · have := fv_append hfv (e.1, s.data[s.back].2) (by omega)
    rw [hlen] at this
    exact this.toList
  · intro v; rfl

example := C27_insert_exact (⟨[(1, 10), (2, 20), (0, 0)], 2⟩ : St Nat Nat) (by unfold Ok; decide) (5, 50) (by decide) (by decide)

/-- **C121**, exactly: reading a new key while there is room yields the value its slot already held. -/
theorem C121_new_key_exact (s : St K V) (h : Ok s) (k : K) (hk : contains s k = false) (hf : isFull s = false) :
    ∃ s' old, s.data[size s]? = some old ∧ read s k = .ok (s', old.2) ∧ FixedVector.toList s' = FixedVector.toList s ++ [(k, old.2)] := by
  have hs := search_eq k (FixedVector.toList s) 0
  have hcn : ¬ k ∈ (FixedVector.toList s).map (·.1) := by
    rw [← Bool.not_eq_true] at hk
    simpa [contains] using hk
  have hfv := h.fv
  have hlen : (FixedVector.toList s).length = s.back := by rw [hfv.back]
  have hle : s.back ≤ s.data.length := h
  rw [if_neg hcn] at hs
  have hf : ¬ s.back = s.data.length := of_decide_eq_false hf
  have hlt : s.back < s.data.length := by omega
  have h1 : ¬ s.data.length ≤ s.back := by omega
  refine ⟨⟨s.data.set s.back (k, s.data[s.back].2), s.back + 1⟩, s.data[s.back], ?_, ?_, ?_⟩
  · simp [size, FixedVector.size, List.getElem?_eq_getElem hlt]
  · have hlt2 : s.back < (s.data.set s.back (k, s.data[s.back].2)).length := by simpa using hlt
    simp [read, index, hs, FixedVector.pushBackForOverwrite, FixedVector.maxSize, h1, hf, arrGet_lt hlt, arrSet_lt hlt, arrGet_lt hlt2]
  · have := fv_append hfv (k, s.data[s.back].2) (by omega)
    rw [hlen] at this
    exact this.toList

example := C121_new_key_exact (⟨[(1, 10), (2, 20), (7, 70)], 2⟩ : St Nat Nat) (by unfold Ok; decide) 5 (by decide) (by decide)

end SequentialMap

namespace Peak
open Params.Spec
variable {α : Type} [LinearOrder α]

/-- **C107**, exact condition: PeakMeter reports the extremes of what it was given if and only if some value is at least `numeric_limits<T>::min()` (the smallest *positive* number for floats) and some value is at most `numeric_limits<T>::max()`. -/
theorem C107_extremes_exact (limMin limMax : α) (xs : List α) (p : Peak α) (hp : p = xs.foldl update (init limMin limMax)) :
    Extremes p.min p.max xs ↔ (∃ x ∈ xs, limMin ≤ x) ∧ ∃ x ∈ xs, x ≤ limMax := by
  constructor
  · intro h
    rw [hp, foldl_eq] at h
    unfold init at h
    simp only at h
    obtain ⟨a1, a2, a3⟩ := foldl_min xs limMax
    obtain ⟨b1, b2, b3⟩ := foldl_max xs limMin
    exact ⟨⟨_, h.2.1, b2⟩, ⟨_, h.1.1, a2⟩⟩
  · rintro ⟨h1, h2⟩
    exact C107_extremes_partial limMin limMax xs h1 h2 p hp

example := C107_extremes_exact (-5 : Int) 5 [1, 2] _ rfl

end Peak

namespace CircAccess

/-- **C14**, exact condition: an integer written at full phase is stored unchanged if and only if it is a binary32 number. -/
theorem C14_write_int_exact (rnd : ℚ → ℚ) (hr : Flt.Nearest rnd) (d old : Int) : mixInt rnd 1 d old = d ↔ Flt.F32 d := by
  have h0 : rnd 0 = 0 := hr.fix Flt.f32_zero
  have hfix : rnd (rnd d) = rnd d := hr.fix (hr.f32 _)
  have hm : mixF rnd 1 (rnd d) (rnd old) = rnd d := by simp [mixF, h0, hfix]
  unfold mixInt
  simp only [hm]
  constructor
  · intro h
    by_cases hs : |d| < 2 ^ 24
    · exact Flt.f32_int d hs
    · have hbig : (2 : ℚ) ^ ((0 : ℤ) + 23) ≤ |rnd d| := by
        have hd : (2 : ℚ) ^ 24 ≤ |(d : ℚ)| := by exact_mod_cast (not_lt.mp hs)
        have h23 : (2 : ℚ) ^ ((0 : ℤ) + 23) ≤ 2 ^ 24 := by norm_num
        rcases le_abs.mp hd with h' | h'
        · exact (h23.trans (hr.ge (Flt.f32_pow2 24) h')).trans (le_abs_self _)
        · have := hr.le (x := (d : ℚ)) (Flt.f32_neg (Flt.f32_pow2 24)) (by linarith)
          exact (h23.trans (by linarith)).trans (neg_le_abs _)
      obtain ⟨n, hn⟩ := Flt.f32_multiple (hr.f32 d) 0 hbig
      rw [zpow_zero, mul_one] at hn
      rw [hn] at h
      have : n = d := by
        split at h
        · rwa [Int.floor_intCast] at h
        · rwa [Int.ceil_intCast] at h
      rw [← this, ← hn]
      exact hr.f32 _
  · intro h
    rw [hr.fix h]
    split
    · exact Int.floor_intCast d
    · exact Int.ceil_intCast d

example (rnd : ℚ → ℚ) (hr : Flt.Nearest rnd) : mixInt rnd 1 (-16777215) 5 = -16777215 := (C14_write_int_exact rnd hr _ _).mpr (Flt.f32_int _ (by norm_num))

end CircAccess

namespace Alloc
open Spec

/-- **C41**, exact condition: the block AlignedAllocator asks for covers the `n * sizeof(T)` bytes if and only if that count plus `Alignment - 1` is representable. -/
theorem C41_aligned_allocator_exact (w align sizeT n : Nat) (ha : 0 < align) (ha2 : align ≤ 2 ^ w) (hn : 0 < n) (hs : 0 < sizeT) :
    ∃ r, alignedRequest w align sizeT n = .ok (some r) ∧ (n * sizeT ≤ r ↔ n * sizeT + (align - 1) < 2 ^ w) := by
  by_cases h : n * sizeT + (align - 1) < 2 ^ w
  · obtain ⟨r, h1, h2⟩ := C41_aligned_allocator_partial w align sizeT n ha hn h
    exact ⟨r, h1, by simp only [h, iff_true]; exact h2.2.1⟩
  · have hS : 0 < n * sizeT := Nat.mul_pos hn hs
    have hpow := Nat.two_pow_pos w
    refine ⟨_, by unfold alignedRequest; rw [if_neg (by omega), if_neg (by omega)], ?_⟩
    simp only [h, iff_false]
    by_cases hb : n * sizeT < 2 ^ w
    · rw [Nat.mod_eq_of_lt hb]
      have : (n * sizeT + align + 2 ^ w - 1) % 2 ^ w = n * sizeT + align - 1 - 2 ^ w := by
        rw [show n * sizeT + align + 2 ^ w - 1 = (n * sizeT + align - 1 - 2 ^ w) + 2 ^ w + 2 ^ w by omega, Nat.add_mod_right, Nat.add_mod_right]
        exact Nat.mod_eq_of_lt (by omega)
      rw [this, Nat.div_eq_of_lt (by omega)]
      simp
      omega
    · have := Nat.mod_lt (((n * sizeT) % 2 ^ w + align + 2 ^ w - 1) % 2 ^ w / align * align) hpow
      omega

example := C41_aligned_allocator_exact 32 64 8 (2 ^ 29 + 1) (by decide) (by decide) (by decide) (by decide)

end Alloc
