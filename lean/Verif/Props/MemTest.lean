import Verif.Model.MemTest
import Mathlib.Tactic.Ring
import Mathlib.Tactic.Linarith
import Mathlib.Logic.Function.Iterate
import Mathlib.Data.Int.ModEq
/-! # Property C108: the memory test -/

namespace MemTest

/-! ## The test pattern has full period -/

/-- 1 + a + ... + a^(d-1). -/
def geo (a : Nat) : Nat → Nat
  | 0 => 0
  | d + 1 => geo a d + a ^ d

theorem geo_double (a d : Nat) : geo a (2 * d) = geo a d * (1 + a ^ d) := by
  have key : ∀ e, geo a (d + e) = geo a d + a ^ d * geo a e := by
    intro e
    induction e with
    | zero => simp [geo]
    | succ e ih => rw [← Nat.add_assoc, geo, ih, geo, pow_add]; ring
  rw [show 2 * d = d + d by omega, key]; ring

theorem pow_mod4 (a : Nat) (ha : a % 4 = 1) (d : Nat) : a ^ d % 4 = 1 := by
  rw [Nat.pow_mod, ha, Nat.one_pow]

theorem geo_mod2 (a : Nat) (ha : a % 4 = 1) (d : Nat) : geo a d % 2 = d % 2 := by
  induction d with
  | zero => rfl
  | succ d ih =>
    rw [geo]
    have := pow_mod4 a ha d
    omega

/-- For a ≡ 1 mod 4 the geometric sum is divisible by no higher power of 2 than its number of terms. -/
theorem geo_dvd (a : Nat) (ha : a % 4 = 1) (k : Nat) : ∀ d, 2 ^ k ∣ geo a d → 2 ^ k ∣ d := by
  induction k with
  | zero => intro d _; simp
  | succ k ih =>
    intro d h
    have h2 : geo a d % 2 = 0 := by
      obtain ⟨q, hq⟩ := h
      rw [hq, pow_succ, Nat.mul_assoc, Nat.mul_left_comm]; omega
    rw [geo_mod2 a ha] at h2
    obtain ⟨e, he⟩ : ∃ e, d = 2 * e := ⟨d / 2, by omega⟩
    subst he
    rw [geo_double] at h
    have h4 := pow_mod4 a ha e
    obtain ⟨o, ho⟩ : ∃ o, 1 + a ^ e = 2 * (2 * o + 1) := ⟨(1 + a ^ e) / 4, by omega⟩
    rw [ho, pow_succ, ← Nat.mul_assoc, Nat.mul_comm (geo a e) 2, Nat.mul_assoc, Nat.mul_comm (2 ^ k) 2] at h
    have h5 := Nat.dvd_of_mul_dvd_mul_left (by decide) h
    have hcop : Nat.Coprime (2 ^ k) (2 * o + 1) := by
      apply Nat.Coprime.pow_left
      rw [Nat.coprime_comm]
      rw [Nat.mul_comm 2 o]; exact (Nat.coprime_mul_right_add_left 1 2 o).mpr (by decide)
    have h6 := ih e (Nat.Coprime.dvd_of_dvd_mul_right hcop h5)
    rw [pow_succ, Nat.mul_comm]
    exact Nat.mul_dvd_mul_left 2 h6

/-- The multiplier and increment of the pattern. -/
theorem encode_mod (x : Nat) : encode x ≡ x * 1431655765 + 7341831 [MOD 2 ^ 32] := Nat.mod_modEq _ _

theorem iter_formula (d : Nat) (x : Nat) : encode^[d] x ≡ x + geo 1431655765 d * (1431655764 * x + 7341831) [MOD 2 ^ 32] := by
  induction d with
  | zero => simp [geo]; rfl
  | succ d ih =>
    rw [Function.iterate_succ_apply']
    refine (encode_mod _).trans ?_
    refine ((ih.mul_right 1431655765).add_right 7341831).trans ?_
    have hg : ∀ d, 1431655764 * geo 1431655765 d + 1 = 1431655765 ^ d := by
      intro d
      induction d with
      | zero => rfl
      | succ d ih => rw [geo, pow_succ]; linarith
    have : (x + geo 1431655765 d * (1431655764 * x + 7341831)) * 1431655765 + 7341831 = x + geo 1431655765 (d + 1) * (1431655764 * x + 7341831) := by
      rw [geo, ← hg d]; ring
    rw [this]

theorem iter_lt (d x : Nat) (hx : x < 2 ^ 32) : encode^[d] x < 2 ^ 32 := by
  cases d with
  | zero => exact hx
  | succ d => rw [Function.iterate_succ_apply']; exact Nat.mod_lt _ (by norm_num)

/-- The pattern returns to a value only after a multiple of 2^32 steps. -/
theorem period (x : Nat) (d : Nat) (h : encode^[d] x ≡ x [MOD 2 ^ 32]) : 2 ^ 32 ∣ d := by
  have h1 := (iter_formula d x).symm.trans h
  have h2 : 2 ^ 32 ∣ geo 1431655765 d * (1431655764 * x + 7341831) := by
    have := (Nat.modEq_iff_dvd' (Nat.le_add_right x _)).mp h1.symm
    rwa [Nat.add_sub_cancel_left] at this
  have hcop : Nat.Coprime (2 ^ 32) (1431655764 * x + 7341831) := by
    apply Nat.Coprime.pow_left
    rw [show 1431655764 * x + 7341831 = (715827882 * x + 3670915) * 2 + 1 by ring]
    exact (Nat.coprime_mul_right_add_right 2 1 _).mpr (by decide)
  exact geo_dvd 1431655765 (by decide) 32 d (Nat.Coprime.dvd_of_dvd_mul_right hcop h2)

/-- The word written at index i. -/
def word (i : Nat) : Nat := encode^[i] seed0

/-- **C108** (test pattern): the first 2^32 words of the pattern are all different. -/
theorem C108_pattern_distinct (i j : Nat) (hij : i < j) (hj : j - i < 2 ^ 32) : word i ≠ word j := by
  intro h
  unfold word at h
  obtain ⟨d, rfl⟩ : ∃ d, j = d + i := ⟨j - i, by omega⟩
  rw [Function.iterate_add_apply] at h
  have h1 : encode^[d] (encode^[i] seed0) ≡ encode^[i] seed0 [MOD 2 ^ 32] := by rw [← h]
  have h2 := period _ d h1
  have := Nat.le_of_dvd (by omega) h2
  omega

example := C108_pattern_distinct 3 1000000 (by norm_num) (by norm_num)

/-! ## The two passes -/

/-- The addresses tested: start, start + 4, ... below stop. -/
def Tested (start stop a : Nat) (i : Nat) : Prop := a = start + 4 * i ∧ a < stop

theorem word_succ (i : Nat) : word (i + 1) = encode (word i) := by unfold word; rw [Function.iterate_succ_apply']

/-- The read pass is true iff every word reads as the pattern. -/
theorem readPass_iff (m : Mem σ) (s : σ) (stop : Nat) (a i : Nat) :
    readPass m s a stop (word i) = true ↔ ∀ k, a + 4 * k < stop → m.rd s (a + 4 * k) = word (i + k) := by
  by_cases h : a < stop
  · rw [readPass, if_pos h]
    have ih := readPass_iff m s stop (a + 4) (i + 1)
    rw [word_succ] at ih
    constructor
    · intro hr k hk
      split at hr
      · cases hr
      · next he =>
        cases k with
        | zero => simpa using not_not.mp he
        | succ k =>
          have := ih.mp hr k (by omega)
          rwa [show a + 4 + 4 * k = a + 4 * (k + 1) by ring, show i + 1 + k = i + (k + 1) by omega] at this
    · intro hall
      have h0 := hall 0 (by omega)
      simp only [Nat.mul_zero, Nat.add_zero] at h0
      rw [if_neg (not_not.mpr h0)]
      apply ih.mpr
      intro k hk
      have := hall (k + 1) (by omega)
      rwa [show a + 4 + 4 * k = a + 4 * (k + 1) by ring, show i + 1 + k = i + (k + 1) by omega]
  · rw [readPass, if_neg h]
    simp only [true_iff]
    intro k hk; omega
  termination_by stop - a

/-- **C108**: check is true exactly if, after writing the pattern to all words of the range, every word reads back as written. -/
theorem C108_check_iff (m : Mem σ) (s : σ) (start stop : Nat) :
    check m s start stop = true ↔ ∀ i, start + 4 * i < stop → m.rd (writePass m s start stop seed0) (start + 4 * i) = word i := by
  unfold check
  have := readPass_iff m (writePass m s start stop seed0) stop start 0
  rw [show word 0 = seed0 from rfl] at this
  rw [this]
  simp only [Nat.zero_add]

/-- Memory in which addresses are mapped to storage locations by `loc` (the identity for good memory; not injective if some address lines do not work). -/
def mapped {L : Type} [DecidableEq L] (loc : Nat → L) : Mem (L → Nat) where
  wr s a v := fun l => if l = loc a then v else s l
  rd s a := s (loc a)

/-- After the write pass, a location holds the last word written to it. -/
theorem writePass_mapped {L : Type} [DecidableEq L] (loc : Nat → L) (stop : Nat) (s : L → Nat) (a i : Nat) (l : L) :
    ((∀ k, a + 4 * k < stop → loc (a + 4 * k) ≠ l) → writePass (mapped loc) s a stop (word i) l = s l) ∧
    (∀ k, a + 4 * k < stop → loc (a + 4 * k) = l → (∀ j, k < j → a + 4 * j < stop → loc (a + 4 * j) ≠ l) → writePass (mapped loc) s a stop (word i) l = word (i + k)) := by
  by_cases h : a < stop
  · have ih := writePass_mapped loc stop ((mapped loc).wr s a (word i)) (a + 4) (i + 1) l
    rw [word_succ] at ih
    rw [writePass, if_pos h]
    constructor
    · intro hno
      rw [ih.1 (fun k hk => by have := hno (k + 1) (by omega); rwa [show a + 4 * (k + 1) = a + 4 + 4 * k by ring] at this)]
      have h0 := hno 0 (by omega)
      simp only [Nat.mul_zero, Nat.add_zero] at h0
      unfold mapped
      simp only
      rw [if_neg (Ne.symm h0)]
    · intro k hk hl hlast
      cases k with
      | zero =>
        simp only [Nat.mul_zero, Nat.add_zero] at hl
        rw [ih.1 (fun k hk => by have := hlast (k + 1) (by omega) (by omega); rwa [show a + 4 * (k + 1) = a + 4 + 4 * k by ring] at this)]
        unfold mapped
        simp [hl]
      | succ k =>
        have e : a + 4 * (k + 1) = a + 4 + 4 * k := by ring
        rw [e] at hk hl
        have := ih.2 k hk hl (fun j hj hjs => by have := hlast (j + 1) (by omega) (by omega); rwa [show a + 4 * (j + 1) = a + 4 + 4 * j by ring] at this)
        rw [this, show i + 1 + k = i + (k + 1) by omega]
  · rw [writePass, if_neg h]
    exact ⟨fun _ => rfl, fun k hk => by omega⟩
  termination_by stop - a

/-- **C108**: on working memory (different words of the range in different locations) check returns true, for every range. -/
theorem C108_good {L : Type} [DecidableEq L] (loc : Nat → L) (s : L → Nat) (start stop : Nat) (hinj : ∀ i j, start + 4 * i < stop → start + 4 * j < stop → loc (start + 4 * i) = loc (start + 4 * j) → i = j) :
    check (mapped loc) s start stop = true := by
  rw [C108_check_iff]
  intro i hi
  have := (writePass_mapped loc stop s start 0 (loc (start + 4 * i))).2 i hi rfl (fun j hj hjs he => by have := hinj j i hjs hi he; omega)
  rw [show word 0 = seed0 from rfl, Nat.zero_add] at this
  exact this

example := C108_good (fun a => a / 4) (fun _ => 7) 4096 8192 (by intro i j _ _ h; omega)

/-- **C108**: if any two different words of the range share storage, check returns false (ranges of up to 2^32 words). -/
theorem C108_alias {L : Type} [DecidableEq L] (loc : Nat → L) (s : L → Nat) (start stop : Nat) (i j : Nat) (hij : i < j) (hj : start + 4 * j < stop) (hlen : stop ≤ start + 4 * 2 ^ 32)
    (hal : loc (start + 4 * i) = loc (start + 4 * j)) : check (mapped loc) s start stop = false := by
  rw [← Bool.not_eq_true, C108_check_iff]
  intro hall
  -- the last word in the same location
  have hex : ∃ k, j ≤ k ∧ start + 4 * k < stop ∧ loc (start + 4 * k) = loc (start + 4 * j) ∧ ∀ n, k < n → start + 4 * n < stop → loc (start + 4 * n) ≠ loc (start + 4 * j) := by
    have gen : ∀ f k, stop - k ≤ f → j ≤ k → start + 4 * k < stop → loc (start + 4 * k) = loc (start + 4 * j) →
        ∃ k, j ≤ k ∧ start + 4 * k < stop ∧ loc (start + 4 * k) = loc (start + 4 * j) ∧ ∀ n, k < n → start + 4 * n < stop → loc (start + 4 * n) ≠ loc (start + 4 * j) := by
      intro f
      induction f with
      | zero => intro k h1 _ h3 _; omega
      | succ f ih =>
        intro k h1 h2 h3 h4
        by_cases hn : ∃ n, k < n ∧ start + 4 * n < stop ∧ loc (start + 4 * n) = loc (start + 4 * j)
        · obtain ⟨n, n1, n2, n3⟩ := hn
          exact ih n (by omega) (by omega) n2 n3
        · refine ⟨k, h2, h3, h4, fun n n1 n2 n3 => hn ⟨n, n1, n2, n3⟩⟩
    exact gen stop j (by omega) (le_refl _) hj rfl
  obtain ⟨k, k1, k2, k3, k4⟩ := hex
  have hw := (writePass_mapped loc stop s start 0 (loc (start + 4 * j))).2 k k2 k3 k4
  rw [show word 0 = seed0 from rfl, Nat.zero_add] at hw
  have hr := hall i (by omega)
  have : (mapped loc).rd (writePass (mapped loc) s start stop seed0) (start + 4 * i) = word k := by
    show writePass (mapped loc) s start stop seed0 (loc (start + 4 * i)) = word k
    rw [hal]; exact hw
  rw [this] at hr
  norm_num at hlen
  exact C108_pattern_distinct i k (by omega) (by norm_num; omega) hr.symm

example := C108_alias (fun a => a % 1024) (fun _ => 7) 4096 8192 1 257 (by decide) (by decide) (by decide) (by decide)

/-- The write pass only depends on how memory is written. -/
theorem writePass_congr {σ : Type} (m m' : Mem σ) (h : m.wr = m'.wr) (s : σ) (a stop seed : Nat) : writePass m s a stop seed = writePass m' s a stop seed := by
  by_cases hs : a < stop
  · have ih := writePass_congr m m' h (m.wr s a seed) (a + 4) stop (encode seed)
    rw [writePass, if_pos hs, ih, writePass.eq_def m' s, if_pos hs, h]
  · rw [writePass, if_neg hs, writePass.eq_def m', if_neg hs]
  termination_by stop - a

/-- **C108**: if some word of the range reads back different from what was written, check returns false: here the word at address `bad` is corrupted on reading by a function without fixed points. -/
theorem C108_bad_word {L : Type} [DecidableEq L] (loc : Nat → L) (s : L → Nat) (start stop : Nat) (bad : Nat) (corrupt : Nat → Nat) (hc : ∀ v, corrupt v ≠ v)
    (hinj : ∀ i j, start + 4 * i < stop → start + 4 * j < stop → loc (start + 4 * i) = loc (start + 4 * j) → i = j) (i : Nat) (hi : start + 4 * i < stop) (hb : bad = start + 4 * i) :
    check { mapped loc with rd := fun s a => if a = bad then corrupt (s (loc a)) else s (loc a) } s start stop = false := by
  rw [← Bool.not_eq_true, C108_check_iff]
  intro hall
  have hr := hall i hi
  simp only [hb, if_true] at hr
  have hg := (C108_check_iff (mapped loc) s start stop).mp (C108_good loc s start stop hinj) i hi
  have same := writePass_congr { mapped loc with rd := fun s a => if a = start + 4 * i then corrupt (s (loc a)) else s (loc a) } (mapped loc) rfl s start stop seed0
  rw [same] at hr
  have hg' : writePass (mapped loc) s start stop seed0 (loc (start + 4 * i)) = word i := hg
  rw [hg'] at hr
  exact hc _ hr

/-- **C108** (address version): false for an inverted range, otherwise as the pointer version; an empty range is true. -/
theorem C108_addresses (m : Mem σ) (s : σ) (start stop : Nat) : (stop < start → checkAddr m s start stop = false) ∧ (start ≤ stop → checkAddr m s start stop = check m s start stop) ∧ checkAddr m s start start = true := by
  unfold checkAddr
  refine ⟨fun h => by rw [if_pos h], fun h => by rw [if_neg (by omega)], ?_⟩
  rw [if_neg (by omega), C108_check_iff]
  intro i hi; omega

/-- Only writes inside the range are made: other locations keep their contents. -/
theorem C108_frame {L : Type} [DecidableEq L] (loc : Nat → L) (s : L → Nat) (start stop : Nat) (l : L) (h : ∀ i, start + 4 * i < stop → loc (start + 4 * i) ≠ l) :
    writePass (mapped loc) s start stop seed0 l = s l := (writePass_mapped loc stop s start 0 l).1 h

/-- A memory of 4 words whose address line 3 (value 8) does not work fails, a good one passes. -/
example : check (mapped fun a => a % 8) (fun _ => 0) 16 32 = false ∧ check (mapped fun a => a) (fun _ => 0) 16 32 = true :=
  ⟨C108_alias _ _ 16 32 0 2 (by decide) (by decide) (by norm_num) rfl, C108_good _ _ _ _ (fun i j _ _ h => by omega)⟩

end MemTest
