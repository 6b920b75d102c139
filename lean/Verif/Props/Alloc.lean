import Verif.Model.Alloc
import Verif.Spec.Alloc
import Mathlib.Data.Nat.Bitwise
/-! # Properties C40, C41: allocators -/
namespace Alloc
open Spec

/-- One call by the user of a MonotonicAllocator. -/
inductive Op where
  | allocate (size : Nat)
  | reset

/-- The blocks handed out since the last reset, newest first, and the allocator, after a list of calls. -/
def runOps (w : Nat) : Mono × List Block → List Op → Mono × List Block
  | s, [] => s
  | (a, bs), .allocate size :: l =>
    match a.allocate w size with
    | (a', some p) => runOps w (a', ⟨p, size⟩ :: bs) l
    | (a', none) => runOps w (a', bs) l
  | (a, _), .reset :: l => runOps w (a.reset, []) l

/-- What holds after every list of calls. -/
structure Good (arena : Nat) (s : Mono × List Block) : Prop where
  arena_eq : s.1.arena = arena
  off : s.1.offset = total s.2
  le : s.1.offset ≤ arena
  inside : ∀ b ∈ s.2, b.start + b.size ≤ s.1.offset
  disjoint : s.2.Pairwise (fun b c => ∀ x, ¬ (b.has x ∧ c.has x))

theorem Good.freeSpace {w arena : Nat} {s : Mono × List Block} (h : Good arena s) (hw : arena < 2 ^ w) :
    s.1.freeSpace w = arena - total s.2 := by
  have := h.off; have := h.le; have := h.arena_eq
  unfold Mono.freeSpace
  rw [Nat.mod_eq_of_lt (show s.1.offset < 2 ^ w by omega)]
  rw [show s.1.arena + 2 ^ w - s.1.offset = (arena - total s.2) + 2 ^ w by omega, Nat.add_mod_right,
    Nat.mod_eq_of_lt (by omega)]

theorem Good.runOps {w arena : Nat} (hw : arena < 2 ^ w) (l : List Op) : ∀ s, Good arena s → Good arena (runOps w s l) := by
  induction l with
  | nil => intro s h; exact h
  | cons op l ih =>
    rintro ⟨a, bs⟩ h
    cases op with
    | reset => exact ih _ ⟨h.arena_eq, rfl, Nat.zero_le _, by simp, List.Pairwise.nil⟩
    | allocate size =>
      have hf := h.freeSpace hw
      have ho := h.off; have hl := h.le
      simp only at hf ho hl
      simp only [Alloc.runOps, Mono.allocate, hf]
      split
      · next a' p he =>
        split at he
        · next hgt =>
          cases he
          have hm : (a.offset + size) % 2 ^ w = a.offset + size := Nat.mod_eq_of_lt (by omega)
          apply ih
          refine ⟨h.arena_eq, ?_, ?_, ?_, ?_⟩
          · simp only [hm, total, List.map_cons, List.sum_cons] at *; omega
          · simp only [hm]; omega
          · intro b hb
            simp only [hm]
            rcases List.mem_cons.mp hb with rfl | hb
            · exact Nat.le_refl _
            · have := h.inside b hb; simp only at this; omega
          · refine List.Pairwise.cons ?_ h.disjoint
            intro b hb x hx
            have := h.inside b hb
            simp only [Block.has] at hx this
            omega
        · cases he
      · next a' he =>
        split at he
        · cases he
        · cases he; exact ih _ h

/-- **C40** (partial): after every list of calls on an arena of any representable size: all blocks since the last reset are
inside the arena and pairwise disjoint, free_space() is the arena size minus the granted sizes, and allocate succeeds
exactly if *more* than `size` bytes are free. Missing: a request for exactly all the free space (see below). -/
theorem C40_blocks_partial (w arena : Nat) (hw : arena < 2 ^ w) (l : List Op) :
    let s := runOps w (Mono.make arena, []) l
    (∀ b ∈ s.2, ∀ x, b.has x → x < arena) ∧ s.2.Pairwise (fun b c => ∀ x, ¬ (b.has x ∧ c.has x)) ∧
    total s.2 ≤ arena ∧ s.1.freeSpace w = arena - total s.2 ∧ s.1.totalSize = arena ∧
    ∀ size, ((s.1.allocate w size).2.isSome ↔ size < arena - total s.2) ∧
      ((s.1.allocate w size).2 = none → (s.1.allocate w size).1 = s.1) := by
  have h : Good arena (runOps w (Mono.make arena, []) l) :=
    Good.runOps hw l _ ⟨rfl, rfl, Nat.zero_le _, by simp, List.Pairwise.nil⟩
  obtain ⟨s, hs⟩ : ∃ s, runOps w (Mono.make arena, []) l = s := ⟨_, rfl⟩
  rw [hs] at h
  simp only [hs]
  have hf := h.freeSpace hw
  refine ⟨?_, h.disjoint, by rw [← h.off]; exact h.le, hf, h.arena_eq, ?_⟩
  · intro b hb x hx
    have := h.inside b hb; have := h.le
    simp only [Block.has] at hx
    omega
  · intro size
    simp only [Mono.allocate, hf]
    split <;> simp <;> omega

example : runOps 32 (Mono.make 100, []) [.allocate 10, .allocate 90, .allocate 20] = (⟨100, 30⟩, [⟨10, 20⟩, ⟨0, 10⟩]) := by
  decide

/-- **C40, violated**: a request for exactly the free space is refused, for every arena; in particular no
arena can ever be used up completely. -/
theorem C40_exact_fit_violated (w arena : Nat) (hw : arena < 2 ^ w) (l : List Op) :
    let s := runOps w (Mono.make arena, []) l
    (s.1.allocate w (s.1.freeSpace w)).2 = none := by
  simp [Mono.allocate]

example : ((Mono.make 16).allocate 32 16).2 = none ∧ (Mono.make 16).freeSpace 32 = 16 := by decide

theorem isRoundUp_div (a x : Nat) (ha : 0 < a) : IsRoundUp a x ((x + a - 1) / a * a) := by
  refine ⟨Nat.dvd_mul_left _ _, ?_, ?_⟩
  · have := Nat.div_add_mod (x + a - 1) a
    have := Nat.mod_lt (x + a - 1) ha
    rw [Nat.mul_comm]; omega
  · rintro m ⟨k, rfl⟩ hm
    rw [Nat.mul_comm a k]
    apply Nat.mul_le_mul_right
    have : (x + a - 1) / a < k + 1 := by
      rw [Nat.div_lt_iff_lt_mul ha, Nat.add_mul, Nat.one_mul, Nat.mul_comm]; omega
    omega

theorem and_not_low (w k : Nat) (hk : k < w) (y : BitVec w) :
    (y &&& ~~~ (BitVec.ofNat w (2 ^ k) - 1)).toNat = y.toNat / 2 ^ k * 2 ^ k := by
  have hpow : 2 ^ k < 2 ^ w := Nat.pow_lt_pow_right (by omega) hk
  have hpos := Nat.two_pow_pos k
  have h1 : (BitVec.ofNat w (2 ^ k) - 1 : BitVec w).toNat = 2 ^ k - 1 := by
    rw [BitVec.toNat_sub]
    have : (1 : BitVec w).toNat = 1 := by
      simp; omega
    rw [this, BitVec.toNat_ofNat, Nat.mod_eq_of_lt hpow]
    rw [show 2 ^ w - 1 + 2 ^ k = (2 ^ k - 1) + 2 ^ w by omega, Nat.add_mod_right, Nat.mod_eq_of_lt (by omega)]
  apply Nat.eq_of_testBit_eq
  intro i
  rw [BitVec.toNat_and, BitVec.toNat_not, h1, Nat.testBit_and, Nat.mul_comm, Nat.testBit_two_pow_mul]
  rw [show 2 ^ w - 1 - (2 ^ k - 1) = 2 ^ w - ((2 ^ k - 1) + 1) by omega,
    Nat.testBit_two_pow_sub_succ (by omega), Nat.testBit_two_pow_sub_one, Nat.testBit_div_two_pow]
  by_cases hki : k ≤ i
  · rw [show i - k + k = i by omega]
    by_cases hi : i < w
    · simp [hki, hi, show ¬ i < k by omega]
    · have : y.toNat.testBit i = false :=
        Nat.testBit_lt_two_pow (Nat.lt_of_lt_of_le y.isLt (Nat.pow_le_pow_right (by omega) (by omega)))
      simp [this, hki]
  · simp [hki, show i < k by omega]

/-- **C41**: for every power-of-two alignment and every size whose rounded value is representable, PaddedAligned occupies the
least multiple of Align that is at least sizeof(T), and the padding is the difference. -/
theorem C41_padded (w k x : Nat) (hk : k < w) (hx : x + (2 ^ k - 1) < 2 ^ w) :
    IsRoundUp (2 ^ k) x (alignedSz (BitVec.ofNat w (2 ^ k)) (BitVec.ofNat w x)).toNat ∧
    x + (padSz (BitVec.ofNat w (2 ^ k)) (BitVec.ofNat w x)).toNat
      = (alignedSz (BitVec.ofNat w (2 ^ k)) (BitVec.ofNat w x)).toNat := by
  have hpow : 2 ^ k < 2 ^ w := Nat.pow_lt_pow_right (by omega) hk
  have hpos := Nat.two_pow_pos k
  have h1 : (BitVec.ofNat w (2 ^ k) - 1 : BitVec w).toNat = 2 ^ k - 1 := by
    rw [BitVec.toNat_sub]
    have : (1 : BitVec w).toNat = 1 := by
      simp; omega
    rw [this, BitVec.toNat_ofNat, Nat.mod_eq_of_lt hpow]
    rw [show 2 ^ w - 1 + 2 ^ k = (2 ^ k - 1) + 2 ^ w by omega, Nat.add_mod_right, Nat.mod_eq_of_lt (by omega)]
  have hv : (alignedSz (BitVec.ofNat w (2 ^ k)) (BitVec.ofNat w x)).toNat = (x + 2 ^ k - 1) / 2 ^ k * 2 ^ k := by
    unfold alignedSz
    rw [and_not_low w k hk, BitVec.toNat_add, h1, BitVec.toNat_ofNat, Nat.mod_eq_of_lt (show x < 2 ^ w by omega),
      Nat.mod_eq_of_lt hx, show x + (2 ^ k - 1) = x + 2 ^ k - 1 by omega]
  have hr := isRoundUp_div (2 ^ k) x hpos
  rw [← hv] at hr
  refine ⟨hr, ?_⟩
  unfold padSz
  have h2 := (alignedSz (BitVec.ofNat w (2 ^ k)) (BitVec.ofNat w x)).isLt
  have h3 := hr.2.1
  rw [BitVec.toNat_sub, BitVec.toNat_ofNat, Nat.mod_eq_of_lt (show x < 2 ^ w by omega)]
  rw [show 2 ^ w - x + (alignedSz (BitVec.ofNat w (2 ^ k)) (BitVec.ofNat w x)).toNat
    = ((alignedSz (BitVec.ofNat w (2 ^ k)) (BitVec.ofNat w x)).toNat - x) + 2 ^ w by omega, Nat.add_mod_right,
    Nat.mod_eq_of_lt (by omega)]
  omega

example : (5 : Nat) < 64 ∧ 70 + (2 ^ 5 - 1) < 2 ^ 64 ∧ (alignedSz (BitVec.ofNat 64 (2 ^ 5)) (BitVec.ofNat 64 70)).toNat = 96 := by
  decide

/-- **C41** (partial): AlignedAllocator asks for the least multiple of Alignment that covers `n * sizeof(T)` bytes, if that
count plus `Alignment - 1` is representable. Missing: counts within Alignment - 1 of the top of size_t (see below). -/
theorem C41_aligned_allocator_partial (w align sizeT n : Nat) (ha : 0 < align) (hn : 0 < n)
    (h : n * sizeT + (align - 1) < 2 ^ w) :
    ∃ r, alignedRequest w align sizeT n = .ok (some r) ∧ IsRoundUp align (n * sizeT) r := by
  refine ⟨_, ?_, isRoundUp_div align (n * sizeT) ha⟩
  have hle : (n * sizeT + align - 1) / align * align ≤ n * sizeT + align - 1 := Nat.div_mul_le_self _ _
  unfold alignedRequest
  rw [if_neg (by omega), if_neg (by omega)]
  simp only
  rw [Nat.mod_eq_of_lt (show n * sizeT < 2 ^ w by omega),
    show n * sizeT + align + 2 ^ w - 1 = (n * sizeT + align - 1) + 2 ^ w by omega, Nat.add_mod_right,
    Nat.mod_eq_of_lt (show n * sizeT + align - 1 < 2 ^ w by omega), Nat.mod_eq_of_lt (by omega)]

example : (0 : Nat) < 64 ∧ 0 < 100 ∧ 100 * 12 + (64 - 1) < 2 ^ 32 ∧ alignedRequest 32 64 12 100 = .ok (some 1216) := by decide

/-- **C41**: nothing is requested for `n = 0`. -/
theorem C41_aligned_allocator_zero (w align sizeT : Nat) : alignedRequest w align sizeT 0 = .ok none := rfl

/-- **C41, violated**: for byte counts just below 2^w the rounding wraps to 0: aligned_alloc is asked for 0 bytes,
and may return a non-null pointer that the caller takes for 2^w - 1 bytes. (And if `n * sizeof(T)` itself wraps, a small block
is handed out as a huge one: the second part.) -/
theorem C41_aligned_allocator_violated :
    (∀ w, 6 < w → alignedRequest w 64 1 (2 ^ w - 1) = .ok (some 0)) ∧ alignedRequest 32 64 8 (2 ^ 29 + 1) = .ok (some 64) := by
  refine ⟨?_, by decide⟩
  intro w hw
  have h6 : 2 ^ 6 < 2 ^ w := Nat.pow_lt_pow_right (by omega) hw
  unfold alignedRequest
  rw [if_neg (by omega), if_neg (by omega)]
  simp only [Nat.mul_one]
  rw [Nat.mod_eq_of_lt (show 2 ^ w - 1 < 2 ^ w by omega), show 2 ^ w - 1 + 64 + 2 ^ w - 1 = 62 + 2 ^ w + 2 ^ w by omega,
    Nat.add_mod_right, Nat.add_mod_right, Nat.mod_eq_of_lt (show 62 < 2 ^ w by omega)]
  simp

end Alloc
