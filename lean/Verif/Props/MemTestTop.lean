import Verif.Spec.MemTestTop
/-! # Property C217: the memory test ends and stays within its region -/

namespace MemTestTop
open Spec

/-- The words from `wr` on, `n` of them. -/
def block (wr : Nat) : Nat → List Nat
  | 0 => []
  | n + 1 => wr :: block (wr + 4) n

theorem block_mem (n : Nat) : ∀ wr a, a ∈ block wr n ↔ ∃ i, i < n ∧ a = wr + 4 * i := by
  induction n with
  | zero => intro wr a; simp [block]
  | succ n ih =>
    intro wr a
    unfold block
    rw [List.mem_cons, ih]
    constructor
    · rintro (rfl | ⟨i, hi, rfl⟩)
      · exact ⟨0, by omega, by omega⟩
      · exact ⟨i + 1, by omega, by omega⟩
    · rintro ⟨i, hi, rfl⟩
      cases i with
      | zero => left; omega
      | succ i => right; exact ⟨i, by omega, by omega⟩

theorem writes_ends (stop : Nat) : ∀ fuel wr, wr < 2 ^ 32 → stop ≤ 2 ^ 32 - 4 + wr % 4 → (stop - wr + 3) / 4 < fuel → writes wr stop fuel = some (block wr ((stop - wr + 3) / 4)) := by
  intro fuel
  induction fuel with
  | zero => intro wr _ _ h; omega
  | succ n ih =>
    intro wr hw hs hf
    unfold writes
    by_cases hlt : wr < stop
    · rw [if_pos hlt]
      have h4 : wr + 4 < 2 ^ 32 := by omega
      rw [Nat.mod_eq_of_lt h4, ih (wr + 4) h4 (by omega) (by omega)]
      have : (stop - wr + 3) / 4 = (stop - (wr + 4) + 3) / 4 + 1 := by omega
      rw [this]
      rfl
    · rw [if_neg hlt]
      have : (stop - wr + 3) / 4 = 0 := by omega
      rw [this]
      rfl

theorem writes_forever (stop : Nat) : ∀ fuel wr, wr < 2 ^ 32 → 2 ^ 32 - 4 + wr % 4 < stop → writes wr stop fuel = none := by
  intro fuel
  induction fuel with
  | zero => intro _ _ _; rfl
  | succ n ih =>
    intro wr hw hs
    unfold writes
    rw [if_pos (by omega), ih ((wr + 4) % 2 ^ 32) (Nat.mod_lt _ (by omega)) (by omega)]
    rfl

/-- **C217**, exactly when the test ends: unless the region's last, possibly partial word reaches the end of the 32-bit address space. Then the pointer starts again at address 0 and the whole memory is overwritten, for ever. -/
theorem C217_ends_exact (start stop : Nat) (h1 : start < 2 ^ 32) (h2 : stop < 2 ^ 32) :
    (∃ fuel, (writesAddr start stop fuel).isSome) ↔ (stop ≤ start ∨ stop ≤ 2 ^ 32 - 4 + start % 4) := by
  unfold writesAddr
  constructor
  · rintro ⟨fuel, h⟩
    apply Decidable.byContradiction
    intro hn
    rw [not_or] at hn
    rw [if_neg (by omega), writes_forever stop fuel start h1 (by omega)] at h
    cases h
  · intro h
    by_cases hgt : start > stop
    · exact ⟨0, by rw [if_pos hgt]; rfl⟩
    · by_cases he : start = stop
      · exact ⟨1, by subst he; rw [if_neg (by omega)]; unfold writes; rw [if_neg (by omega)]; rfl⟩
      · refine ⟨(stop - start + 3) / 4 + 1, ?_⟩
        rw [if_neg hgt, writes_ends stop _ start h1 (by omega) (by omega)]
        rfl

example : (∃ fuel, (writesAddr 0xC0000000 0xC0000010 fuel).isSome) := (C217_ends_exact _ _ (by decide) (by decide)).mpr (.inr (by decide))

/-- **C217, violated**: testing the last words of the address space, with the last byte as the end, never ends. -/
theorem C217_ends_violated : ∀ fuel, writesAddr 0xFFFFFFF0 0xFFFFFFFF fuel = none := by
  intro fuel
  unfold writesAddr
  rw [if_neg (by decide)]
  exact writes_forever _ fuel _ (by decide) (by decide)

/-- **C217** (partial): a test that ends writes every byte of the region, and no byte before it or more than three bytes behind it; exactly if the region's length is not a multiple of 4 it writes behind it. -/
theorem C217_region_partial (start stop : Nat) (h1 : start < 2 ^ 32) (hle : start ≤ stop) (fuel : Nat) (ws : List Nat) (h : writesAddr start stop fuel = some ws) (byte : Nat) :
    (covers ws byte ↔ start ≤ byte ∧ byte < start + (stop - start + 3) / 4 * 4) := by
  unfold writesAddr at h
  rw [if_neg (by omega)] at h
  have hws : ws = block start ((stop - start + 3) / 4) := by
    by_cases hs : stop ≤ 2 ^ 32 - 4 + start % 4
    · have mono : ∀ fuel wr, ∀ ws, writes wr stop fuel = some ws → writes wr stop (fuel + 1) = some ws := by
        intro fuel
        induction fuel with
        | zero => intro wr ws h; cases h
        | succ n ih =>
          intro wr ws h
          unfold writes at h ⊢
          by_cases hlt : wr < stop
          · rw [if_pos hlt] at h ⊢
            cases hw : writes ((wr + 4) % 2 ^ 32) stop n with
            | none => rw [hw] at h; cases h
            | some r => rw [ih _ r hw]; rw [hw] at h; exact h
          · rw [if_neg hlt] at h ⊢; exact h
      have monoK : ∀ k, writes start stop (fuel + k) = some ws := by
        intro k
        induction k with
        | zero => exact h
        | succ k ih => exact mono _ _ _ ih
      have g1 := monoK ((stop - start + 3) / 4 + 1)
      rw [writes_ends stop _ start h1 hs (by omega)] at g1
      exact (Option.some.inj g1).symm
    · by_cases he : start = stop
      · subst he
        cases fuel with
        | zero => cases h
        | succ n =>
          unfold writes at h
          rw [if_neg (by omega)] at h
          have : (start - start + 3) / 4 = 0 := by omega
          rw [this]
          exact (Option.some.inj h).symm
      · rw [writes_forever stop fuel start h1 (by omega)] at h; cases h
  subst hws
  unfold covers
  constructor
  · rintro ⟨w, hw, h3, h4⟩
    rw [block_mem] at hw
    obtain ⟨i, hi, rfl⟩ := hw
    omega
  · rintro ⟨h3, h4⟩
    refine ⟨start + 4 * ((byte - start) / 4), ?_, by omega, by omega⟩
    rw [block_mem]
    exact ⟨(byte - start) / 4, by omega, rfl⟩

/-- **C217, violated**: a region of 5 bytes: three bytes behind it are overwritten. -/
theorem C217_region_violated : writesAddr 0x1000 0x1005 10 = some [0x1000, 0x1004] ∧ covers [0x1000, 0x1004] 0x1007 := ⟨by decide, 0x1004, by decide, by decide, by decide⟩

/-- **C217**: exactly if the length is a multiple of 4 the bytes written are those of the region. -/
theorem C217_region_exact (start stop : Nat) (h1 : start < 2 ^ 32) (hle : start ≤ stop) (fuel : Nat) (ws : List Nat) (h : writesAddr start stop fuel = some ws) :
    (∀ byte, covers ws byte ↔ start ≤ byte ∧ byte < stop) ↔ (stop - start) % 4 = 0 := by
  have key := C217_region_partial start stop h1 hle fuel ws h
  constructor
  · intro hall
    apply Decidable.byContradiction
    intro hn
    have := (hall stop).mp ((key stop).mpr ⟨hle, by omega⟩)
    omega
  · intro hm byte
    rw [key byte]
    constructor <;> rintro ⟨h3, h4⟩ <;> exact ⟨h3, by omega⟩

example := C217_region_partial 0x1000 0x100A (by decide) (by decide) 10 [0x1000, 0x1004, 0x1008] (by decide)
example := C217_region_exact 0x1000 0x100C (by decide) (by decide) 10 [0x1000, 0x1004, 0x1008] (by decide)

/-- **C217**: a test that ends writes the words the test with unbounded addresses (C108) writes, in that order. -/
theorem C217_same (start stop : Nat) (h1 : start < 2 ^ 32) (hs : stop ≤ 2 ^ 32 - 4 + start % 4) (hle : start ≤ stop) (seed : Nat) :
    writesAddr start stop ((stop - start + 3) / 4 + 1) = some (MemTest.writePass logMem [] start stop seed) := by
  have key : ∀ n wr acc seed, (stop - wr + 3) / 4 = n → MemTest.writePass logMem acc wr stop seed = acc ++ block wr n := by
    intro n
    induction n with
    | zero =>
      intro wr acc seed hn
      unfold MemTest.writePass
      rw [if_neg (by omega)]
      simp [block]
    | succ n ih =>
      intro wr acc seed hn
      unfold MemTest.writePass
      rw [if_pos (by omega), ih (wr + 4) _ _ (by omega)]
      simp [logMem, block]
  unfold writesAddr
  rw [if_neg (by omega), writes_ends stop _ start h1 hs (by omega), key _ start [] seed rfl]
  rfl

example := C217_same 0x1000 0x100C (by decide) (by decide) (by decide) 7

end MemTestTop
