import Verif.Props.MemTest
import Verif.Spec.MemFaults
/-! # C222: which faults of the data the memory test finds -/

namespace MemTest.Faults

theorem withBit_eq (x b : Nat) (v : Bool) : withBit x b v = x ↔ x.testBit b = v := by
  unfold withBit
  by_cases h : x.testBit b = v
  · simp [h]
  · rw [if_neg h]
    constructor
    · intro e
      have := congrArg (Nat.testBit · b) e
      simp [Nat.testBit_xor, Nat.testBit_two_pow_self] at this
    · intro e; exact absurd e h

theorem shorted_eq (or : Bool) (b c x : Nat) (h : shorted or b c x = x) : x.testBit b = x.testBit c := by
  unfold shorted at h
  simp only at h
  generalize hd : (if or = true then x.testBit b || x.testBit c else x.testBit b && x.testBit c) = d at h
  have bit : ∀ (y k n : Nat) (v : Bool), (withBit y k v).testBit n = if n = k then v else y.testBit n := by
    intro y k n v
    unfold withBit
    by_cases hk : y.testBit k = v
    · rw [if_pos hk]
      by_cases hn : n = k
      · rw [if_pos hn, hn, hk]
      · rw [if_neg hn]
    · rw [if_neg hk, Nat.testBit_xor, Nat.testBit_two_pow]
      by_cases hn : n = k
      · subst hn; simp; cases h1 : y.testBit n <;> cases v <;> simp_all
      · simp [hn, Ne.symm hn]
  have h1 := congrArg (Nat.testBit · b) h
  have h2 := congrArg (Nat.testBit · c) h
  simp only [bit, if_true] at h1 h2
  by_cases hbc : b = c
  · rw [hbc]
  · rw [if_neg hbc] at h1
    rw [← h1, ← h2]

variable {L : Type} [DecidableEq L]

/-- **C222**, exact: a memory that stores well but reads wrong passes exactly if every word of the range reads as its pattern. -/
theorem C222_read_exact (loc : Nat → L) (g : Nat → Nat → Nat) (s : L → Nat) (start stop : Nat) (hap : Apart loc start stop) :
    check (reads loc g) s start stop = true ↔ ∀ i, start + 4 * i < stop → g (start + 4 * i) (word i) = word i := by
  have good := (C108_check_iff (mapped loc) s start stop).mp (C108_good loc s start stop hap)
  have same := writePass_congr (reads loc g) (mapped loc) rfl s start stop seed0
  rw [C108_check_iff, same]
  constructor
  · intro h i hi
    have h1 := h i hi
    have h2 := good i hi
    simp only [reads, mapped] at h1 h2
    rwa [h2] at h1
  · intro h i hi
    have h2 := good i hi
    simp only [reads, mapped] at h2 ⊢
    rw [h2]; exact h i hi

set_option maxRecDepth 20000 in
theorem both_values : ∀ b, b < 32 → ∀ v : Bool, ∃ i, i < 8 ∧ (word i).testBit b ≠ v := by decide +kernel

set_option maxRecDepth 20000 in
theorem all_differ : ∀ b, b < 32 → ∀ c, c < 32 → b ≠ c → ∃ i, i < 9 ∧ (word i).testBit b ≠ (word i).testBit c := by decide +kernel

example := C222_read_exact (fun a => a) (fun a x => if a = 4100 then withBit x 5 true else x) (fun _ => 0) 4096 8192 (by intro i j _ _ h; dsimp only at h; omega)

/-- **C222**: a data line stuck at 0 or at 1 is found in every range of at least eight words. -/
theorem C222_stuck_line (loc : Nat → L) (s : L → Nat) (start stop : Nat) (hap : Apart loc start stop) (h8 : start + 4 * 7 < stop) (b : Nat) (hb : b < 32)
    (v : Bool) : check (reads loc fun _ x => withBit x b v) s start stop = false := by
  rw [← Bool.not_eq_true, C222_read_exact loc _ s start stop hap]
  intro h
  obtain ⟨i, hi, hw⟩ := both_values b hb v
  exact hw ((withBit_eq _ _ _).mp (h i (by omega)))

/-- **C222**: two data lines that touch are found in every range of at least nine words, whichever level wins. -/
theorem C222_shorted_lines (loc : Nat → L) (s : L → Nat) (start stop : Nat) (hap : Apart loc start stop) (h9 : start + 4 * 8 < stop) (b c : Nat) (hb : b < 32)
    (hc : c < 32) (hbc : b ≠ c) (or : Bool) : check (reads loc fun _ x => shorted or b c x) s start stop = false := by
  rw [← Bool.not_eq_true, C222_read_exact loc _ s start stop hap]
  intro h
  obtain ⟨i, hi, hw⟩ := all_differ b hb c hc hbc
  exact hw (shorted_eq or b c _ (h i (by omega)))

/-- **C222**: eight and nine are the least numbers: line 16 may be stuck in a range of seven words, two lines may touch in one of eight. -/
theorem C222_least (loc : Nat → L) (s : L → Nat) (start : Nat) :
    (Apart loc start (start + 28) → ∃ b v, b < 32 ∧ check (reads loc fun _ x => withBit x b v) s start (start + 28) = true) ∧
    (Apart loc start (start + 32) → ∃ b c, b < 32 ∧ c < 32 ∧ b ≠ c ∧ check (reads loc fun _ x => shorted true b c x) s start (start + 32) = true) := by
  constructor
  · intro hap
    obtain ⟨b, hb, v, h⟩ : ∃ b, b < 32 ∧ ∃ v : Bool, ∀ i, i < 7 → (word i).testBit b = v := by decide +kernel
    exact ⟨b, v, hb, (C222_read_exact loc _ s start _ hap).mpr (fun i hi => (withBit_eq _ _ _).mpr (h i (by omega)))⟩
  · intro hap
    obtain ⟨b, hb, c, hc, hbc, h⟩ : ∃ b, b < 32 ∧ ∃ c, c < 32 ∧ b ≠ c ∧ ∀ i, i < 8 → shorted true b c (word i) = word i := by decide +kernel
    exact ⟨b, c, hb, hc, hbc, (C222_read_exact loc _ s start _ hap).mpr (fun i hi => h i (by omega))⟩

/-- **C222**, exact: one stuck cell is found exactly if its word of the pattern has the other value there. -/
theorem C222_stuck_cell_exact (loc : Nat → L) (s : L → Nat) (start stop : Nat) (hap : Apart loc start stop) (i : Nat) (hi : start + 4 * i < stop) (b : Nat)
    (v : Bool) : check (reads loc fun a x => if a = start + 4 * i then withBit x b v else x) s start stop = true ↔ (word i).testBit b = v := by
  rw [C222_read_exact loc _ s start stop hap]
  constructor
  · intro h
    have := h i hi
    simp only [if_true] at this
    exact (withBit_eq _ _ _).mp this
  · intro h k hk
    split
    · rename_i e
      have : k = i := by omega
      rw [this]; exact (withBit_eq _ _ _).mpr h
    · rfl

example := C222_stuck_cell_exact (fun a => a) (fun _ => 0) 4096 8192 (by intro i j _ _ h; dsimp only at h; omega) 9 (by decide) 4 true

/-- **C222**, violated: every cell can be stuck without being found: at the value the pattern has there. -/
theorem C222_stuck_cell_violated (loc : Nat → L) (s : L → Nat) (start stop : Nat) (hap : Apart loc start stop) (i : Nat) (hi : start + 4 * i < stop) (b : Nat) :
    ∃ v, check (reads loc fun a x => if a = start + 4 * i then withBit x b v else x) s start stop = true :=
  ⟨_, (C222_stuck_cell_exact loc s start stop hap i hi b _).mpr rfl⟩

/-! ### Coupled cells -/

theorem writePass_split (m : Mem σ) (n : Nat) : ∀ (s : σ) (a stop k : Nat), a + 4 * n ≤ stop →
    writePass m s a stop (word k) = writePass m (writePass m s a (a + 4 * n) (word k)) (a + 4 * n) stop (word (k + n)) := by
  induction n with
  | zero =>
    intro s a stop k _
    have e : writePass m s a (a + 4 * 0) (word k) = s := by rw [writePass, if_neg (by omega)]
    rw [e]; rfl
  | succ n ih =>
    intro s a stop k h
    have e : writePass m s a (a + 4 * (n + 1)) (word k) = writePass m (m.wr s a (word k)) (a + 4) (a + 4 * (n + 1)) (word (k + 1)) := by
      rw [writePass, if_pos (by omega), word_succ]
    rw [e, writePass, if_pos (by omega), ← word_succ, ih _ (a + 4) stop (k + 1) (by omega)]
    rw [show a + 4 + 4 * n = a + 4 * (n + 1) by omega, show k + 1 + n = k + (n + 1) by omega]

theorem writePass_same (m m' : Mem σ) (s : σ) (a stop seed : Nat) (h : ∀ s x v, a ≤ x → x < stop → m.wr s x v = m'.wr s x v) :
    writePass m s a stop seed = writePass m' s a stop seed := by
  by_cases hl : a < stop
  · rw [writePass, if_pos hl, writePass.eq_def m', if_pos hl, h s a seed (Nat.le_refl _) hl]
    exact writePass_same m m' _ (a + 4) stop _ (fun s x v h1 h2 => h s x v (by omega) h2)
  · rw [writePass, if_neg hl, writePass, if_neg hl]
  termination_by stop - a

theorem coupled_stored (loc : Nat → L) (s : L → Nat) (start stop : Nat) (hap : Apart loc start stop) (i j : Nat) (hi : start + 4 * i < stop)
    (hj : start + 4 * j < stop) (hij : i ≠ j) (change : Nat → Nat) (k : Nat) (hk : start + 4 * k < stop) :
    writePass (coupled loc (start + 4 * i) (start + 4 * j) change) s start stop seed0 (loc (start + 4 * k)) =
      if k = j ∧ j < i then change (word k) else word k := by
  rw [show seed0 = word 0 from rfl, writePass_split _ i s start stop 0 (by omega), Nat.zero_add, writePass, if_pos hi, ← word_succ]
  rw [writePass_same _ (mapped loc) _ (start + 4 * i + 4) stop _ (by
    intro s x v h1 h2
    funext l
    simp only [coupled, mapped]
    rw [if_neg (by omega)])]
  rw [writePass_same _ (mapped loc) _ start (start + 4 * i) _ (by
    intro s x v h1 h2
    funext l
    simp only [coupled, mapped]
    rw [if_neg (by omega)])]
  have third := fun s' => writePass_mapped loc stop s' (start + 4 * i + 4) (i + 1) (loc (start + 4 * k))
  by_cases hki : i < k
  · rw [(third _).2 (k - (i + 1)) (by omega) (by congr 1; omega) (by
      intro n h1 h2 he
      have := hap (i + 1 + n) k (by omega) hk (by rw [← he]; congr 1; omega)
      omega)]
    rw [if_neg (by omega)]
    congr 1; omega
  · rw [(third _).1 (by
      intro n h1 he
      have := hap (i + 1 + n) k (by omega) hk (by rw [← he]; congr 1; omega)
      omega)]
    simp only [coupled]
    by_cases hke : k = i
    · subst hke
      rw [if_neg (by simp), if_pos rfl, if_neg (by omega)]
    · have hne : loc (start + 4 * k) ≠ loc (start + 4 * i) := fun h => hke (hap k i hk hi h)
      have hs1 := (writePass_mapped loc (start + 4 * i) s start 0 (loc (start + 4 * k))).2 k (by omega) rfl (by
        intro n h1 h2 he
        have := hap n k (by omega) hk he
        omega)
      rw [Nat.zero_add] at hs1
      rw [if_neg hne, hs1]
      by_cases hkj : k = j
      · subst hkj
        rw [if_pos ⟨trivial, rfl, hne⟩, if_pos ⟨rfl, by omega⟩]
      · rw [if_neg (fun h => hkj (hap k j hk hj h.2.1)), if_neg (fun h => hkj h.1)]

/-- **C222**, exact: if writing word `i` disturbs word `j`, this is found exactly if `j` comes before `i` and is really changed. -/
theorem C222_coupled_exact (loc : Nat → L) (s : L → Nat) (start stop : Nat) (hap : Apart loc start stop) (i j : Nat) (hi : start + 4 * i < stop)
    (hj : start + 4 * j < stop) (hij : i ≠ j) (change : Nat → Nat) :
    check (coupled loc (start + 4 * i) (start + 4 * j) change) s start stop = false ↔ j < i ∧ change (word j) ≠ word j := by
  rw [← Bool.not_eq_true, C108_check_iff]
  have st := coupled_stored loc s start stop hap i j hi hj hij change
  constructor
  · intro h
    apply Decidable.byContradiction
    intro hc
    apply h
    intro k hk
    show writePass _ s start stop seed0 (loc (start + 4 * k)) = word k
    rw [st k hk]
    by_cases hkj : k = j ∧ j < i
    · rw [if_pos hkj, hkj.1]
      exact Decidable.byContradiction fun hx => hc ⟨hkj.2, hx⟩
    · rw [if_neg hkj]
  · rintro ⟨h1, h2⟩ h
    have := h j hj
    change writePass _ s start stop seed0 (loc (start + 4 * j)) = word j at this
    rw [st j hj, if_pos ⟨rfl, h1⟩] at this
    exact h2 this

/-- **C222**, violated: a write that destroys any later word is never found. -/
theorem C222_coupled_violated (loc : Nat → L) (s : L → Nat) (start stop : Nat) (hap : Apart loc start stop) (i j : Nat) (hij : i < j)
    (hj : start + 4 * j < stop) (change : Nat → Nat) : check (coupled loc (start + 4 * i) (start + 4 * j) change) s start stop = true := by
  rw [← Bool.not_eq_false, C222_coupled_exact loc s start stop hap i j (by omega) hj (by omega)]
  omega

example : Apart (fun a => a) 4096 8192 := by intro i j _ _ h; dsimp only at h; omega
example := C222_stuck_line (fun a => a) (fun _ => 0) 4096 8192 (by intro i j _ _ h; dsimp only at h; omega) (by decide) 31 (by decide) true
example := C222_shorted_lines (fun a => a) (fun _ => 0) 4096 8192 (by intro i j _ _ h; dsimp only at h; omega) (by decide) 3 30 (by decide) (by decide) (by decide) false

end MemTest.Faults
