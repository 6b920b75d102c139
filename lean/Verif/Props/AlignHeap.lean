import Verif.Spec.AlignHeap
import Verif.Props.ExactConds
/-! # C243: containers that use AlignedAllocator -/
namespace AlignHeap
open Alloc Alloc.Spec AlignHeap.Spec

/-- the block behind what is held -/
def blk (align sizeT : Nat) (a : Nat × Nat) : Block := ⟨a.1, (a.2 * sizeT + align - 1) / align * align⟩

/-- two blocks that are distinct and apart -/
def Sep (a b : Block) : Prop := a.start ≠ b.start ∧ Apart a.start a.size b.start b.size

theorem Sep.symm {a b : Block} (h : Sep a b) : Sep b a := ⟨h.1.symm, h.2.symm⟩

structure Inv (w align sizeT : Nat) (s : St) : Prop where
  perm : s.heap.Perm ((s.held.filter fun a => a.1 ≠ 0).map (blk align sizeT))
  sep : s.heap.Pairwise Sep
  ok : ∀ b ∈ s.heap, 0 < b.start ∧ align ∣ b.start ∧ b.start + b.size ≤ 2 ^ w

theorem request_eq {w align sizeT n r : Nat} (ha : 0 < align) (h : n * sizeT + (align - 1) < 2 ^ w)
    (hr : alignedRequest w align sizeT n = .ok (some r)) : 0 < n ∧ r = (n * sizeT + align - 1) / align * align := by
  have hn : 0 < n := by
    rcases Nat.eq_zero_or_pos n with h0 | h0
    · subst h0; simp [alignedRequest] at hr
    · exact h0
  obtain ⟨r', h1, h2⟩ := C41_aligned_allocator_partial w align sizeT n ha hn h
  rw [h1] at hr
  have e : r' = r := by simpa using hr
  subst e
  have h3 := isRoundUp_div align (n * sizeT) ha
  exact ⟨hn, Nat.le_antisymm (h2.2.2 _ h3.1 h3.2.1) (h3.2.2 _ h2.1 h2.2.1)⟩

theorem inv_step {w align sizeT : Nat} (ha : 0 < align) {s : St} (h : Inv w align sizeT s) (op : Op)
    (hn : ∀ n ans, op = .alloc n ans → n * sizeT + (align - 1) < 2 ^ w)
    (hh : ∀ n p r, op = .alloc n (some p) → alignedRequest w align sizeT n = .ok (some r) → Honest w align s.heap r p) :
    ∃ s', step w align sizeT s op = .ok s' ∧ Inv w align sizeT s' := by
  cases op with
  | alloc n ans =>
    have hn' := hn n ans rfl
    cases hr : alignedRequest w align sizeT n with
    | ub =>
      unfold alignedRequest at hr
      split at hr
      · cases hr
      · rw [if_neg (by omega)] at hr; cases hr
    | ok o =>
      cases o with
      | none =>
        refine ⟨⟨s.heap, (0, n) :: s.held⟩, by simp [step, allocate, hr], ⟨?_, h.sep, h.ok⟩⟩
        simpa using h.perm
      | some r =>
        cases ans with
        | none =>
          refine ⟨⟨s.heap, (0, n) :: s.held⟩, by simp [step, allocate, hr], ⟨?_, h.sep, h.ok⟩⟩
          simpa using h.perm
        | some p =>
          obtain ⟨h1, h2, h3, h4⟩ := hh n p r rfl hr
          refine ⟨⟨⟨p, r⟩ :: s.heap, (p, n) :: s.held⟩, by simp [step, allocate, hr], ⟨?_, ?_, ?_⟩⟩
          · have e := (request_eq ha hn' hr).2
            have hp : decide (p ≠ 0) = true := by simp; omega
            show (⟨p, r⟩ :: s.heap).Perm _
            rw [List.filter_cons_of_pos (by simpa using (by omega : p ≠ 0)), List.map_cons]
            have : blk align sizeT (p, n) = ⟨p, r⟩ := by simp [blk, e]
            rw [this]
            exact h.perm.cons _
          · exact List.pairwise_cons.2 ⟨fun b hb => ⟨(h4 b hb).1, (h4 b hb).2⟩, h.sep⟩
          · intro b hb
            rcases List.mem_cons.1 hb with rfl | hb
            · exact ⟨h1, h2, h3⟩
            · exact h.ok b hb
  | free i =>
    cases hi : s.held[i]? with
    | none => exact ⟨s, by simp [step, hi], h⟩
    | some a =>
      obtain ⟨p, n⟩ := a
      obtain ⟨hlt, hget⟩ := List.getElem?_eq_some_iff.1 hi
      have hp := (List.getElem_cons_eraseIdx_perm hlt).symm
      rw [hget] at hp
      have hf := (hp.filter fun a => decide (a.1 ≠ 0)).map (blk align sizeT)
      have hperm := h.perm.trans hf
      by_cases h0 : p = 0
      · subst h0
        refine ⟨⟨s.heap, s.held.eraseIdx i⟩, by simp [step, hi, deallocate], ⟨?_, h.sep, h.ok⟩⟩
        simpa using hperm
      · rw [List.filter_cons_of_pos (by simpa using h0), List.map_cons] at hperm
        have hmem : blk align sizeT (p, n) ∈ s.heap := hperm.symm.subset (by simp)
        have hany : s.heap.any (fun b => b.start == p) = true := List.any_eq_true.2 ⟨_, hmem, by simp [blk]⟩
        refine ⟨⟨s.heap.eraseP fun b => b.start == p, s.held.eraseIdx i⟩, ?_, ⟨?_, ?_, ?_⟩⟩
        · simp only [step, hi, deallocate]
          rw [if_neg h0, if_pos hany]
        · obtain ⟨b, l1, l2, hb1, hb2, hb3, hb4⟩ := List.exists_of_eraseP (p := fun b : Block => b.start == p) hmem (by simp [blk])
          show (s.heap.eraseP _).Perm _
          rw [hb4]
          have hq : s.heap.Perm (b :: (l1 ++ l2)) := by rw [hb3]; exact List.perm_middle
          have hbe : b = blk align sizeT (p, n) := by
            have hs : b.start = p := by simpa using hb2
            by_contra hne
            have hbm : b ∈ s.heap := by rw [hb3]; simp
            have : Std.Symm Sep := ⟨fun _ _ => Sep.symm⟩
            have := h.sep.forall hbm hmem hne
            exact this.1 (by simp [blk, hs])
          subst hbe
          exact (hq.symm.trans hperm).cons_inv
        · exact h.sep.sublist List.eraseP_sublist
        · intro b hb
          exact h.ok b (List.eraseP_sublist.subset hb)

theorem inv_run {w align sizeT : Nat} (ha : 0 < align) (l : List Op) : ∀ s, Inv w align sizeT s →
    (∀ n ans, Op.alloc n ans ∈ l → n * sizeT + (align - 1) < 2 ^ w) → HonestRun w align sizeT s l →
    ∃ s', run w align sizeT s l = .ok s' ∧ Inv w align sizeT s' := by
  induction l with
  | nil => intro s h _ _; exact ⟨s, rfl, h⟩
  | cons op l ih =>
    intro s h hn hh
    obtain ⟨s1, e1, i1⟩ := inv_step ha h op (fun n ans e => hn n ans (by simp [e])) hh.1
    obtain ⟨s2, e2, i2⟩ := ih s1 i1 (fun n ans hm => hn n ans (by simp [hm])) (hh.2 s1 e1)
    exact ⟨s2, by simp [run, e1, e2], i2⟩

theorem inv_safe {w align sizeT : Nat} (ha : 0 < align) {s : St} (h : Inv w align sizeT s) : Safe w align sizeT s.held := by
  have hle : ∀ n, n * sizeT ≤ (n * sizeT + align - 1) / align * align := fun n => (isRoundUp_div align (n * sizeT) ha).2.1
  constructor
  · intro a hm h0
    have hb : blk align sizeT a ∈ s.heap :=
      h.perm.symm.subset (List.mem_map.2 ⟨a, List.mem_filter.2 ⟨hm, by simpa using h0⟩, rfl⟩)
    have := h.ok _ hb
    have h2 := hle a.2
    refine ⟨this.2.1, ?_⟩
    have h3 := this.2.2
    simp only [blk] at h3
    omega
  · have hs := (h.perm.pairwise_iff (R := Sep) (fun hab => hab.symm)).1 h.sep
    rw [List.pairwise_map, List.pairwise_filter] at hs
    refine hs.imp ?_
    intro a b hab ha0 hb0
    have := (hab (by simpa using ha0) (by simpa using hb0)).2
    have h1 := hle a.2
    have h2 := hle b.2
    simp only [blk, Apart] at this ⊢
    omega

/-- **C243 (partial)**: in every history of allocations and deallocations through AlignedAllocators, on every honest heap, with byte
counts whose rounding is representable: nothing undefined happens, every pointer held that is not null leads to aligned memory for
all its objects that nobody else holds, and the heap has exactly as many blocks in use as there are such pointers (nothing is lost).
Missing: larger counts, and pointers that are null although something was asked for (see below). -/
theorem C243_blocks_partial (w align sizeT : Nat) (ha : 0 < align) (l : List Op)
    (hn : ∀ n ans, Op.alloc n ans ∈ l → n * sizeT + (align - 1) < 2 ^ w) (hh : HonestRun w align sizeT ⟨[], []⟩ l) :
    ∃ s, run w align sizeT ⟨[], []⟩ l = .ok s ∧ Safe w align sizeT s.held ∧
      s.heap.length = (s.held.filter fun a => a.1 ≠ 0).length := by
  obtain ⟨s, e, i⟩ := inv_run ha l ⟨[], []⟩ ⟨by simp, by simp, by simp⟩ hn hh
  exact ⟨s, e, inv_safe ha i, by simpa using i.perm.length_eq⟩

theorem honest_some {w align sizeT n p : Nat} {heap : List Block} {held : List (Nat × Nat)} {l : List Op} (r : Nat)
    (hr : alignedRequest w align sizeT n = .ok (some r)) (h : Honest w align heap r p)
    (hl : HonestRun w align sizeT ⟨⟨p, r⟩ :: heap, (p, n) :: held⟩ l) :
    HonestRun w align sizeT ⟨heap, held⟩ (.alloc n (some p) :: l) := by
  constructor
  · intro n' p' r' e hr'
    injection e with e1 e2
    injection e2 with e3
    subst e1 e3
    rw [hr] at hr'
    injection hr' with e4
    injection e4 with e5
    exact e5 ▸ h
  · intro s' e
    simp only [step, allocate, hr] at e
    injection e with e
    exact e ▸ hl

theorem honest_other {w align sizeT : Nat} {s s' : St} {op : Op} {l : List Op} (ho : ∀ n p, op ≠ .alloc n (some p))
    (e : step w align sizeT s op = .ok s') (hl : HonestRun w align sizeT s' l) : HonestRun w align sizeT s (op :: l) := by
  refine ⟨fun n p r e => absurd e (ho n p), ?_⟩
  intro s2 e2
  rw [e] at e2
  injection e2 with e2
  exact e2 ▸ hl

/-- three vectors of 12-byte objects, one of them freed and its memory reused -/
def sample : List Op := [.alloc 10 (some 64), .alloc 3 (some 192), .alloc 0 none, .free 2, .alloc 5 (some 64)]

example : (∀ n ans, Op.alloc n ans ∈ sample → n * 12 + (64 - 1) < 2 ^ 32) ∧
    run 32 64 12 ⟨[], []⟩ sample = .ok ⟨[⟨64, 64⟩, ⟨192, 64⟩], [(64, 5), (0, 0), (192, 3)]⟩ := by
  refine ⟨?_, by decide⟩
  intro n ans h
  simp [sample] at h
  rcases h with h | h | h | h <;> omega

example : HonestRun 32 64 12 ⟨[], []⟩ sample := by
  refine honest_some 128 (by decide) (by unfold Honest Apart; decide) ?_
  refine honest_some 64 (by decide) (by unfold Honest Apart; decide) ?_
  refine honest_other (by simp) (s' := ⟨[⟨192, 64⟩, ⟨64, 128⟩], [(0, 0), (192, 3), (64, 10)]⟩) (by decide) ?_
  refine honest_other (by simp) (s' := ⟨[⟨192, 64⟩], [(0, 0), (192, 3)]⟩) (by decide) ?_
  exact honest_some 64 (by decide) (by unfold Honest Apart; decide) trivial

/-- **C243, exactly when** `allocate(n)` yields null: nothing was asked for, or the heap refused. -/
theorem C243_null_exact (w align sizeT n : Nat) (ans : Option Nat) (heap : List Block) (ha : 0 < align)
    (hp : ans ≠ some 0) : ∃ h p, allocate w align sizeT n ans heap = .ok (h, p) ∧ (p = 0 ↔ n = 0 ∨ ans = none) := by
  unfold allocate alignedRequest
  by_cases hn : n = 0
  · exact ⟨heap, 0, by simp [hn], by simp [hn]⟩
  · rw [if_neg hn, if_neg (by omega)]
    cases ans with
    | none => exact ⟨heap, 0, rfl, by simp⟩
    | some p => exact ⟨_, p, rfl, by simpa [hn] using hp⟩

example : (0 : Nat) < 64 ∧ (some 128 : Option Nat) ≠ some 0 ∧
    allocate 32 64 12 4 (some 128) [⟨64, 64⟩] = .ok ([⟨128, 64⟩, ⟨64, 64⟩], 128) := by decide

/-- **C243 is violated**: when the heap is exhausted, `allocate` reports no failure: whatever the number of objects, the user goes on
with a null pointer as if the call had succeeded, and builds the objects at address 0 (an allocator is required to throw). -/
theorem C243_exhausted_violated (w align sizeT n : Nat) (ha : 0 < align) :
    HonestRun w align sizeT ⟨[], []⟩ [.alloc n none] ∧ run w align sizeT ⟨[], []⟩ [.alloc n none] = .ok ⟨[], [(0, n)]⟩ := by
  have e : step w align sizeT ⟨[], []⟩ (.alloc n none) = .ok ⟨[], [(0, n)]⟩ := by
    by_cases hn : n = 0
    · simp [step, allocate, alignedRequest, hn]
    · have ha0 : align ≠ 0 := by omega
      simp [step, allocate, alignedRequest, hn, ha0]
  exact ⟨honest_other (by simp) e trivial, by simp [run, e]⟩

/-- **C243 is violated**: a count whose byte size wraps is granted: of two containers, on an honest heap, the second's memory is
inside what the first was told it has. -/
theorem C243_overflow_violated :
    HonestRun 32 64 8 ⟨[], []⟩ [.alloc 536870913 (some 64), .alloc 8 (some 128)] ∧
    run 32 64 8 ⟨[], []⟩ [.alloc 536870913 (some 64), .alloc 8 (some 128)] =
      .ok ⟨[⟨128, 64⟩, ⟨64, 64⟩], [(128, 8), (64, 536870913)]⟩ ∧
    ¬ Safe 32 64 8 [(128, 8), (64, 536870913)] := by
  refine ⟨?_, by decide, ?_⟩
  · refine honest_some 64 (by decide) (by unfold Honest Apart; decide) ?_
    exact honest_some 64 (by decide) (by unfold Honest Apart; decide) trivial
  · intro h
    have := h.2
    simp [Apart] at this

/-- **C243, exactly when** a granted count is one that fits: what the heap hands out covers the objects exactly if the rounding of the
byte count is representable. -/
theorem C243_fits_exact (w align sizeT n p : Nat) (heap : List Block) (ha : 0 < align) (ha2 : align ≤ 2 ^ w) (hn : 0 < n) (hs : 0 < sizeT) :
    ∃ r, allocate w align sizeT n (some p) heap = .ok (⟨p, r⟩ :: heap, p) ∧ (n * sizeT ≤ r ↔ n * sizeT + (align - 1) < 2 ^ w) := by
  obtain ⟨r, h1, h2⟩ := C41_aligned_allocator_exact w align sizeT n ha ha2 hn hs
  exact ⟨r, by simp [allocate, h1], h2⟩

example : (0 : Nat) < 64 ∧ 64 ≤ 2 ^ 32 ∧ (0 : Nat) < 536870913 ∧ (0 : Nat) < 8 ∧
    allocate 32 64 8 536870913 (some 64) [] = .ok ([⟨64, 64⟩], 64) := by decide

end AlignHeap
