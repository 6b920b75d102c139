import Verif.Spec.AllocIsr
/-!
# C251: allocating from an interrupt
-/
namespace AllocIsr
open AllocIsrSpec Alloc

/-! ### MonotonicAllocator -/

/-- Blocks one behind the other from `o` to `o'`. -/
inductive Chain : Nat → List Block → Nat → Prop
  | nil (o : Nat) : Chain o [] o
  | cons (o s o' : Nat) (bs : List Block) : Chain (o + s) bs o' → Chain o (⟨o, s⟩ :: bs) o'

theorem Chain.le {o o' : Nat} {bs : List Block} (h : Chain o bs o') : o ≤ o' := by
  induction h with
  | nil => exact Nat.le_refl _
  | cons o s o' bs _ ih => omega

theorem Chain.mem {o o' : Nat} {bs : List Block} (h : Chain o bs o') :
    ∀ b ∈ bs, o ≤ b.off ∧ b.off + b.size ≤ o' := by
  induction h with
  | nil => intro b hb; cases hb
  | cons o s o' bs hc ih =>
    intro b hb
    rcases List.mem_cons.mp hb with rfl | hb
    · exact ⟨Nat.le_refl _, hc.le⟩
    · have := ih b hb
      constructor <;> omega

theorem Chain.apart {o o' : Nat} {bs : List Block} (h : Chain o bs o') : bs.Pairwise Apart := by
  induction h with
  | nil => exact .nil
  | cons o s o' bs hc ih =>
    refine .cons ?_ ih
    intro b hb x hx
    have := (hc.mem b hb).1
    dsimp only at hx
    omega

/-- If the chain moves at all, some block in it covers its first byte. -/
theorem Chain.first {o o' : Nat} {bs : List Block} (h : Chain o bs o') (hlt : o < o') :
    ∃ b ∈ bs, b.off = o ∧ 0 < b.size := by
  induction h with
  | nil => omega
  | cons o s o' bs hc ih =>
    by_cases hs : 0 < s
    · exact ⟨_, List.mem_cons_self .., rfl, hs⟩
    · have s0 : s = 0 := by omega
      subst s0
      obtain ⟨b, hb, h1, h2⟩ := ih (by omega)
      exact ⟨b, List.mem_cons_of_mem _ hb, by omega, h2⟩

theorem freeSpace_eq (w : Nat) (a : Mono) (hw : a.arena < 2 ^ w) (ho : a.offset ≤ a.arena) :
    a.freeSpace w = a.arena - a.offset := by
  unfold Mono.freeSpace
  rw [Nat.mod_eq_of_lt (by omega : a.offset < 2 ^ w), show a.arena + 2 ^ w - a.offset = a.arena - a.offset + 2 ^ w by omega,
    Nat.add_mod_right, Nat.mod_eq_of_lt (by omega)]

theorem allocs_chain (w : Nat) : ∀ (ns : List Nat) (a : Mono), a.arena < 2 ^ w → a.offset ≤ a.arena →
    Chain a.offset (allocs w a ns).2 (allocs w a ns).1.offset
    ∧ (allocs w a ns).1.arena = a.arena ∧ (allocs w a ns).1.offset ≤ a.arena
    ∧ (a.offset < a.arena → (allocs w a ns).1.offset < a.arena) := by
  intro ns
  induction ns with
  | nil => intro a _ ho; exact ⟨.nil _, rfl, ho, id⟩
  | cons n ns ih =>
    intro a hw ho
    have hf := freeSpace_eq w a hw ho
    by_cases h : a.freeSpace w > n
    · have e : a.allocate w n = (⟨a.arena, (a.offset + n) % 2 ^ w⟩, some a.offset) := by
        unfold Mono.allocate; dsimp only; rw [if_pos h]
      rw [Nat.mod_eq_of_lt (by omega)] at e
      have i := ih ⟨a.arena, a.offset + n⟩ hw (by dsimp only; omega)
      unfold allocs
      rw [e]
      dsimp only at i ⊢
      exact ⟨.cons _ _ _ _ i.1, i.2.1, i.2.2.1, fun _ => i.2.2.2 (by omega)⟩
    · have e : a.allocate w n = (a, none) := by
        unfold Mono.allocate; dsimp only; rw [if_neg h]
      unfold allocs
      rw [e]
      exact ih a hw ho

/-- All blocks of an interrupted call, the interrupts' and the main program's. -/
def blocks (r : Mono × Option Block × List Block × List Block × List Block) : List Block :=
  r.2.2.1 ++ r.2.1.toList ++ r.2.2.2.1 ++ r.2.2.2.2

/-- `allocate` by the main program, interrupted by any allocations in its three gaps.  If it returns a block, all blocks
are sound exactly if the request still fits after the allocations of the first gap, those of the second gap got nothing
(unless the main program asked for no bytes), and those of the third got nothing. -/
theorem C251_mono_exact (w : Nat) (a : Mono) (hw : a.arena < 2 ^ w) (ho : a.offset ≤ a.arena) (size : Nat)
    (g1 g2 g3 : List Nat) (hfit : a.arena - a.offset > size) :
    Sound a.arena (interrupted w a size g1 g2 g3).1.offset (blocks (interrupted w a size g1 g2 g3))
      ↔ ((allocs w a g1).1.offset + size ≤ a.arena
        ∧ (size = 0 ∨ ∀ b ∈ (interrupted w a size g1 g2 g3).2.2.2.1, b.size = 0)
        ∧ ∀ b ∈ (interrupted w a size g1 g2 g3).2.2.2.2, b.size = 0) := by
  have hf := freeSpace_eq w a hw ho
  obtain ⟨c1, a1, o1, l1⟩ := allocs_chain w g1 a hw ho
  obtain ⟨c2, a2, o2, l2⟩ := allocs_chain w g2 (allocs w a g1).1 (by rw [a1]; exact hw) (by rw [a1]; exact o1)
  obtain ⟨c3, a3, o3, l3⟩ := allocs_chain w g3 (allocs w (allocs w a g1).1 g2).1 (by rw [a2, a1]; exact hw)
    (by rw [a2]; exact o2)
  unfold interrupted blocks
  rw [hf, if_pos hfit]
  dsimp only
  rw [a1] at o2 l2 a2
  rw [a2] at o3 l3
  have l1' := l1 (by omega)
  have l2' := l2 l1'
  clear a3 l1 l2 l3
  generalize (allocs w (allocs w (allocs w a g1).1 g2).1 g3).2 = b3 at *
  generalize (allocs w (allocs w (allocs w a g1).1 g2).1 g3).1.offset = p3 at *
  generalize (allocs w (allocs w a g1).1 g2).2 = b2 at *
  generalize (allocs w (allocs w a g1).1 g2).1.offset = p2 at *
  generalize (allocs w a g1).2 = b1 at *
  generalize (allocs w a g1).1.offset = p1 at *
  have hmain : (⟨p1, size⟩ : Block) ∈ b1 ++ (some (⟨p1, size⟩ : Block)).toList ++ b2 ++ b3 := by simp
  have h12 := c1.le
  have h23 := c2.le
  have h34 := c3.le
  constructor
  · rintro ⟨hp, hin, hoff⟩
    have hp1 : p1 + size ≤ a.arena := hin _ hmain
    have no_over : ∀ b ∈ b2 ++ b3, Apart ⟨p1, size⟩ b := by
      intro b hb
      rw [List.append_assoc, List.pairwise_append] at hp
      exact hp.2.2 _ (by simp) b hb
    have q2 : size = 0 ∨ p1 = p2 := by
      by_cases hs : size = 0
      · exact Or.inl hs
      · right
        by_cases hlt : p1 < p2
        · obtain ⟨b, hb, hbo, hbs⟩ := c2.first hlt
          exact absurd ⟨⟨Nat.le_refl _, by dsimp only; omega⟩, ⟨by omega, by omega⟩⟩
            (no_over b (List.mem_append_left _ hb) p1)
        · omega
    have q3 : p2 = p3 := by
      by_cases hlt : p2 < p3
      · exfalso
        obtain ⟨b, hb, hbo, hbs⟩ := c3.first hlt
        by_cases hs : size = 0
        · subst hs
          have := hoff b (by simp [hb]) p2 (by omega) (by omega)
          rw [Nat.add_zero, Nat.mod_eq_of_lt (by omega)] at this
          omega
        · have e : p1 = p2 := by omega
          exact absurd ⟨⟨Nat.le_refl _, by dsimp only; omega⟩, ⟨by omega, by omega⟩⟩
            (no_over b (List.mem_append_right _ hb) p1)
      · omega
    refine ⟨hp1, ?_, ?_⟩
    · rcases q2 with q2 | q2
      · exact Or.inl q2
      · right
        intro b hb
        have := c2.mem b hb
        omega
    · intro b hb
      have := c3.mem b hb
      omega
  · rintro ⟨hp1, h2, h3⟩
    have q2 : size = 0 ∨ p1 = p2 := by
      rcases h2 with h2 | h2
      · exact Or.inl h2
      · right
        by_cases hlt : p1 < p2
        · obtain ⟨b, hb, _, hbs⟩ := c2.first hlt
          have := h2 b hb; omega
        · omega
    have q3 : p2 = p3 := by
      by_cases hlt : p2 < p3
      · obtain ⟨b, hb, _, hbs⟩ := c3.first hlt
        have := h3 b hb; omega
      · omega
    have hfin : p2 + size < 2 ^ w := by
      rcases q2 with q2 | q2 <;> omega
    rw [Nat.mod_eq_of_lt hfin]
    have size2 : ∀ b ∈ b2, size = 0 ∨ b.size = 0 := by
      intro b hb
      rcases q2 with q2 | q2
      · exact Or.inl q2
      · have := c2.mem b hb; right; omega
    refine ⟨?_, ?_, ?_⟩
    · rw [List.pairwise_append, List.pairwise_append, List.pairwise_append]
      refine ⟨⟨⟨c1.apart, by simp, ?_⟩, c2.apart, ?_⟩, c3.apart, ?_⟩
      · intro b hb c hc x hx
        simp only [Option.toList_some, List.mem_singleton] at hc
        subst hc
        have := c1.mem b hb
        dsimp only at hx
        omega
      · intro b hb c hc x hx
        have hcm := c2.mem c hc
        rcases List.mem_append.mp hb with hb | hb
        · have := c1.mem b hb; omega
        · simp only [Option.toList_some, List.mem_singleton] at hb
          subst hb
          dsimp only at hx
          have := size2 c hc
          omega
      · intro b hb c hc x hx
        have := h3 c hc
        omega
    · intro b hb
      rcases List.mem_append.mp hb with hb | hb
      · rcases List.mem_append.mp hb with hb | hb
        · rcases List.mem_append.mp hb with hb | hb
          · have := c1.mem b hb; omega
          · simp only [Option.toList_some, List.mem_singleton] at hb
            subst hb; exact hp1
        · have := c2.mem b hb; omega
      · have := c3.mem b hb; omega
    · intro b hb x hx1 hx2
      rcases List.mem_append.mp hb with hb | hb
      · rcases List.mem_append.mp hb with hb | hb
        · rcases List.mem_append.mp hb with hb | hb
          · have := c1.mem b hb; omega
          · simp only [Option.toList_some, List.mem_singleton] at hb
            subst hb
            dsimp only at hx1 hx2
            omega
        · have := c2.mem b hb; omega
      · have := c3.mem b hb; omega

example : (interrupted 32 ⟨100, 10⟩ 20 [5] [] []).1.offset = 35
    ∧ (interrupted 32 ⟨100, 10⟩ 20 [5] [] []).2.1 = some ⟨15, 20⟩ := by decide

/-- A request that does not fit is refused, whatever the interrupts do, and their blocks are sound. -/
theorem C251_mono_refused (w : Nat) (a : Mono) (hw : a.arena < 2 ^ w) (ho : a.offset ≤ a.arena) (size : Nat)
    (g1 g2 g3 : List Nat) (hfit : ¬ a.arena - a.offset > size) :
    (interrupted w a size g1 g2 g3).2.1 = none
    ∧ Sound a.arena (interrupted w a size g1 g2 g3).1.offset (blocks (interrupted w a size g1 g2 g3)) := by
  have hf := freeSpace_eq w a hw ho
  obtain ⟨c1, a1, o1, l1⟩ := allocs_chain w g1 a hw ho
  unfold interrupted blocks
  rw [hf, if_neg hfit]
  refine ⟨rfl, ?_⟩
  simp only [Option.toList_none, List.append_nil]
  refine ⟨c1.apart, ?_, ?_⟩
  · intro b hb; have := c1.mem b hb; omega
  · intro b hb x _ hx; have := c1.mem b hb; omega

example : (interrupted 32 ⟨100, 30⟩ 80 [5] [] []).2.1 = none ∧ (interrupted 32 ⟨100, 30⟩ 80 [5] [] []).2.2.1 = [⟨30, 5⟩] := by
  decide

/-- The claim fails in each gap: a block past the arena; the same block twice; a block that the next call hands out
again. -/
theorem C251_mono_violated :
    (interrupted 32 ⟨100, 0⟩ 80 [50] [] []).2.1 = some ⟨50, 80⟩
    ∧ ((interrupted 32 ⟨100, 0⟩ 8 [] [8] []).2.1 = some ⟨0, 8⟩ ∧ (interrupted 32 ⟨100, 0⟩ 8 [] [8] []).2.2.2.1 = [⟨0, 8⟩])
    ∧ ((interrupted 32 ⟨100, 0⟩ 0 [] [] [8]).2.2.2.2 = [⟨0, 8⟩]
      ∧ ((interrupted 32 ⟨100, 0⟩ 0 [] [] [8]).1.allocate 32 8).2 = some 0) := by
  decide

/-! ### Pool -/

theorem live_append (es fs : List Event) : ∀ l, live l (es ++ fs) = live (live l es) fs := by
  induction es with
  | nil => intro l; rfl
  | cons e es ih =>
    intro l
    cases e with
    | made i => exact ih (i :: l)
    | freed i => exact ih (l.erase i)

theorem call_tracks (used : List Bool) (l : List Nat) (h : Tracks used l) (o : Op) :
    Tracks (call used o).1 (live l (call used o).2) ∧ (call used o).1.length = used.length := by
  obtain ⟨hn, hm⟩ := h
  cases o with
  | create =>
    unfold call
    cases hf : used.findIdx? (fun b => !b) with
    | none => exact ⟨⟨hn, hm⟩, rfl⟩
    | some i =>
      rw [List.findIdx?_eq_some_iff_getElem] at hf
      obtain ⟨hi, hb, _⟩ := hf
      have hb' : used[i]? = some false := by rw [List.getElem?_eq_getElem hi]; simpa using hb
      dsimp only [live]
      refine ⟨⟨?_, ?_⟩, by simp⟩
      · rw [List.nodup_cons]
        refine ⟨?_, hn⟩
        rw [hm i, hb']
        simp
      · intro j
        rw [List.mem_cons, List.getElem?_set]
        by_cases e : i = j
        · subst e; simp [hi]
        · rw [if_neg e, hm j]
          constructor
          · rintro (h | h)
            · exact absurd h.symm e
            · exact h
          · exact Or.inr
  | destroy i =>
    unfold call
    by_cases hi : used[i]? = some true
    · dsimp only
      rw [if_pos hi]
      dsimp only [live]
      refine ⟨⟨hn.erase i, ?_⟩, by simp⟩
      intro j
      rw [hn.mem_erase_iff, hm j, List.getElem?_set]
      by_cases e : i = j
      · subst e
        rw [if_pos rfl]
        constructor
        · rintro ⟨h, _⟩; exact absurd rfl h
        · intro h
          split at h <;> cases h
      · rw [if_neg e]
        exact ⟨fun h => h.2, fun h => ⟨fun h' => e h'.symm, h⟩⟩
    · dsimp only
      rw [if_neg hi]
      exact ⟨⟨hn, hm⟩, rfl⟩

theorem calls_tracks (os : List Op) : ∀ (used : List Bool) (l : List Nat), Tracks used l →
    Tracks (calls used os).1 (live l (calls used os).2) ∧ (calls used os).1.length = used.length := by
  induction os with
  | nil => intro used l h; exact ⟨h, rfl⟩
  | cons o os ih =>
    intro used l h
    obtain ⟨h1, e1⟩ := call_tracks used l h o
    obtain ⟨h2, e2⟩ := ih _ _ h1
    unfold calls
    dsimp only
    rw [live_append]
    exact ⟨h2, e2.trans e1⟩

/-- No `create` among the calls: no entry becomes used. -/
theorem calls_no_create (os : List Op) (hos : .create ∉ os) : ∀ (used : List Bool) (i : Nat), used[i]? = some false →
    (calls used os).1[i]? = some false := by
  induction os with
  | nil => intro used i h; exact h
  | cons o os ih =>
    intro used i h
    unfold calls
    dsimp only
    refine ih (fun h => hos (List.mem_cons_of_mem _ h)) _ i ?_
    cases o with
    | create => exact absurd (List.mem_cons_self ..) hos
    | destroy j =>
      unfold call
      dsimp only
      by_cases hj : used[j]? = some true
      · rw [if_pos hj]
        dsimp only
        rw [List.getElem?_set]
        by_cases e : j = i
        · subst e; rw [h] at hj; cases hj
        · rw [if_neg e]; exact h
      · rw [if_neg hj]; exact h

theorem mainCreate_main (win : List Op) : ∀ (gaps : List (List Op)) (used : List Bool) (k : Nat) (l : List Nat),
    Tracks used l →
    (∀ i, (mainCreate win gaps used k).2.1 = some i →
      ∃ u', Tracks u' (live l (mainCreate win gaps used k).2.2) ∧ u'.length = used.length ∧ i < used.length
        ∧ (mainCreate win gaps used k).1 = u'.set i true)
    ∧ ((mainCreate win gaps used k).2.1 = none →
      Tracks (mainCreate win gaps used k).1 (live l (mainCreate win gaps used k).2.2)) := by
  intro gaps
  induction gaps with
  | nil => intro used k l h; exact ⟨fun i hi => (by cases hi), fun _ => h⟩
  | cons g gs ih =>
    intro used k l h
    obtain ⟨h1, e1⟩ := calls_tracks g used l h
    unfold mainCreate
    dsimp only
    cases hk : (calls used g).1[k]? with
    | none => exact ⟨fun i hi => (by cases hi), fun _ => h1⟩
    | some b =>
      cases b with
      | false =>
        dsimp only
        obtain ⟨h2, e2⟩ := calls_tracks win _ _ h1
        refine ⟨?_, fun hi => (by cases hi)⟩
        intro i hi
        cases hi
        rw [live_append]
        refine ⟨_, h2, e2.trans e1, ?_, rfl⟩
        rw [← e1]
        by_cases hlt : k < (calls used g).1.length
        · exact hlt
        · rw [List.getElem?_eq_none (by omega)] at hk; cases hk
      | true =>
        dsimp only
        rw [live_append]
        obtain ⟨i1, i2⟩ := ih (calls used g).1 (k + 1) _ h1
        refine ⟨?_, i2⟩
        intro i hi
        obtain ⟨u', t, e, hlt, r⟩ := i1 i hi
        exact ⟨u', t, e.trans e1, by omega, r⟩

/-- `create()` by the main program with any calls of interrupts in all gaps, but no `create` between its test of the
entry's flag and its store: every entry is in one hand only, and the flags say so. -/
theorem C251_pool_partial (win : List Op) (hwin : .create ∉ win) : ∀ (gaps : List (List Op)) (used : List Bool) (k : Nat)
    (l : List Nat), Tracks used l →
    Tracks (mainCreate win gaps used k).1
      ((mainCreate win gaps used k).2.1.toList ++ live l (mainCreate win gaps used k).2.2) := by
  intro gaps
  induction gaps with
  | nil => intro used k l h; exact h
  | cons g gs ih =>
    intro used k l h
    obtain ⟨h1, e1⟩ := calls_tracks g used l h
    unfold mainCreate
    dsimp only
    cases hk : (calls used g).1[k]? with
    | none => exact h1
    | some b =>
      cases b with
      | true =>
        dsimp only
        rw [live_append]
        exact ih _ _ _ h1
      | false =>
        dsimp only
        rw [live_append]
        obtain ⟨⟨n2, m2⟩, e2⟩ := calls_tracks win _ _ h1
        have hfree := calls_no_create win hwin _ k hk
        have hlt : k < (calls (calls used g).1 win).1.length := by
          by_cases hlt : k < (calls (calls used g).1 win).1.length
          · exact hlt
          · rw [List.getElem?_eq_none (by omega)] at hfree; cases hfree
        refine ⟨?_, ?_⟩
        · simp only [Option.toList_some, List.singleton_append]
          rw [List.nodup_cons, m2 k, hfree]
          exact ⟨by simp, n2⟩
        · intro j
          simp only [Option.toList_some, List.singleton_append]
          rw [List.mem_cons, m2 j, List.getElem?_set]
          by_cases e : k = j
          · subst e; simp [hlt]
          · rw [if_neg e]
            constructor
            · rintro (h | h)
              · exact absurd h.symm e
              · exact h
            · exact Or.inr

/-- With any calls of interrupts everywhere: if the main program gets entry `i`, no entry is in two hands exactly if no
interrupt holds `i` when the main program marks it; if it gets none, the flags are right. -/
theorem C251_pool_sound_exact (win : List Op) (gaps : List (List Op)) (used : List Bool) (l : List Nat)
    (h : Tracks used l) :
    (∀ i, (mainCreate win gaps used 0).2.1 = some i →
      ((i :: live l (mainCreate win gaps used 0).2.2).Nodup ↔ i ∉ live l (mainCreate win gaps used 0).2.2))
    ∧ ((mainCreate win gaps used 0).2.1 = none →
      Tracks (mainCreate win gaps used 0).1 (live l (mainCreate win gaps used 0).2.2)) := by
  obtain ⟨h1, h2⟩ := mainCreate_main win gaps used 0 l h
  refine ⟨?_, h2⟩
  intro i hi
  obtain ⟨u', ⟨t, _⟩, _⟩ := h1 i hi
  rw [List.nodup_cons]
  exact ⟨fun h => h.1, fun h => ⟨h, t⟩⟩

example : Tracks [true, false, false] [0] := by
  refine ⟨by decide, ?_⟩
  intro i
  match i with
  | 0 => simp
  | 1 => simp
  | 2 => simp
  | i + 3 => simp

/-- Only `create` among the calls: used entries stay used. -/
theorem calls_creates_mono (os : List Op) (hos : ∀ o ∈ os, o = .create) : ∀ (used : List Bool) (i : Nat),
    used[i]? = some true → (calls used os).1[i]? = some true := by
  induction os with
  | nil => intro used i h; exact h
  | cons o os ih =>
    intro used i h
    have ho := hos o (List.mem_cons_self ..)
    subst ho
    unfold calls
    dsimp only
    refine ih (fun o h => hos o (List.mem_cons_of_mem _ h)) _ i ?_
    unfold call
    cases hf : used.findIdx? (fun b => !b) with
    | none => exact h
    | some j =>
      dsimp only
      rw [List.getElem?_set]
      by_cases e : j = i
      · subst e
        have : j < used.length := by
          by_cases hlt : j < used.length
          · exact hlt
          · rw [List.getElem?_eq_none (by omega)] at h; cases h
        rw [if_pos rfl, if_pos this]
      · rw [if_neg e]; exact h

/-- If all entries before the free entry `k` are used, `create` takes `k`. -/
theorem call_create_lowest (used : List Bool) (k : Nat) (hk : used[k]? = some false)
    (hlow : ∀ j < k, used[j]? = some true) : call used .create = (used.set k true, [.made k]) := by
  have hlt : k < used.length := by
    by_cases hlt : k < used.length
    · exact hlt
    · rw [List.getElem?_eq_none (by omega)] at hk; cases hk
  have : used.findIdx? (fun b => !b) = some k := by
    rw [List.findIdx?_eq_some_iff_getElem]
    rw [List.getElem?_eq_getElem hlt] at hk
    refine ⟨hlt, by simpa using hk, ?_⟩
    intro j hj
    have := hlow j hj
    rw [List.getElem?_eq_getElem (by omega)] at this
    simpa using this
  unfold call
  rw [this]

/-- Interrupts that only create: if the main program gets entry `i`, some interrupt holds it as well exactly if one came
between the test of the flag and its store. -/
theorem C251_pool_exact (win : List Op) (hwin : ∀ o ∈ win, o = .create) : ∀ (gaps : List (List Op)),
    (∀ g ∈ gaps, ∀ o ∈ g, o = .create) → ∀ (used : List Bool) (k : Nat) (l : List Nat), Tracks used l →
    (∀ j < k, used[j]? = some true) → ∀ i, (mainCreate win gaps used k).2.1 = some i →
    (i ∈ live l (mainCreate win gaps used k).2.2 ↔ win ≠ []) := by
  intro gaps
  induction gaps with
  | nil => intro _ used k l _ _ i hi; cases hi
  | cons g gs ih =>
    intro hg used k l h hlow i hi
    obtain ⟨h1, e1⟩ := calls_tracks g used l h
    have hlow1 : ∀ j < k, (calls used g).1[j]? = some true := fun j hj =>
      calls_creates_mono g (hg g (List.mem_cons_self ..)) used j (hlow j hj)
    unfold mainCreate at hi ⊢
    dsimp only at hi ⊢
    cases hk : (calls used g).1[k]? with
    | none => rw [hk] at hi; cases hi
    | some b =>
      cases b with
      | true =>
        rw [hk] at hi
        dsimp only at hi ⊢
        rw [live_append]
        refine ih (fun g' h' => hg g' (List.mem_cons_of_mem _ h')) _ (k + 1) _ h1 ?_ i hi
        intro j hj
        by_cases e : j = k
        · subst e; exact hk
        · exact hlow1 j (by omega)
      | false =>
        rw [hk] at hi
        dsimp only at hi ⊢
        cases hi
        rw [live_append]
        obtain ⟨⟨n2, m2⟩, e2⟩ := calls_tracks win _ _ h1
        rw [m2 k]
        cases win with
        | nil => simp [calls, hk]
        | cons o os =>
          have ho := hwin o (List.mem_cons_self ..)
          subst ho
          have hlt : k < (calls used g).1.length := by
            by_cases hlt : k < (calls used g).1.length
            · exact hlt
            · rw [List.getElem?_eq_none (by omega)] at hk; cases hk
          have hc := call_create_lowest _ k hk hlow1
          have : (calls (calls used g).1 (.create :: os)).1[k]? = some true := by
            unfold calls
            dsimp only
            rw [hc]
            refine calls_creates_mono os (fun o h => hwin o (List.mem_cons_of_mem _ h)) _ k ?_
            dsimp only
            rw [List.getElem?_set, if_pos rfl, if_pos hlt]
          simp [this]

example : mainCreate [] [[.create], [.create], []] [true, false, false] 0 = ([true, true, true], none, [.made 1, .made 2]) := by
  decide

example : (mainCreate [.create, .create] [[.create], [], []] [false, false, false, false] 0).2
    = (some 1, [.made 0, .made 1, .made 2]) := by decide

/-- The claim fails: an interrupt's `create()` between test and store of the main program's gets the same entry. -/
theorem C251_pool_violated :
    (mainCreate [.create] [[], [], []] [true, false, false] 0).2 = (some 1, [.made 1]) := by decide

/-- Without interrupts the model is `Pool::create` and `destroy`. -/
theorem createLoop_flags {T : Type} (fresh : T → T) : ∀ (es : List (Pool.Entry T)) (pre : List Bool),
    (mainCreate [] (List.replicate es.length []) (pre ++ es.map (·.used)) pre.length).1
        = pre ++ (Pool.createLoop fresh es pre.length).1.map (·.used)
    ∧ (mainCreate [] (List.replicate es.length []) (pre ++ es.map (·.used)) pre.length).2.1
        = (Pool.createLoop fresh es pre.length).2 := by
  intro es
  induction es with
  | nil => intro pre; simp [mainCreate, Pool.createLoop]
  | cons e es ih =>
    intro pre
    rw [List.length_cons, List.replicate_succ]
    unfold mainCreate Pool.createLoop
    simp only [calls]
    have hg : (pre ++ (e :: es).map (·.used))[pre.length]? = some e.used := by simp
    rw [hg]
    cases hu : e.used with
    | false => simp
    | true =>
      have i := ih (pre ++ [true])
      simp only [List.length_append, List.length_singleton, List.append_assoc, List.singleton_append] at i
      simp only [List.map_cons, hu, Bool.not_true, Bool.false_eq_true, if_false]
      rw [i.1, i.2]
      exact ⟨rfl, rfl⟩

/-- Without interrupts the model is `Pool::create`. -/
theorem C251_pool_alone {T : Type} (dflt : T) (es : List (Pool.Entry T)) :
    (mainCreate [] (List.replicate es.length []) (es.map (·.used)) 0).1 = (Pool.create dflt es).1.map (·.used)
    ∧ (mainCreate [] (List.replicate es.length []) (es.map (·.used)) 0).2.1 = (Pool.create dflt es).2 := by
  have := createLoop_flags (fun _ => dflt) es []
  simpa [Pool.create] using this

end AllocIsr
