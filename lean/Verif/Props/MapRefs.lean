import Verif.Spec.MapRefs
import Verif.Props.SeqMap
import Verif.Props.SequentialMap
/-! # Property C201: pointers, references and iterators into the maps stay attached to their key -/
namespace SeqMap
variable {K V : Type} [DecidableEq K]

/-- What every state reached by calls satisfies. -/
structure Wf (s : St K V) : Prop where
  ok : Ok s
  pos : 0 < s.keys.length
  old : s.oldest < s.keys.length

theorem Wf.call {k0 : K} {v0 : V} {s s' : St K V} (h : Wf s) {c : Call K V} (hc : call k0 v0 s c = .ok s') :
    Wf s' ∧ s'.keys.length = s.keys.length := by
  obtain ⟨⟨h1, h2⟩, hp, ho⟩ := h
  cases c with
  | insert k v =>
    by_cases hf : s.sz ≥ s.keys.length
    · simp [SeqMap.call, insert, hf] at hc; subst hc; exact ⟨⟨⟨h1, h2⟩, hp, ho⟩, rfl⟩
    · simp [SeqMap.call, insert, hf, arrSet, show s.sz < s.keys.length by omega, show s.sz < s.vals.length by omega] at hc
      subst hc
      exact ⟨⟨⟨by simp [h1], by simp; omega⟩, by simpa using hp, by simpa using ho⟩, by simp⟩
  | overwrite k v =>
    cases hs : scan s k with
    | some i =>
      obtain ⟨g1, -, -⟩ := scan_some hs
      simp [SeqMap.call, overwrite, hs, arrSet, show i < s.vals.length by omega] at hc
      subst hc
      exact ⟨⟨⟨by simp [h1], h2⟩, hp, ho⟩, rfl⟩
    | none =>
      by_cases hf : s.sz ≥ s.keys.length
      · simp [SeqMap.call, overwrite, hs, hf, arrSet, ho, show s.oldest < s.vals.length by omega] at hc
        subst hc
        refine ⟨⟨⟨by simp [h1], by simp; omega⟩, by simpa using hp, ?_⟩, by simp⟩
        simp only [List.length_set]; split <;> omega
      · simp [SeqMap.call, overwrite, hs, hf, arrSet, show s.sz < s.keys.length by omega, show s.sz < s.vals.length by omega] at hc
        subst hc
        exact ⟨⟨⟨by simp [h1], by simp; omega⟩, by simpa using hp, by simpa using ho⟩, by simp⟩
  | remove k =>
    cases hs : scan s k with
    | some i =>
      obtain ⟨g1, -, -⟩ := scan_some hs
      simp [SeqMap.call, remove, hs, arrSet, show i < s.vals.length by omega, show i < s.keys.length by omega] at hc
      subst hc
      exact ⟨⟨⟨by simp [h1], by simpa using h2⟩, by simpa using hp, by simpa using ho⟩, by simp⟩
    | none => simp [SeqMap.call, remove, hs] at hc; subst hc; exact ⟨⟨⟨h1, h2⟩, hp, ho⟩, rfl⟩
  | removeLast =>
    simp [SeqMap.call, removeLast] at hc; subst hc
    split
    · exact ⟨⟨⟨h1, by simp; omega⟩, hp, ho⟩, rfl⟩
    · exact ⟨⟨⟨h1, h2⟩, hp, ho⟩, rfl⟩
  | store p v =>
    by_cases hf : p < s.vals.length
    · simp [SeqMap.call, arrSet, hf] at hc; subst hc; exact ⟨⟨⟨by simp [h1], h2⟩, hp, ho⟩, rfl⟩
    · simp [SeqMap.call, arrSet, hf] at hc

/-- **C201 (exact, SeqMap)**: if `get(k)` returned the pointer `p`, then after any one call it returns `p` again unless the call
is one of those listed in `Spec.Detaches`. -/
theorem C201_seqmap_pointer_exact (k0 : K) (v0 : V) (s s' : St K V) (h : Wf s) (k : K) (p : Nat) (hp : getIdx s k = some p)
    (c : Call K V) (hc : call k0 v0 s c = .ok s') : getIdx s' k = some p ↔ ¬ Spec.Detaches k0 s k p c := by
  obtain ⟨⟨h1, h2⟩, hpos, ho⟩ := h
  obtain ⟨a1, a2, a3⟩ := scan_some hp
  cases c with
  | insert k' v =>
    simp only [Spec.Detaches, not_false_eq_true, iff_true]
    by_cases hf : s.sz ≥ s.keys.length
    · simp [SeqMap.call, insert, hf] at hc; subst hc; exact hp
    · simp [SeqMap.call, insert, hf, arrSet, show s.sz < s.keys.length by omega, show s.sz < s.vals.length by omega] at hc
      subst hc
      exact scan_prefix (by simp) (fun j hj => by simp; rw [List.getElem?_set_ne (by omega)]) hp
  | overwrite k' v =>
    cases hs : scan s k' with
    | some i =>
      have hke : keyExists s k' = true := by rw [keyExists_eq, hs]; rfl
      obtain ⟨g1, -, -⟩ := scan_some hs
      simp [SeqMap.call, overwrite, hs, arrSet, show i < s.vals.length by omega] at hc
      subst hc
      simp only [Spec.Detaches, hke, Bool.true_eq_false, false_and, not_false_eq_true, iff_true]
      exact hp
    | none =>
      have hke : keyExists s k' = false := by rw [keyExists_eq, hs]; rfl
      have hne : k' ≠ k := by rintro rfl; rw [getIdx] at hp; rw [hs] at hp; cases hp
      by_cases hf : s.sz ≥ s.keys.length
      · simp [SeqMap.call, overwrite, hs, hf, arrSet, ho, show s.oldest < s.vals.length by omega] at hc
        subst hc
        simp only [Spec.Detaches, hke, true_and]
        constructor
        · rintro hg ⟨-, he⟩
          obtain ⟨b1, b2, b3⟩ := scan_some hg
          simp only [he] at b2
          rw [List.getElem?_set_self (by omega)] at b2
          exact hne (by injection b2)
        · intro hn
          have hop : s.oldest ≠ p := fun e => hn ⟨by omega, e⟩
          refine scan_eq_some a1 ?_ ?_
          · simp only; rw [List.getElem?_set_ne hop]; exact a2
          · intro j hj
            by_cases hjo : s.oldest = j
            · simp only; rw [hjo, List.getElem?_set_self (by omega)]
              intro e; injection e with e; exact hne e
            · simp only; rw [List.getElem?_set_ne hjo]; exact a3 j hj
      · simp [SeqMap.call, overwrite, hs, hf, arrSet, show s.sz < s.keys.length by omega, show s.sz < s.vals.length by omega] at hc
        subst hc
        simp only [Spec.Detaches, hke, true_and]
        constructor
        · rintro - ⟨e, -⟩; omega
        · intro _
          exact scan_prefix (by simp) (fun j hj => by simp; rw [List.getElem?_set_ne (by omega)]) hp
  | remove k' =>
    cases hs : scan s k' with
    | none =>
      simp [SeqMap.call, remove, hs] at hc; subst hc
      have hne : k' ≠ k := by rintro rfl; rw [getIdx] at hp; rw [hs] at hp; cases hp
      simp only [hp, Spec.Detaches, hne, false_and, false_or, true_iff]
      rintro ⟨-, j, hj, -⟩
      rw [getIdx] at hj; rw [hs] at hj; cases hj
    | some i =>
      obtain ⟨g1, g2, g3⟩ := scan_some hs
      simp [SeqMap.call, remove, hs, arrSet, show i < s.vals.length by omega, show i < s.keys.length by omega] at hc
      subst hc
      simp only [Spec.Detaches]
      by_cases hk : k' = k
      · subst hk
        have hip : i = p := by rw [getIdx] at hp; rw [hs] at hp; injection hp
        subst hip
        constructor
        · intro hg
          obtain ⟨b1, b2, b3⟩ := scan_some hg
          simp only at b2
          rw [List.getElem?_set_self (by omega)] at b2
          injection b2 with b2
          rintro (⟨-, hne⟩ | ⟨-, j, hj, hji⟩)
          · exact hne b2.symm
          · rw [getIdx, hs] at hj; injection hj with hj; omega
        · intro hn
          have hk0 : k' = k0 := Decidable.byContradiction fun hne => hn (.inl ⟨rfl, hne⟩)
          refine scan_eq_some g1 ?_ ?_
          · simp only; rw [List.getElem?_set_self (by omega), hk0]
          · intro j hj
            simp only; rw [List.getElem?_set_ne (by omega)]; exact g3 j hj
      · have hip : i ≠ p := by rintro rfl; rw [g2] at a2; injection a2 with e; exact hk e
        constructor
        · intro hg
          obtain ⟨b1, b2, b3⟩ := scan_some hg
          rintro (⟨e, -⟩ | ⟨e, j, hj, hji⟩)
          · exact hk e
          · rw [getIdx, hs] at hj; injection hj with hj; subst hj
            have := b3 i hji
            simp only at this
            rw [List.getElem?_set_self (by omega)] at this
            exact this (by rw [e])
        · intro hn
          refine scan_eq_some a1 ?_ ?_
          · simp only; rw [List.getElem?_set_ne hip]; exact a2
          · intro j hj
            by_cases hij : i = j
            · simp only; rw [hij, List.getElem?_set_self (by omega)]
              intro e; injection e with e
              exact hn (.inr ⟨e.symm, i, hs, by omega⟩)
            · simp only; rw [List.getElem?_set_ne hij]; exact a3 j hj
  | removeLast =>
    simp [SeqMap.call, removeLast] at hc; subst hc
    rw [if_pos (by omega)]
    simp only [Spec.Detaches]
    constructor
    · intro hg e
      obtain ⟨b1, -, -⟩ := scan_some hg
      simp only at b1; omega
    · intro hn
      exact scan_eq_some (by simp only; omega) a2 a3
  | store q v =>
    simp only [Spec.Detaches, not_false_eq_true, iff_true]
    by_cases hf : q < s.vals.length
    · simp [SeqMap.call, arrSet, hf] at hc; subst hc; exact hp
    · simp [SeqMap.call, arrSet, hf] at hc

example := C201_seqmap_pointer_exact 0 0 (⟨[5, 6, 0], [50, 60, 0], 2, 0⟩ : St Nat Nat) ⟨[5, 6, 7], [50, 60, 70], 3, 0⟩ ⟨⟨rfl, by decide⟩, by decide, by decide⟩ 6 1 (by decide) (.overwrite 7 70) (by decide)

/-- `k` occurs once among the entries, at `p`. -/
def Once (s : St K V) (k : K) (p : Nat) : Prop := p < s.sz ∧ ∀ j : Nat, j < s.sz → (s.keys[j]? = some k ↔ j = p)

theorem Once.getIdx {s : St K V} {k : K} {p : Nat} (h : Once s k p) : getIdx s k = some p :=
  scan_eq_some h.1 ((h.2 p h.1).mpr rfl) (fun j hj e => by have := (h.2 j (by have := h.1; omega)).mp e; omega)

theorem Once.call {k0 : K} {v0 : V} {s s' : St K V} (h : Wf s) {k : K} {p : Nat} (ho : Once s k p) (hk : k ≠ k0) {c : Call K V}
    (hi : ∀ v, c ≠ .insert k v) (hc : call k0 v0 s c = .ok s') (hs' : keyExists s' k = true) : Once s' k p := by
  obtain ⟨⟨h1, h2⟩, hpos, hold⟩ := h
  obtain ⟨o1, o2⟩ := ho
  have hsc := Once.getIdx ⟨o1, o2⟩
  have key : ∃ q, q < s'.sz ∧ s'.keys[q]? = some k := by
    rw [keyExists_eq] at hs'
    cases he : scan s' k with
    | none => rw [he] at hs'; cases hs'
    | some q => obtain ⟨b1, b2, -⟩ := scan_some he; exact ⟨q, b1, b2⟩
  obtain ⟨q, hq1, hq2⟩ := key
  suffices hsub : ∀ j : Nat, j < s'.sz → s'.keys[j]? = some k → j = p by
    have e := hsub q hq1 hq2
    subst e
    exact ⟨hq1, fun j hj => ⟨hsub j hj, fun e => by rw [e]; exact hq2⟩⟩
  cases c with
  | insert k' v =>
    have hne : k' ≠ k := by rintro rfl; exact hi v rfl
    by_cases hf : s.sz ≥ s.keys.length
    · simp [SeqMap.call, insert, hf] at hc; subst hc; exact fun j hj => (o2 j hj).mp
    · simp [SeqMap.call, insert, hf, arrSet, show s.sz < s.keys.length by omega, show s.sz < s.vals.length by omega] at hc
      subst hc
      intro j hj hjk
      simp only at hj hjk
      by_cases hjs : s.sz = j
      · rw [hjs, List.getElem?_set_self (by omega)] at hjk; injection hjk with e; exact absurd e hne
      · rw [List.getElem?_set_ne hjs] at hjk; exact (o2 j (by omega)).mp hjk
  | overwrite k' v =>
    cases hs : scan s k' with
    | some i =>
      obtain ⟨g1, -, -⟩ := scan_some hs
      simp [SeqMap.call, overwrite, hs, arrSet, show i < s.vals.length by omega] at hc
      subst hc; exact fun j hj => (o2 j hj).mp
    | none =>
      have hne : k' ≠ k := by rintro rfl; rw [SeqMap.getIdx] at hsc; rw [hs] at hsc; cases hsc
      by_cases hf : s.sz ≥ s.keys.length
      · simp [SeqMap.call, overwrite, hs, hf, arrSet, hold, show s.oldest < s.vals.length by omega] at hc
        subst hc
        intro j hj hjk
        simp only at hj hjk
        by_cases hjs : s.oldest = j
        · rw [hjs, List.getElem?_set_self (by omega)] at hjk; injection hjk with e; exact absurd e hne
        · rw [List.getElem?_set_ne hjs] at hjk; exact (o2 j (by omega)).mp hjk
      · simp [SeqMap.call, overwrite, hs, hf, arrSet, show s.sz < s.keys.length by omega, show s.sz < s.vals.length by omega] at hc
        subst hc
        intro j hj hjk
        simp only at hj hjk
        by_cases hjs : s.sz = j
        · rw [hjs, List.getElem?_set_self (by omega)] at hjk; injection hjk with e; exact absurd e hne
        · rw [List.getElem?_set_ne hjs] at hjk; exact (o2 j (by omega)).mp hjk
  | remove k' =>
    cases hs : scan s k' with
    | none => simp [SeqMap.call, remove, hs] at hc; subst hc; exact fun j hj => (o2 j hj).mp
    | some i =>
      obtain ⟨g1, g2, g3⟩ := scan_some hs
      simp [SeqMap.call, remove, hs, arrSet, show i < s.vals.length by omega, show i < s.keys.length by omega] at hc
      subst hc
      intro j hj hjk
      simp only at hj hjk
      by_cases hjs : i = j
      · rw [hjs, List.getElem?_set_self (by omega)] at hjk; injection hjk with e; exact absurd e.symm hk
      · rw [List.getElem?_set_ne hjs] at hjk; exact (o2 j (by omega)).mp hjk
  | removeLast =>
    simp [SeqMap.call, removeLast] at hc; subst hc
    rw [if_pos (by omega)]
    intro j hj hjk
    simp only at hj hjk
    exact (o2 j (by omega)).mp hjk
  | store q v =>
    by_cases hf : q < s.vals.length
    · simp [SeqMap.call, arrSet, hf] at hc; subst hc; exact fun j hj => (o2 j hj).mp
    · simp [SeqMap.call, arrSet, hf] at hc

/-- What a call does to the value at `p`, the place of `k`. -/
theorem Once.val {k0 : K} {v0 : V} {s s' : St K V} (h : Wf s) {k : K} {p : Nat} (ho : Once s k p) (hk : k ≠ k0) {c : Call K V}
    (hi : ∀ v, c ≠ .insert k v) (hc : SeqMap.call k0 v0 s c = .ok s') (hs' : keyExists s' k = true) {v : V} (hv : s.vals[p]? = some v) :
    s'.vals[p]? = some (Spec.lastGiven k p v [c]) := by
  have ho' := ho.call h hk hi hc hs'
  obtain ⟨⟨h1, h2⟩, hpos, hold⟩ := h
  have hsc := ho.getIdx
  have o1 := ho.1
  cases c with
  | insert k' v' =>
    simp only [Spec.lastGiven]
    by_cases hf : s.sz ≥ s.keys.length
    · simp [SeqMap.call, insert, hf] at hc; subst hc; exact hv
    · simp [SeqMap.call, insert, hf, arrSet, show s.sz < s.keys.length by omega, show s.sz < s.vals.length by omega] at hc
      subst hc
      simp only; rw [List.getElem?_set_ne (by omega)]; exact hv
  | overwrite k' v' =>
    simp only [Spec.lastGiven]
    cases hs : scan s k' with
    | some i =>
      obtain ⟨g1, g2, -⟩ := scan_some hs
      simp [SeqMap.call, overwrite, hs, arrSet, show i < s.vals.length by omega] at hc
      subst hc
      simp only
      by_cases hkk : k' = k
      · subst hkk
        have : i = p := (ho.2 i g1).mp g2
        subst this
        rw [if_pos rfl, List.getElem?_set_self (by omega)]
      · have : i ≠ p := by rintro rfl; exact hkk (by have := (ho.2 i g1).mpr rfl; rw [g2] at this; injection this)
        rw [if_neg hkk, List.getElem?_set_ne this]; exact hv
    | none =>
      have hne : k' ≠ k := by rintro rfl; rw [SeqMap.getIdx] at hsc; rw [hs] at hsc; cases hsc
      rw [if_neg hne]
      by_cases hf : s.sz ≥ s.keys.length
      · simp [SeqMap.call, overwrite, hs, hf, arrSet, hold, show s.oldest < s.vals.length by omega] at hc
        subst hc
        have hop : s.oldest ≠ p := by
          intro e
          have := (ho'.2 p ho'.1).mpr rfl
          simp only [e] at this
          rw [List.getElem?_set_self (by omega)] at this
          injection this with e'; exact hne e'
        simp only; rw [List.getElem?_set_ne hop]; exact hv
      · simp [SeqMap.call, overwrite, hs, hf, arrSet, show s.sz < s.keys.length by omega, show s.sz < s.vals.length by omega] at hc
        subst hc
        simp only; rw [List.getElem?_set_ne (by omega)]; exact hv
  | remove k' =>
    simp only [Spec.lastGiven]
    cases hs : scan s k' with
    | none => simp [SeqMap.call, remove, hs] at hc; subst hc; exact hv
    | some i =>
      obtain ⟨g1, g2, g3⟩ := scan_some hs
      simp [SeqMap.call, remove, hs, arrSet, show i < s.vals.length by omega, show i < s.keys.length by omega] at hc
      subst hc
      have hip : i ≠ p := by
        intro e
        have := (ho'.2 p ho'.1).mpr rfl
        simp only [e] at this
        rw [List.getElem?_set_self (by omega)] at this
        injection this with e'; exact hk e'.symm
      simp only; rw [List.getElem?_set_ne hip]; exact hv
  | removeLast =>
    simp only [Spec.lastGiven]
    simp [SeqMap.call, removeLast] at hc; subst hc
    rw [if_pos (by omega)]; exact hv
  | store q v' =>
    simp only [Spec.lastGiven]
    by_cases hf : q < s.vals.length
    · simp [SeqMap.call, arrSet, hf] at hc; subst hc
      simp only
      by_cases hq : q = p
      · subst hq; rw [if_pos rfl, List.getElem?_set_self hf]
      · rw [if_neg hq, List.getElem?_set_ne hq]; exact hv
    · simp [SeqMap.call, arrSet, hf] at hc

theorem lastGiven_cons (k : K) (p : Nat) (v : V) (c : Call K V) (cs : List (Call K V)) :
    Spec.lastGiven k p v (c :: cs) = Spec.lastGiven k p (Spec.lastGiven k p v [c]) cs := by
  cases c <;> rfl

/-- **C201 (partial, SeqMap)**: let `p` be the pointer to the value `v` of `k` (which is not the default key and occurs once).  Through any
history of calls that does not insert `k` a second time, as long as `k` stays in the map, `get(k)` returns `p` and `p` points to the
value last given to `k`, by `overwrite` or through the pointer.
Missing: the default key, and keys inserted twice (next theorems). -/
theorem C201_seqmap_pointer_partial (k0 : K) (v0 : V) (k : K) (hk : k ≠ k0) (p : Nat) (cs : List (Call K V))
    (hi : ∀ v, Call.insert k v ∉ cs) : ∀ (s : St K V) (v : V), Wf s → Once s k p → s.vals[p]? = some v →
    Spec.Stays k0 v0 k s cs → ∃ s', calls k0 v0 s cs = .ok s' ∧ getIdx s' k = some p ∧
      get s' k = .ok (some (Spec.lastGiven k p v cs)) := by
  induction cs with
  | nil =>
    intro s v h ho hv hst
    refine ⟨s, rfl, ho.getIdx, ?_⟩
    simp [get, ho.getIdx, arrGet, hv, Spec.lastGiven]
  | cons c cs ih =>
    intro s v h ho hv hst
    obtain ⟨-, s1, hc, hst1⟩ := hst
    have hke : keyExists s1 k = true := by cases cs <;> first | exact hst1 | exact hst1.1
    have hic : ∀ v, c ≠ .insert k v := fun v e => hi v (by rw [e]; simp)
    obtain ⟨s', e1, e2, e3⟩ := ih (fun v hm => hi v (List.mem_cons_of_mem _ hm)) s1 _ (h.call hc).1 (ho.call h hk hic hc hke)
      (ho.val h hk hic hc hke hv) hst1
    refine ⟨s', ?_, e2, ?_⟩
    · simp only [calls, hc, R.bind_ok]; exact e1
    · rw [lastGiven_cons]; exact e3

/-- keys 1, 2, 3 in a map of three; 4 evicts 1, 2 is overwritten, 3 removed; the pointer to 2 follows all of it -/
example : Wf (⟨[1, 2, 3], [10, 20, 30], 3, 0⟩ : St Nat Nat) ∧ Once (⟨[1, 2, 3], [10, 20, 30], 3, 0⟩ : St Nat Nat) 2 1 ∧
    Spec.Stays 0 0 2 (⟨[1, 2, 3], [10, 20, 30], 3, 0⟩ : St Nat Nat) [.overwrite 4 40, .overwrite 2 21, .remove 3, .store 1 22] ∧
    Spec.lastGiven 2 1 20 [.overwrite 4 40, .overwrite 2 21, .remove 3, .store (K := Nat) 1 22] = 22 := by
  refine ⟨⟨⟨rfl, by decide⟩, by decide, by decide⟩, ⟨by decide, by decide⟩, ?_, by decide⟩
  refine ⟨by decide, ⟨[4, 2, 3], [40, 20, 30], 3, 1⟩, by decide, by decide, ⟨[4, 2, 3], [40, 21, 30], 3, 1⟩, by decide, by decide,
    ⟨[4, 2, 0], [40, 21, 0], 3, 1⟩, by decide, by decide, ⟨[4, 2, 0], [40, 22, 0], 3, 1⟩, by decide, show keyExists _ _ = true by decide⟩

/-- **C201 (violated, SeqMap)**: the key stays in the map but the pointer does not stay attached: after removing an earlier entry `get` finds
the default key there; and a key inserted twice is found at its second place once the first is evicted, the old pointer then
reading the value of the key that took the place. -/
theorem C201_seqmap_pointer_violated :
    (∃ (s : St Nat Nat) (p : Nat), Wf s ∧ getIdx s 0 = some p ∧
      ∃ s', call 0 0 s (.remove 7) = .ok s' ∧ keyExists s' 0 = true ∧ getIdx s' 0 ≠ some p) ∧
    (∃ s s' : St Nat Nat, calls 0 0 (init [9, 9] [9, 9]) [.insert 5 50, .insert 5 51] = .ok s ∧ getIdx s 5 = some 0 ∧
      call 0 0 s (.overwrite 6 60) = .ok s' ∧ keyExists s' 5 = true ∧ getIdx s' 5 = some 1 ∧ s'.vals[0]? = some 60) := by
  refine ⟨⟨⟨[7, 0], [70, 1], 2, 0⟩, 1, ⟨⟨rfl, by decide⟩, by decide, by decide⟩, by decide, ⟨[0, 0], [0, 1], 2, 0⟩, by decide, by decide, by decide⟩,
    ⟨⟨[5, 5], [50, 51], 2, 0⟩, ⟨[6, 5], [60, 51], 2, 1⟩, by decide, by decide, by decide, by decide, by decide, by decide⟩⟩

/-- **C201**: the pointer `overwrite` returns for a new key is one the theorem above speaks of, and a new map and every call keep the
conditions on the map. -/
theorem C201_seqmap_fresh_pointer (s : St K V) (h : Wf s) (k : K) (v : V) (hn : keyExists s k = false) :
    ∃ s' p, overwrite s k v = .ok (s', p) ∧ Wf s' ∧ Once s' k p ∧ s'.vals[p]? = some v := by
  have hs : scan s k = none := by
    rw [keyExists_eq] at hn; cases e : scan s k with
    | none => rfl
    | some _ => rw [e] at hn; cases hn
  have hno := scan_none hs
  have hw := h
  obtain ⟨⟨h1, h2⟩, hpos, hold⟩ := h
  have hfin : ∀ (i : Nat) (s' : St K V), overwrite s k v = .ok (s', i) → i < s'.sz → s'.keys = s.keys.set i k → i < s.keys.length →
      s'.vals = s.vals.set i v → (∀ j : Nat, j < s'.sz → j ≠ i → j < s.sz) →
      ∃ s' p, overwrite s k v = .ok (s', p) ∧ Wf s' ∧ Once s' k p ∧ s'.vals[p]? = some v := by
    intro i s' e hi ek hil ev hj
    refine ⟨s', i, e, ?_, ⟨hi, ?_⟩, ?_⟩
    · exact (hw.call (k0 := k) (v0 := v) (c := .overwrite k v) (by simp [call, e])).1
    · intro j hjs
      rw [ek]
      by_cases hij : i = j
      · rw [hij, List.getElem?_set_self (by omega)]; simp
      · rw [List.getElem?_set_ne hij]
        exact ⟨fun e => absurd e (hno j (hj j hjs (fun e => hij e.symm))), fun e => absurd e.symm hij⟩
    · rw [ev, List.getElem?_set_self (by omega)]
  by_cases hf : s.sz ≥ s.keys.length
  · exact hfin s.oldest { s with keys := s.keys.set s.oldest k, vals := s.vals.set s.oldest v, oldest := if s.keys.length ≤ s.oldest + 1 then 0 else s.oldest + 1 } (by simp [overwrite, hs, hf, arrSet, hold, show s.oldest < s.vals.length by omega])
      (by simp only; omega) rfl hold rfl (fun j hj _ => hj)
  · exact hfin s.sz _ (by simp [overwrite, hs, hf, arrSet, show s.sz < s.keys.length by omega, show s.sz < s.vals.length by omega]; rfl)
      (by simp) rfl (by omega) rfl (fun j hj hne => by simp only at hj; omega)

example : keyExists (init [0, 0] [0, 0] : St Nat Nat) 5 = false ∧ overwrite (init [0, 0] [0, 0] : St Nat Nat) 5 50 = .ok (⟨[5, 0], [50, 0], 1, 0⟩, 0) := by
  decide

/-- A new map meets the conditions on the map. -/
theorem C201_seqmap_init (keys : List K) (vals : List V) (hp : 0 < keys.length) (hl : vals.length = keys.length) : Wf (init keys vals) :=
  ⟨⟨hl, Nat.zero_le _⟩, hp, hp⟩

/-- **C201**: a pointer to an evicted entry silently points to the value of the key that replaced it. -/
theorem C201_seqmap_evicted (k0 : K) (v0 : V) (s : St K V) (h : Wf s) (k k' : K) (v : V) (p : Nat) (hp : getIdx s k = some p)
    (hfull : s.sz = s.keys.length) (ho : s.oldest = p) (hn : keyExists s k' = false) :
    ∃ s', call k0 v0 s (.overwrite k' v) = .ok s' ∧ getIdx s' k' = some p ∧ s'.vals[p]? = some v := by
  obtain ⟨⟨h1, h2⟩, hpos, hold⟩ := h
  have hs : scan s k' = none := by
    rw [keyExists_eq] at hn; cases e : scan s k' with
    | none => rfl
    | some _ => rw [e] at hn; cases hn
  obtain ⟨a1, -, -⟩ := scan_some hp
  have e : call k0 v0 s (.overwrite k' v) = .ok { s with keys := s.keys.set s.oldest k', vals := s.vals.set s.oldest v, oldest := if s.oldest + 1 ≥ s.keys.length then 0 else s.oldest + 1 } := by
    simp [call, overwrite, hs, hfull, arrSet, hold, show s.oldest < s.vals.length by omega]
  refine ⟨_, e, scan_eq_some (by simp only; omega) ?_ ?_, ?_⟩
  · simp only; rw [ho, List.getElem?_set_self (by omega)]
  · intro j hj; simp only; rw [ho, List.getElem?_set_ne (by omega)]; exact scan_none hs j (by omega)
  · simp only; rw [ho, List.getElem?_set_self (by omega)]

example : Wf (⟨[1, 2], [10, 20], 2, 0⟩ : St Nat Nat) ∧ getIdx (⟨[1, 2], [10, 20], 2, 0⟩ : St Nat Nat) 1 = some 0 ∧
    keyExists (⟨[1, 2], [10, 20], 2, 0⟩ : St Nat Nat) 3 = false :=
  ⟨⟨⟨rfl, by decide⟩, by decide, by decide⟩, by decide, by decide⟩

end SeqMap

namespace SequentialMap
variable {K V : Type} [DecidableEq K]

theorem idxOf_eq {l : List K} {k : K} : ∀ {a : Nat}, l[a]? = some k → (∀ b : Nat, b < a → l[b]? ≠ some k) → l.idxOf k = a := by
  induction l with
  | nil => intro a h _; cases h
  | cons x l ih =>
    intro a h hb
    cases a with
    | zero => simp at h; simp [h]
    | succ a =>
      have hx : x ≠ k := fun e => hb 0 (by omega) (by simp [e])
      rw [List.idxOf_cons, beq_false_of_ne hx]
      simp only [cond_false]
      rw [ih (by simpa using h) (fun b hba => by have := hb (b + 1) (by omega); simpa using this)]

theorem nodup_iff {l : List K} : l.Nodup ↔ ∀ a c : Nat, a < c → c < l.length → l[a]? ≠ l[c]? := by
  rw [List.Nodup, List.pairwise_iff_getElem]
  constructor
  · intro h a c hac hc e
    rw [List.getElem?_eq_getElem hc, List.getElem?_eq_getElem (by omega)] at e
    injection e with e
    exact h a c (by omega) hc hac e
  · intro h a c ha hc hac e
    exact h a c hac hc (by rw [List.getElem?_eq_getElem hc, List.getElem?_eq_getElem ha, e])

theorem idxOf_len {l : List K} {k : K} (h : k ∉ l) : l.idxOf k = l.length := by
  induction l with
  | nil => rfl
  | cons x l ih =>
    have hx : x ≠ k := fun e => h (by simp [e])
    rw [List.idxOf_cons, beq_false_of_ne hx]
    simp only [cond_false, List.length_cons]
    rw [ih (fun hm => h (List.mem_cons_of_mem _ hm))]

/-- The keys in the order of the entries. -/
def keysOf (s : St K V) : List K := (FixedVector.toList s).map (·.1)

theorem keysOf_length {s : St K V} (h : Ok s) : (keysOf s).length = s.back := by
  unfold Ok at h
  simp [keysOf, FixedVector.toList]; omega

theorem find_eq {s : St K V} (h : Ok s) (k : K) : find s k = (keysOf s).idxOf k := by
  unfold find
  rw [search_eq]
  by_cases hk : k ∈ (FixedVector.toList s).map (·.1)
  · rw [if_pos hk]; simp [keysOf]
  · rw [if_neg hk]
    have := keysOf_length h
    have e : (keysOf s).idxOf k = (keysOf s).length := idxOf_len hk
    simp only [Option.getD_none]; omega

theorem keysOf_getElem? {s : St K V} (j : Nat) : (keysOf s)[j]? = if j < s.back then (s.data[j]?).map (·.1) else none := by
  simp only [keysOf, FixedVector.toList, List.getElem?_map, List.getElem?_take]
  split <;> rfl

/-- **C201 (exact, SequentialMap)**: after `erase(k')` the entry of another key `k` is where it was if it lay before the erased entry (or nothing
was erased), and one place earlier if it lay after it; there the iterator and the reference obtained before now belong to the
entry that followed, or to nothing (they are `end()`). -/
theorem C201_erase_exact (s : St K V) (h : Ok s) (hd : (keysOf s).Nodup) (k k' : K) (hk : k ∈ keysOf s) (hne : k' ≠ k) :
    ∃ s' n, erase s k' = .ok (s', n) ∧ Ok s' ∧ (keysOf s').Nodup ∧ k ∈ keysOf s' ∧
      (find s k < find s k' → find s' k = find s k ∧ s'.data[find s k]? = s.data[find s k]?) ∧
      (find s k' < find s k → find s' k + 1 = find s k ∧ s'.data[find s' k]? = s.data[find s k]? ∧
        (find s k + 1 < s.back → s'.data[find s k]? = s.data[find s k + 1]?) ∧ (find s k + 1 = s.back → find s k = s'.back)) := by
  have hlen := keysOf_length h
  by_cases hk' : k' ∈ keysOf s
  · have hj : find s k' < s.back := by rw [find_eq h, ← hlen]; exact List.idxOf_lt_length_of_mem hk'
    have hi : find s k < s.back := by rw [find_eq h, ← hlen]; exact List.idxOf_lt_length_of_mem hk
    obtain ⟨s', e1, e2⟩ := fv_eraseRange h.fv (find s k') (find s k' + 1) (by omega) (by
      have : (FixedVector.toList s).length = s.back := by rw [← hlen]; simp [keysOf]
      omega)
    have htl := e2.toList
    have hqlen : (FixedVector.toList s).length = s.back := by rw [← hlen]; simp [keysOf]
    have hb' : s'.back + 1 = s.back := by
      have := e2.back; simp only [List.length_append, List.length_take, List.length_drop, hqlen] at this; omega
    have hok' : Ok s' := by unfold Ok at *; have := e2.len; omega
    -- the elements of the new vector
    have hel : ∀ j : Nat, j + 1 < s.back → s'.data[j]? = if j < find s k' then s.data[j]? else s.data[j + 1]? := by
      intro j hj1
      have hq := e2.el j (by simp only [List.length_append, List.length_take, List.length_drop, hqlen]; omega)
      rw [hq]
      by_cases hlt : j < find s k'
      · rw [if_pos hlt, List.getElem?_append_left (by simp only [List.length_take, hqlen]; omega), List.getElem?_take, if_pos hlt]
        exact (h.fv.el j (by omega)).symm
      · rw [if_neg hlt, List.getElem?_append_right (by simp only [List.length_take, hqlen]; omega)]
        rw [List.getElem?_drop, h.fv.el (j + 1) (by omega)]
        congr 1
        simp only [List.length_take, hqlen]; omega
    have hkeys : keysOf s' = (keysOf s).erase k' := by
      rw [erase_take_drop, ← find_eq h]
      simp only [keysOf, htl, List.map_append, List.map_take, List.map_drop]
    have hko : (keysOf s)[find s k]? = some k := by
      rw [find_eq h, List.getElem?_eq_getElem (List.idxOf_lt_length_of_mem hk)]
      simp
    have hij : find s k ≠ find s k' := by
      intro e
      have hko' : (keysOf s)[find s k']? = some k' := by
        rw [find_eq h, List.getElem?_eq_getElem (List.idxOf_lt_length_of_mem hk')]; simp
      rw [e, hko'] at hko; injection hko with e'; exact hne e'
    have huniq : ∀ j : Nat, (keysOf s)[j]? = some k → j = find s k := by
      intro j hjk
      have := (nodup_iff.mp hd)
      rcases Nat.lt_trichotomy j (find s k) with hlt | heq | hgt
      · exact absurd (hjk.trans hko.symm) (this j _ hlt (by omega))
      · exact heq
      · have hjl : j < (keysOf s).length := (List.getElem?_eq_some_iff.mp hjk).1
        exact absurd (hko.trans hjk.symm) (this _ j hgt hjl)
    have hkd : ∀ j : Nat, j + 1 < s.back → (keysOf s')[j]? = if j < find s k' then (keysOf s)[j]? else (keysOf s)[j + 1]? := by
      intro j hj1
      rw [keysOf_getElem?, if_pos (by omega), hel j hj1]
      split
      · rw [keysOf_getElem?, if_pos (by omega)]
      · rw [keysOf_getElem?, if_pos hj1]
    refine ⟨s', 1, ?_, hok', ?_, ?_, ?_, ?_⟩
    · unfold erase
      simp only [show find s k' ≠ s.back by omega, ne_eq, not_false_eq_true, if_true, e1, R.bind_ok, R.pure_eq]
    · rw [hkeys]; exact hd.erase _
    · rw [hkeys]; exact (List.mem_erase_of_ne (fun e => hne e.symm)).mpr hk
    · intro hlt
      have e : find s' k = find s k := by
        rw [find_eq hok']
        refine idxOf_eq ?_ ?_
        · rw [hkd _ (by omega), if_pos hlt]; exact hko
        · intro b hb; rw [hkd _ (by omega), if_pos (by omega)]; intro e; have := huniq _ e; omega
      exact ⟨e, by rw [hel _ (by omega), if_pos hlt]⟩
    · intro hgt
      have e : find s' k = find s k - 1 := by
        rw [find_eq hok']
        refine idxOf_eq ?_ ?_
        · rw [hkd _ (by omega), if_neg (by omega)]; rw [show find s k - 1 + 1 = find s k by omega]; exact hko
        · intro b hb
          rw [hkd _ (by omega)]
          split
          · intro e; have := huniq _ e; omega
          · intro e; have := huniq _ e; omega
      refine ⟨by omega, ?_, ?_, by omega⟩
      · rw [e, hel _ (by omega), if_neg (by omega), show find s k - 1 + 1 = find s k by omega]
      · intro h2; rw [hel _ (by omega), if_neg (by omega)]
  · have hj : find s k' = s.back := by
      rw [find_eq h, ← hlen]; exact idxOf_len hk'
    have hi : find s k < s.back := by rw [find_eq h, ← hlen]; exact List.idxOf_lt_length_of_mem hk
    refine ⟨s, 0, ?_, h, hd, hk, fun _ => ⟨rfl, rfl⟩, by omega⟩
    unfold erase
    simp only [hj, ne_eq, not_true_eq_false, if_false, R.pure_eq]

example : Ok (⟨[(1, 10), (2, 20), (3, 30), (0, 0)], 3⟩ : St Nat Nat) ∧ (keysOf (⟨[(1, 10), (2, 20), (3, 30), (0, 0)], 3⟩ : St Nat Nat)).Nodup ∧
    2 ∈ keysOf (⟨[(1, 10), (2, 20), (3, 30), (0, 0)], 3⟩ : St Nat Nat) ∧
    find (⟨[(1, 10), (2, 20), (3, 30), (0, 0)], 3⟩ : St Nat Nat) 1 < find (⟨[(1, 10), (2, 20), (3, 30), (0, 0)], 3⟩ : St Nat Nat) 2 := by
  refine ⟨by unfold Ok; decide, by decide, by decide, by decide⟩

/-- **C201 (violated)**: the comment on `erase` says that it invalidates iterators to elements *before* the erased one.  It is the iterators to
the elements after it that no longer refer to their entry: for every map and every two keys in that order. -/
theorem C201_erase_comment_violated (s : St K V) (h : Ok s) (hd : (keysOf s).Nodup) (k k' : K) (hk : k ∈ keysOf s)
    (hlt : find s k' < find s k) : ∃ s' n, erase s k' = .ok (s', n) ∧ find s' k ≠ find s k := by
  have hne : k' ≠ k := by rintro rfl; omega
  obtain ⟨s', n, e1, -, -, -, -, e2⟩ := C201_erase_exact s h hd k k' hk hne
  exact ⟨s', n, e1, by have := (e2 hlt).1; omega⟩

/-- **C201 (exact, SequentialMap)**: `m[k']` leaves the entry of another key `k` in place, unless the map is full, `k'` is new and `k` is the last
entry: then that entry is renamed, `k` is gone and the reference to its value has become the reference to the value of `k'`. -/
theorem C201_index_exact (s : St K V) (h : Ok s) (hp : 0 < maxSize s) (hd : (keysOf s).Nodup) (k k' : K) (hk : k ∈ keysOf s) (hne : k' ≠ k) :
    ∃ s' i, index s k' = .ok (s', i) ∧ Ok s' ∧ (keysOf s').Nodup ∧ find s' k' = i ∧
      (¬ (isFull s = true ∧ k' ∉ keysOf s ∧ find s k + 1 = s.back) → find s' k = find s k ∧ s'.data[find s k]? = s.data[find s k]?) ∧
      (isFull s = true ∧ k' ∉ keysOf s ∧ find s k + 1 = s.back → k ∉ keysOf s' ∧ i = find s k ∧
        ∃ v, s.data[find s k]? = some (k, v) ∧ s'.data[find s k]? = some (k', v)) := by
  have hlen := keysOf_length h
  have hi : find s k < s.back := by rw [find_eq h, ← hlen]; exact List.idxOf_lt_length_of_mem hk
  have hko : (keysOf s)[find s k]? = some k := by
    rw [find_eq h, List.getElem?_eq_getElem (List.idxOf_lt_length_of_mem hk)]; simp
  have hnd := (nodup_iff.mp hd)
  have huniq : ∀ j : Nat, (keysOf s)[j]? = some k → j = find s k := by
    intro j hjk
    rcases Nat.lt_trichotomy j (find s k) with hlt | heq | hgt
    · exact absurd (hjk.trans hko.symm) (hnd j _ hlt (by omega))
    · exact heq
    · have hjl : j < (keysOf s).length := (List.getElem?_eq_some_iff.mp hjk).1
      exact absurd (hko.trans hjk.symm) (hnd _ j hgt hjl)
  have hs := search_eq k' (FixedVector.toList s) 0
  change _ = if k' ∈ keysOf s then some (0 + (keysOf s).idxOf k') else none at hs
  by_cases hk' : k' ∈ keysOf s
  · rw [if_pos hk'] at hs
    refine ⟨s, find s k', ?_, h, hd, rfl, fun _ => ⟨rfl, rfl⟩, fun hx => absurd hk' hx.2.1⟩
    unfold index find; rw [hs]; rfl
  · rw [if_neg hk'] at hs
    simp only [maxSize, FixedVector.maxSize] at hp
    have hokb : s.back ≤ s.data.length := h
    -- the new state: entry `i` gets the key, the size becomes `b`
    have fin : ∀ i b : Nat, index s k' = .ok (⟨s.data.set i (k', (s.data[i]?.map (·.2)).getD (s.data[0]'hp).2), b⟩, i) → i < s.data.length →
        i + 1 = b → b ≤ s.data.length → s.back ≤ b → b ≤ s.back + 1 →
        ∃ s' i', index s k' = .ok (s', i') ∧ Ok s' ∧ (keysOf s').Nodup ∧ find s' k' = i' ∧ i' = i ∧
          (find s k ≠ i → find s' k = find s k ∧ s'.data[find s k]? = s.data[find s k]?) ∧
          (find s k = i → k ∉ keysOf s' ∧ ∃ v, s.data[find s k]? = some (k, v) ∧ s'.data[find s k]? = some (k', v)) := by
      intro i b e hil hib hb1 hb2 hb3
      generalize hs' : (⟨s.data.set i (k', (s.data[i]?.map (·.2)).getD (s.data[0]'hp).2), b⟩ : St K V) = s' at e
      have hdat : s'.data = s.data.set i (k', (s.data[i]?.map (·.2)).getD (s.data[0]'hp).2) := by rw [← hs']
      have hbk : s'.back = b := by rw [← hs']
      have hok' : Ok s' := by unfold Ok; rw [hdat, hbk]; simpa using hb1
      have hkd : ∀ j : Nat, (keysOf s')[j]? = if j = i then some k' else (keysOf s)[j]? := by
        intro j
        rw [keysOf_getElem?, hbk, hdat]
        by_cases hji : j = i
        · subst hji; rw [if_pos (by omega), List.getElem?_set_self hil, if_pos rfl]; rfl
        · rw [List.getElem?_set_ne (fun e => hji e.symm), if_neg hji, keysOf_getElem?]
          by_cases hjb : j < s.back
          · rw [if_pos (by omega), if_pos hjb]
          · rw [if_neg (by omega), if_neg hjb]
      have hnk' : ∀ j : Nat, (keysOf s)[j]? ≠ some k' := fun j e => hk' (List.mem_of_getElem? e)
      refine ⟨s', i, e, hok', ?_, ?_, rfl, ?_, ?_⟩
      · rw [nodup_iff]
        intro a c hac hcl
        have hcl' : c < b := by rw [keysOf_length hok', hbk] at hcl; exact hcl
        rw [hkd a, hkd c]
        by_cases ha : a = i
        · have : c ≠ i := by omega
          rw [if_pos ha, if_neg this]; exact fun e => hnk' c e.symm
        · rw [if_neg ha]
          by_cases hc : c = i
          · rw [if_pos hc]; exact hnk' a
          · rw [if_neg hc]; exact hnd a c hac (by omega)
      · rw [find_eq hok']
        refine idxOf_eq ?_ ?_
        · rw [hkd, if_pos rfl]
        · intro c hc; rw [hkd, if_neg (by omega)]; exact hnk' c
      · intro hx
        constructor
        · rw [find_eq hok']
          refine idxOf_eq ?_ ?_
          · rw [hkd, if_neg hx]; exact hko
          · intro c hc
            rw [hkd]
            split
            · intro e; injection e with e; exact hne e
            · intro e; have := huniq _ e; omega
        · rw [hdat, List.getElem?_set_ne (fun e => hx e.symm)]
      · intro hx
        refine ⟨?_, ?_⟩
        · intro hm
          obtain ⟨j, hj⟩ := List.mem_iff_getElem?.mp hm
          rw [hkd] at hj
          split at hj
          · injection hj with e; exact hne e
          · next hji => exact hji (by have := huniq _ hj; omega)
        · have hd1 : (keysOf s)[find s k]? = (s.data[find s k]?).map (·.1) := by rw [keysOf_getElem?, if_pos hi]
          rw [hko] at hd1
          cases hpair : s.data[find s k]? with
          | none => rw [hpair] at hd1; cases hd1
          | some pr =>
            rw [hpair] at hd1
            refine ⟨pr.2, ?_, ?_⟩
            · obtain ⟨a, c⟩ := pr
              simp at hd1
              rw [hd1]
            · rw [hdat, ← hx, List.getElem?_set_self (by omega), hpair]; rfl
    by_cases hf : s.back = s.data.length
    · have hfull : isFull s = true := by simp [isFull, FixedVector.size, FixedVector.maxSize, hf]
      obtain ⟨s', i', e1, e2, e3, e4, e5, e6, e7⟩ := fin (s.data.length - 1) s.data.length (by
        unfold index
        rw [hs]
        have hc : s.back ≥ s.data.length := by omega
        have hne0 : s.data.length ≠ 0 := by omega
        have hlt : s.data.length - 1 < s.data.length := by omega
        simp only [FixedVector.pushBackForOverwrite, FixedVector.maxSize, hc, if_true, hne0, if_false, R.pure_eq, R.bind_ok]
        rw [arrGet_lt hlt, R.bind_ok, arrSet_lt hlt, R.bind_ok]
        simp [hlt, hf]) (by omega) (by omega) (by omega) (by omega) (by omega)
      refine ⟨s', i', e1, e2, e3, e4, ?_, ?_⟩
      · intro hx
        exact e6 (fun e => hx ⟨hfull, hk', by omega⟩)
      · rintro ⟨-, -, hx⟩
        obtain ⟨g1, g2⟩ := e7 (by omega)
        exact ⟨g1, by omega, g2⟩
    · have hnf : ¬ isFull s = true := by simp [isFull, FixedVector.size, FixedVector.maxSize, hf]
      obtain ⟨s', i', e1, e2, e3, e4, e5, e6, e7⟩ := fin s.back (s.back + 1) (by
        unfold index
        rw [hs]
        have hc : ¬ s.back ≥ s.data.length := by omega
        have hlt : s.back < s.data.length := by omega
        simp only [FixedVector.pushBackForOverwrite, FixedVector.maxSize, hc, hf, if_false, R.pure_eq, R.bind_ok]
        rw [arrGet_lt hlt, R.bind_ok, arrSet_lt hlt, R.bind_ok]
        simp [hlt]) (by omega) (by omega) (by omega) (by omega) (by omega)
      exact ⟨s', i', e1, e2, e3, e4, fun _ => e6 (by omega), fun hx => absurd hx.1 hnf⟩

example : Ok (⟨[(1, 10), (2, 20)], 2⟩ : St Nat Nat) ∧ 0 < maxSize (⟨[(1, 10), (2, 20)], 2⟩ : St Nat Nat) ∧
    (keysOf (⟨[(1, 10), (2, 20)], 2⟩ : St Nat Nat)).Nodup ∧ 2 ∈ keysOf (⟨[(1, 10), (2, 20)], 2⟩ : St Nat Nat) ∧
    (isFull (⟨[(1, 10), (2, 20)], 2⟩ : St Nat Nat) = true ∧ 3 ∉ keysOf (⟨[(1, 10), (2, 20)], 2⟩ : St Nat Nat) ∧
      find (⟨[(1, 10), (2, 20)], 2⟩ : St Nat Nat) 2 + 1 = 2) ∧
    index (⟨[(1, 10), (2, 20)], 2⟩ : St Nat Nat) 3 = .ok (⟨[(1, 10), (3, 20)], 2⟩, 1) := by
  refine ⟨by unfold Ok; decide, by decide, by decide, by decide, by decide, by decide⟩

end SequentialMap
