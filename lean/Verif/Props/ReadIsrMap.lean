import Verif.Props.ReadIsr
/-!
# C249, maps: `SeqMap` and `SequentialMap` read by an interrupt while the main program changes them
-/
namespace ReadIsr
open ReadIsrSpec

variable {K V : Type} [DecidableEq K]

/-! ### searching -/

theorem find_set_ne (k a : K) (hk : k ≠ a) : ∀ (l : List K) (i : Nat), l[i]? ≠ some k →
    (l.set i a).findIdx? (fun x => decide (x = k)) = l.findIdx? (fun x => decide (x = k)) := by
  intro l
  induction l with
  | nil => intros; rfl
  | cons b l ih =>
    intro i h
    cases i with
    | zero =>
      have hb : ¬ b = k := by intro e; subst e; simp at h
      have ha : ¬ a = k := fun e => hk e.symm
      simp [List.findIdx?_cons, hb, ha]
    | succ i =>
      rw [List.set_cons_succ, List.findIdx?_cons, List.findIdx?_cons, ih i (by simpa using h)]

theorem find_set_new (k : K) : ∀ (l : List K) (i : Nat), i < l.length →
    l.findIdx? (fun x => decide (x = k)) = none →
    (l.set i k).findIdx? (fun x => decide (x = k)) = some i := by
  intro l
  induction l with
  | nil => intro i h; simp at h
  | cons b l ih =>
    intro i h hn
    rw [List.findIdx?_cons] at hn
    by_cases hb : b = k
    · simp [hb] at hn
    · simp only [hb, decide_false, Bool.false_eq_true, if_false, Option.map_eq_none_iff] at hn
      cases i with
      | zero => simp [List.findIdx?_cons]
      | succ i =>
        rw [List.set_cons_succ, List.findIdx?_cons, ih i (by simpa using h) hn]
        simp [hb]

theorem find_lt {l : List K} {k : K} {i : Nat} (h : l.findIdx? (fun x => decide (x = k)) = some i) :
    i < l.length ∧ l[i]? = some k := by
  rw [List.findIdx?_eq_some_iff_getElem] at h
  obtain ⟨hi, h1, _⟩ := h
  exact ⟨hi, by rw [List.getElem?_eq_getElem hi]; simpa using h1⟩

theorem get_congr (s t : SeqMap.St K V) (k : K) (h1 : SeqMap.scan t k = SeqMap.scan s k)
    (h2 : ∀ i, SeqMap.scan s k = some i → t.vals[i]? = s.vals[i]?) : SeqMap.get t k = SeqMap.get s k := by
  unfold SeqMap.get SeqMap.getIdx
  rw [h1]
  cases h : SeqMap.scan s k with
  | none => rfl
  | some i =>
    have e : arrGet t.vals i = arrGet s.vals i := by
      unfold arrGet
      rw [h2 i h]
    dsimp only
    rw [e]

theorem get_some (s : SeqMap.St K V) (k : K) (i : Nat) (v : V) (h : SeqMap.scan s k = some i) (hv : s.vals[i]? = some v) :
    SeqMap.get s k = .ok (some v) := by
  unfold SeqMap.get SeqMap.getIdx
  rw [h]
  dsimp only
  rw [arrGet_some hv]
  rfl

theorem get_none (s : SeqMap.St K V) (k : K) (h : SeqMap.scan s k = none) : SeqMap.get s k = .ok none := by
  unfold SeqMap.get SeqMap.getIdx
  rw [h]
  rfl

/-! ### SeqMap -/

/-- The arrays have the same length `MaxSize > 0`, the counters are in range. -/
def Fine (s : SeqMap.St K V) : Prop :=
  0 < s.keys.length ∧ s.vals.length = s.keys.length ∧ s.sz ≤ s.keys.length ∧ s.oldest < s.keys.length

/-- The last state of each trace is the result of the call as modelled without interrupts. -/
theorem C249_map_ends (s : SeqMap.St K V) (hs : Fine s) (key k0 : K) (val v0 : V) :
    (∃ b, SeqMap.insert s key val = .ok (final s (smInsert s key val), b))
    ∧ (∃ i, SeqMap.overwrite s key val = .ok (final s (smOverwrite s key val), i))
    ∧ SeqMap.removeLast s = final s (smRemoveLast s)
    ∧ (∃ b, SeqMap.remove k0 v0 s key = .ok (final s (smRemove k0 v0 s key), b)) := by
  obtain ⟨h0, h1, h2, h3⟩ := hs
  refine ⟨?_, ?_, ?_, ?_⟩
  · unfold SeqMap.insert smInsert
    by_cases h : s.sz ≥ s.keys.length
    · rw [if_pos h, if_pos h]; exact ⟨_, rfl⟩
    · rw [if_neg h, if_neg h, arrSet_lt (by omega), R.bind_ok, arrSet_lt (by omega), R.bind_ok]
      exact ⟨_, rfl⟩
  · unfold SeqMap.overwrite smOverwrite
    cases hc : SeqMap.scan s key with
    | some i =>
      have hi := (find_lt hc).1
      rw [List.length_take] at hi
      dsimp only
      rw [arrSet_lt (by omega), R.bind_ok]
      exact ⟨_, rfl⟩
    | none =>
      dsimp only
      by_cases h : s.sz ≥ s.keys.length
      · rw [if_pos h, if_pos h]
        dsimp only
        rw [arrSet_lt (by omega), R.bind_ok, arrSet_lt (by omega), R.bind_ok]
        exact ⟨_, rfl⟩
      · rw [if_neg h, if_neg h]
        dsimp only
        rw [arrSet_lt (by omega), R.bind_ok, arrSet_lt (by omega), R.bind_ok]
        exact ⟨_, rfl⟩
  · unfold SeqMap.removeLast smRemoveLast
    by_cases h : s.sz > 0
    · rw [if_pos h, if_pos h]; rfl
    · rw [if_neg h, if_neg h]; rfl
  · unfold SeqMap.remove smRemove
    cases hc : SeqMap.scan s key with
    | some i =>
      have hi := (find_lt hc).1
      rw [List.length_take] at hi
      dsimp only
      rw [arrSet_lt (by omega), R.bind_ok, arrSet_lt (by omega), R.bind_ok]
      exact ⟨_, rfl⟩
    | none => exact ⟨_, rfl⟩

/-- What an interrupt gets from `get` for all keys. -/
def answers (s : SeqMap.St K V) : K → R (Option V) := fun k => SeqMap.get s k

/-- While `insert`, `remove_last` or `overwrite` of a key already there runs, an interrupt finds the map, as a whole, as
it was or as it will be. -/
theorem C249_map_partial (s : SeqMap.St K V) (key : K) (val : V) :
    BeforeOrAfter answers s (smInsert s key val)
    ∧ BeforeOrAfter answers s (smRemoveLast s)
    ∧ (key ∈ s.keys.take s.sz → BeforeOrAfter answers s (smOverwrite s key val)) := by
  have single : ∀ t : SeqMap.St K V, BeforeOrAfter answers s [t] := by
    intro t u hu
    rw [List.mem_singleton] at hu
    subst hu; right; rfl
  have none' : BeforeOrAfter answers s ([] : List (SeqMap.St K V)) := by intro u hu; cases hu
  refine ⟨?_, ?_, ?_⟩
  · intro t ht
    unfold smInsert at *
    by_cases h : s.sz ≥ s.keys.length
    · rw [if_pos h] at ht; cases ht
    · rw [if_neg h] at ht ⊢
      have sc : ∀ k, SeqMap.scan { s with keys := s.keys.set s.sz key } k = SeqMap.scan s k := by
        intro k
        unfold SeqMap.scan
        dsimp only
        rw [List.take_set_of_le (Nat.le_refl _)]
      rcases List.mem_cons.mp ht with rfl | ht
      · left; funext k; exact get_congr _ _ k (sc k) (fun _ _ => rfl)
      · rcases List.mem_cons.mp ht with rfl | ht
        · left; funext k
          refine get_congr _ _ k (sc k) ?_
          intro i hi
          have hi := (find_lt hi).1
          rw [List.length_take] at hi
          dsimp only
          rw [List.getElem?_set, if_neg (by omega)]
        · right
          rw [List.mem_singleton] at ht
          subst ht; rfl
  · unfold smRemoveLast
    by_cases h : s.sz > 0
    · rw [if_pos h]; exact single _
    · rw [if_neg h]; exact none'
  · intro hm
    unfold smOverwrite
    cases hc : SeqMap.scan s key with
    | some i => exact single _
    | none =>
      exfalso
      unfold SeqMap.scan at hc
      rw [List.findIdx?_eq_none_iff] at hc
      simpa using hc key hm

example : Fine (⟨[5, 7, 0], [50, 70, 0], 2, 0⟩ : SeqMap.St Nat Nat) := by
  unfold Fine; decide

/-- The place that `overwrite` gives a new key: the oldest one if the map is full. -/
def slot (s : SeqMap.St K V) : Nat := if s.sz ≥ s.keys.length then s.oldest else s.sz

omit [DecidableEq K] in
theorem slot_lt {s : SeqMap.St K V} (hs : Fine s) : slot s < s.keys.length := by
  obtain ⟨h0, h1, h2, h3⟩ := hs
  unfold slot
  split <;> omega

omit [DecidableEq K] in
theorem take_full {l : List K} {n : Nat} (h : l.length ≤ n) : l.take n = l := List.take_of_length_le h

/-- While `overwrite` gives a new key a place, an interrupt that asks for any other key than the new one and the one that
the place holds gets what it got before. -/
theorem C249_overwrite_others_partial (s : SeqMap.St K V) (hs : Fine s) (key : K) (val : V)
    (hn : key ∉ s.keys.take s.sz) (k : K) (hk : k ≠ key) (hk' : s.keys[slot s]? ≠ some k) :
    ∀ t ∈ smOverwrite s key val, SeqMap.get t k = SeqMap.get s k := by
  have hc : SeqMap.scan s key = none := by
    unfold SeqMap.scan
    rw [List.findIdx?_eq_none_iff]
    intro x hx
    simp only [decide_eq_false_iff_not]
    rintro rfl
    exact hn hx
  obtain ⟨h0, h1, h2, h3⟩ := hs
  intro t ht
  unfold smOverwrite at ht
  rw [hc] at ht
  dsimp only at ht
  unfold slot at hk'
  by_cases h : s.sz ≥ s.keys.length
  · rw [if_pos h] at ht hk'
    have sc : ∀ o vs, SeqMap.scan (⟨s.keys.set s.oldest key, vs, s.sz, o⟩ : SeqMap.St K V) k = SeqMap.scan s k := by
      intro o vs
      unfold SeqMap.scan
      dsimp only
      rw [take_full (by simpa using h), take_full h]
      exact find_set_ne k key hk _ _ hk'
    have va : ∀ i, SeqMap.scan s k = some i → (s.vals.set s.oldest val)[i]? = s.vals[i]? := by
      intro i hi
      have hi := (find_lt hi).2
      rw [take_full h] at hi
      rw [List.getElem?_set]
      by_cases e : s.oldest = i
      · rw [e] at hk'; exact absurd hi hk'
      · rw [if_neg e]
    simp only [List.mem_cons, List.not_mem_nil, or_false] at ht
    rcases ht with rfl | rfl | rfl | rfl
    · rfl
    · rfl
    · exact get_congr _ _ k (sc _ _) (fun _ _ => rfl)
    · exact get_congr _ _ k (sc _ _) va
  · rw [if_neg h] at ht hk'
    have tk : ∀ l : List K, l.length = s.keys.length → (l.take (s.sz + 1)) = l.take s.sz ++ (l[s.sz]?).toList := by
      intro l _; exact List.take_add_one
    have sc1 : SeqMap.scan ({ s with sz := s.sz + 1 } : SeqMap.St K V) k = SeqMap.scan s k := by
      unfold SeqMap.scan
      dsimp only
      rw [tk _ rfl, List.findIdx?_append, List.getElem?_eq_getElem (by omega)]
      have : ¬ s.keys[s.sz]'(by omega) = k := by
        intro e; apply hk'; rw [List.getElem?_eq_getElem (by omega), e]
      simp [List.findIdx?_cons, this]
    have sc2 : ∀ o vs, SeqMap.scan (⟨s.keys.set s.sz key, vs, s.sz + 1, o⟩ : SeqMap.St K V) k = SeqMap.scan s k := by
      intro o vs
      unfold SeqMap.scan
      dsimp only
      rw [tk _ (by simp), List.take_set_of_le (Nat.le_refl _), List.findIdx?_append, List.getElem?_set, if_pos rfl,
        if_pos (by omega)]
      have : ¬ key = k := fun e => hk e.symm
      simp [List.findIdx?_cons, this]
    have va : ∀ i, SeqMap.scan s k = some i → (s.vals.set s.sz val)[i]? = s.vals[i]? := by
      intro i hi
      have hi := (find_lt hi).1
      rw [List.length_take] at hi
      rw [List.getElem?_set, if_neg (by omega)]
    simp only [List.mem_cons, List.not_mem_nil, or_false] at ht
    rcases ht with rfl | rfl | rfl
    · exact get_congr _ _ k sc1 (fun _ _ => rfl)
    · exact get_congr _ _ k (sc2 _ _) (fun _ _ => rfl)
    · exact get_congr _ _ k (sc2 _ _) va

/-- While `overwrite` gives a new key the place of the oldest one in a full map, the interrupt that asks for the new key
gets, after the four stores: nothing, nothing, the value of the key that is thrown out, the new value. -/
theorem C249_overwrite_full_exact (s : SeqMap.St K V) (hs : Fine s) (hf : s.sz = s.keys.length) (key : K) (val old : V)
    (hn : key ∉ s.keys.take s.sz) (ho : s.vals[s.oldest]? = some old) :
    (smOverwrite s key val).map (fun t => SeqMap.get t key) = [.ok none, .ok none, .ok (some old), .ok (some val)] := by
  have hc : SeqMap.scan s key = none := by
    unfold SeqMap.scan
    rw [List.findIdx?_eq_none_iff]
    intro x hx
    simp only [decide_eq_false_iff_not]
    rintro rfl
    exact hn hx
  obtain ⟨h0, h1, h2, h3⟩ := hs
  unfold smOverwrite
  rw [hc]
  dsimp only
  rw [if_pos (by omega)]
  have sc : ∀ o vs, SeqMap.scan (⟨s.keys.set s.oldest key, vs, s.sz, o⟩ : SeqMap.St K V) key = some s.oldest := by
    intro o vs
    unfold SeqMap.scan at hc ⊢
    dsimp only
    rw [take_full (by simp; omega)]
    rw [take_full (by omega)] at hc
    exact find_set_new key _ _ h3 hc
  simp only [List.map_cons, List.map_nil]
  rw [get_none _ _ (show SeqMap.scan ({ s with oldest := s.oldest + 1 } : SeqMap.St K V) key = none from hc),
    get_none _ _ (show SeqMap.scan ({ s with oldest := if s.oldest + 1 ≥ s.keys.length then 0 else s.oldest + 1 } :
      SeqMap.St K V) key = none from hc),
    get_some _ _ _ old (sc _ _) ho, get_some _ _ _ val (sc _ _) (by
      dsimp only; rw [List.getElem?_set, if_pos rfl, if_pos (by omega)])]

example : (smOverwrite (⟨[5, 7], [50, 70], 2, 1⟩ : SeqMap.St Nat Nat) 9 90).map (fun t => SeqMap.get t 9)
    = [.ok none, .ok none, .ok (some 70), .ok (some 90)] := by decide +kernel

/-- While `overwrite` appends a new key to a map that is not full, the interrupt that asks for the new key gets, after the
three stores: what a stale key in the place gives; the stale value; the new value. -/
theorem C249_overwrite_append_exact (s : SeqMap.St K V) (hs : Fine s) (hf : s.sz < s.keys.length) (key old : K)
    (val v : V) (hn : key ∉ s.keys.take s.sz) (hk : s.keys[s.sz]? = some old) (hv : s.vals[s.sz]? = some v) :
    (smOverwrite s key val).map (fun t => SeqMap.get t key)
      = [.ok (if old = key then some v else none), .ok (some v), .ok (some val)] := by
  have hc : SeqMap.scan s key = none := by
    unfold SeqMap.scan
    rw [List.findIdx?_eq_none_iff]
    intro x hx
    simp only [decide_eq_false_iff_not]
    rintro rfl
    exact hn hx
  obtain ⟨h0, h1, h2, h3⟩ := hs
  unfold smOverwrite
  rw [hc]
  dsimp only
  rw [if_neg (by omega)]
  have hlen : (s.keys.take s.sz).length = s.sz := by rw [List.length_take]; omega
  have sc1 : SeqMap.scan ({ s with sz := s.sz + 1 } : SeqMap.St K V) key = if old = key then some s.sz else none := by
    unfold SeqMap.scan at hc ⊢
    dsimp only
    rw [List.take_add_one, List.findIdx?_append, hc, hk, hlen]
    by_cases e : old = key <;> simp [List.findIdx?_cons, e]
  have sc2 : ∀ o vs, SeqMap.scan (⟨s.keys.set s.sz key, vs, s.sz + 1, o⟩ : SeqMap.St K V) key = some s.sz := by
    intro o vs
    unfold SeqMap.scan at hc ⊢
    dsimp only
    rw [List.take_add_one, List.take_set_of_le (Nat.le_refl _), List.findIdx?_append, hc, List.getElem?_set, if_pos rfl,
      if_pos hf, hlen]
    simp [List.findIdx?_cons]
  simp only [List.map_cons, List.map_nil]
  rw [get_some _ _ _ v (sc2 _ _) hv, get_some _ _ _ val (sc2 _ _) (by
      dsimp only; rw [List.getElem?_set, if_pos rfl, if_pos (by omega)])]
  congr 1
  by_cases e : old = key
  · rw [if_pos e] at sc1 ⊢
    exact get_some _ _ _ v sc1 hv
  · rw [if_neg e] at sc1 ⊢
    exact get_none _ _ sc1

/-- While `remove` runs, an interrupt that asks for any key but `KeyT{}` gets what it will get after the call. -/
theorem C249_remove_partial (s : SeqMap.St K V) (key k0 : K) (v0 : V) (k : K) (hk : k ≠ k0) :
    ∀ t ∈ smRemove k0 v0 s key, SeqMap.get t k = SeqMap.get (final s (smRemove k0 v0 s key)) k := by
  intro t ht
  unfold smRemove at *
  cases hc : SeqMap.scan s key with
  | none => rw [hc] at ht; cases ht
  | some i =>
    rw [hc] at ht
    dsimp only at ht ⊢
    simp only [List.mem_cons, List.not_mem_nil, or_false] at ht
    have hi := (find_lt hc).1
    rcases ht with rfl | rfl
    · refine get_congr _ _ k rfl ?_
      intro j hj
      have hj := (find_lt hj).2
      simp only [final, List.getLast?_cons_cons, List.getLast?_singleton, Option.getD_some] at hj ⊢
      rw [List.getElem?_set]
      by_cases e : i = j
      · exfalso
        subst e
        rw [List.take_set, List.getElem?_set, if_pos rfl, if_pos hi] at hj
        exact hk (Option.some.inj hj).symm
      · rw [if_neg e]
    · rfl

/-- The full claim fails: a new key shows the value of the key it throws out, or a value left in the array, and the key
`KeyT{}` shows the value of a key being removed. -/
theorem C249_map_violated :
    ¬ BeforeOrAfter (fun s => SeqMap.get s 9) (⟨[5, 7], [50, 70], 2, 0⟩ : SeqMap.St Nat Nat)
        (smOverwrite ⟨[5, 7], [50, 70], 2, 0⟩ 9 90)
    ∧ ¬ BeforeOrAfter (fun s => SeqMap.get s 8) (⟨[5, 8], [50, 80], 1, 0⟩ : SeqMap.St Nat Nat)
        (smOverwrite ⟨[5, 8], [50, 80], 1, 0⟩ 9 90)
    ∧ ¬ BeforeOrAfter (fun s => SeqMap.get s 0) (⟨[5, 7], [50, 70], 2, 0⟩ : SeqMap.St Nat Nat)
        (smRemove 0 0 ⟨[5, 7], [50, 70], 2, 0⟩ 5) := by
  refine ⟨?_, ?_, ?_⟩
  · intro h
    exact absurd (h ⟨[9, 7], [50, 70], 2, 1⟩ (by decide +kernel)) (by decide +kernel)
  · intro h
    exact absurd (h ⟨[5, 8], [50, 80], 2, 0⟩ (by decide +kernel)) (by decide +kernel)
  · intro h
    exact absurd (h ⟨[0, 7], [50, 70], 2, 0⟩ (by decide +kernel)) (by decide +kernel)

/-! ### SequentialMap -/

/-- While `m[key] = v` adds a key, an interrupt sees the old entries and, behind them, one after the other: the stale
entry of the place; the stale value under the new key; the new entry.  The last is what the call leaves. -/
theorem C249_sequential_exact (s : SequentialMap.St K V) (p : K × V) (hp : s.data[s.back]? = some p) (key : K) (v : V)
    (hn : SequentialMap.search key (FixedVector.toList s) 0 = none) :
    (sqAssignNew s key v).map FixedVector.toList
      = [FixedVector.toList s ++ [p], FixedVector.toList s ++ [(key, p.2)], FixedVector.toList s ++ [(key, v)]]
    ∧ SequentialMap.assign s key v = .ok (final s (sqAssignNew s key v)) := by
  have hb : s.back < s.data.length := by
    by_cases h : s.back < s.data.length
    · exact h
    · rw [List.getElem?_eq_none (by omega)] at hp; cases hp
  constructor
  · unfold sqAssignNew FixedVector.toList
    rw [hp]
    dsimp only [List.map]
    have st : ∀ q : K × V, (s.data.set s.back q).take (s.back + 1) = s.data.take s.back ++ [q] := by
      intro q
      rw [List.take_add_one, List.take_set_of_le (Nat.le_refl _), List.getElem?_set, if_pos rfl, if_pos hb]
      rfl
    rw [st, st, List.take_add_one, hp]
    rfl
  · unfold SequentialMap.assign SequentialMap.index sqAssignNew FixedVector.pushBackForOverwrite FixedVector.maxSize
    rw [hn, hp]
    dsimp only
    rw [if_neg (show ¬ s.back ≥ s.data.length by omega)]
    dsimp only
    rw [if_neg (show ¬ s.back = s.data.length by omega)]
    rw [show (pure s.back : R Nat) = .ok s.back from rfl, R.bind_ok, arrGet_some hp, R.bind_ok, arrSet_lt hb, R.bind_ok]
    rw [show ∀ a : SequentialMap.St K V × Nat, (pure a : R _) = .ok a from fun _ => rfl, R.bind_ok]
    dsimp only
    rw [arrGet_some (show (s.data.set s.back (key, p.2))[s.back]? = some (key, p.2) by
      rw [List.getElem?_set, if_pos rfl, if_pos hb]), R.bind_ok, arrSet_lt (by simpa using hb), R.bind_ok, List.set_set]
    rfl

example : (sqAssignNew (⟨[(5, 50), (8, 80)], 1⟩ : SequentialMap.St Nat Nat) 9 90).map FixedVector.toList
    = [[(5, 50), (8, 80)], [(5, 50), (9, 80)], [(5, 50), (9, 90)]] := by decide

end ReadIsr
