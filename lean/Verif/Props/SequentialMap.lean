import Verif.Spec.SequentialMap
import Verif.Props.FixedVector
/-! # Properties C26, C27, C28, C121, C122: SequentialMap -/
set_option linter.unusedSectionVars false
namespace SequentialMap
variable {K V : Type} [DecidableEq K]

theorem search_eq (key : K) (q : List (K × V)) : ∀ i, search key q i =
    if key ∈ q.map (·.1) then some (i + (q.map (·.1)).idxOf key) else none := by
  induction q with
  | nil => intro i; rfl
  | cons p q ih =>
    intro i
    unfold search
    by_cases h : p.1 = key
    · simp [h]
    · rw [if_neg h, ih]
      have : ¬ key = p.1 := fun e => h e.symm
      simp only [List.map_cons, List.mem_cons, this, false_or]
      split
      · simp [List.idxOf_cons, beq_false_of_ne h]; omega
      · rfl

structure Rel (N : Nat) (s : St K V) (m : Spec.Map K V) : Prop where
  fv : FixedVector.Rel N s (FixedVector.toList s)
  keys : (FixedVector.toList s).map (·.1) = m.keys
  nodup : m.keys.Nodup
  val : ∀ k v, m.val k = some v ↔ (k, v) ∈ FixedVector.toList s

theorem Rel.mk' {N : Nat} {s : St K V} {m : Spec.Map K V} {q : List (K × V)} (h : FixedVector.Rel N s q)
    (hk : q.map (·.1) = m.keys) (hn : m.keys.Nodup) (hv : ∀ k v, m.val k = some v ↔ (k, v) ∈ q) : Rel N s m := by
  have := h.toList
  subst this
  exact ⟨h, hk, hn, hv⟩

theorem Rel.val_mem {N : Nat} {s : St K V} {m : Spec.Map K V} (h : Rel N s m) {k : K} {v : V} (hv : m.val k = some v) :
    k ∈ m.keys := by
  rw [← h.keys]
  exact List.mem_map.mpr ⟨(k, v), (h.val k v).mp hv, rfl⟩

theorem Rel.entry {N : Nat} {s : St K V} {m : Spec.Map K V} (h : Rel N s m) {k : K} (hk : k ∈ m.keys) :
    ∃ v, s.data[m.keys.idxOf k]? = some (k, v) ∧ m.val k = some v ∧ m.keys.idxOf k < (FixedVector.toList s).length := by
  have hlt := List.idxOf_lt_length_of_mem hk
  have hlen : m.keys.length = (FixedVector.toList s).length := by rw [← h.keys]; simp
  have hq : (FixedVector.toList s)[m.keys.idxOf k]? = some ((FixedVector.toList s)[m.keys.idxOf k]'(by omega)) :=
    List.getElem?_eq_getElem _
  obtain ⟨p, hp⟩ : ∃ p, (FixedVector.toList s)[m.keys.idxOf k]'(by omega) = p := ⟨_, rfl⟩
  rw [hp] at hq
  have h1 : p.1 = k := by
    have e1 : m.keys[m.keys.idxOf k]? = some k := by rw [List.getElem?_eq_getElem hlt]; simp
    rw [← h.keys, List.getElem?_map, h.keys, hq] at e1
    simpa using e1
  refine ⟨p.2, ?_, ?_, by omega⟩
  · rw [h.fv.el _ (by omega), hq, ← h1]
  · rw [h.val, ← h1]; exact List.mem_of_getElem? hq

theorem Rel.search {N : Nat} {s : St K V} {m : Spec.Map K V} (h : Rel N s m) (k : K) :
    SequentialMap.search k (FixedVector.toList s) 0 = if k ∈ m.keys then some (m.keys.idxOf k) else none := by
  rw [search_eq, h.keys, Nat.zero_add]

theorem set_mem_nodup {q : List (K × V)} {i : Nat} {k : K} {v0 v : V} (hq : q[i]? = some (k, v0))
    (hn : (q.map (·.1)).Nodup) (x : K) (y : V) :
    (x, y) ∈ q.set i (k, v) ↔ if x = k then y = v else (x, y) ∈ q := by
  induction q generalizing i with
  | nil => simp at hq
  | cons p q ih =>
    simp only [List.map_cons, List.nodup_cons, List.mem_map, not_exists, not_and] at hn
    cases i with
    | zero =>
      simp only [List.getElem?_cons_zero, Option.some.injEq] at hq
      subst hq
      simp only [List.set_cons_zero, List.mem_cons, Prod.mk.injEq]
      by_cases hx : x = k
      · subst hx
        simp only [true_and, if_pos]
        constructor
        · rintro (h | h)
          · exact h
          · exact absurd rfl (hn.1 (x, y) h)
        · exact .inl
      · simp [hx]
    | succ i =>
      simp only [List.getElem?_cons_succ] at hq
      simp only [List.set_cons_succ, List.mem_cons]
      rw [ih hq hn.2]
      by_cases hx : x = k
      · subst hx
        simp only [if_pos]
        constructor
        · rintro (h | h)
          · exact absurd (by rw [← h]) (hn.1 _ (List.mem_of_getElem? hq))
          · exact h
        · exact .inr
      · simp [hx]

theorem fv_set {N : Nat} {s : St K V} {q : List (K × V)} (h : FixedVector.Rel N s q) (i : Nat) (p : K × V) (hi : i < q.length) :
    FixedVector.Rel N { s with data := s.data.set i p } (q.set i p) := by
  have := h.len; have := h.back; have := h.qlen
  constructor
  · simpa using h.len
  · simpa using h.back
  · simpa using h.qlen
  · intro j hj
    simp only [List.length_set] at hj
    by_cases hij : i = j
    · subst hij; rw [List.getElem?_set_self (by omega), List.getElem?_set_self (by omega)]
    · rw [List.getElem?_set_ne hij, List.getElem?_set_ne hij]; exact h.el j hj

theorem fv_length {N : Nat} {s : St K V} {m : Spec.Map K V} (h : Rel N s m) :
    (FixedVector.toList s).length = m.keys.length ∧ s.back = m.keys.length ∧ m.keys.length ≤ N ∧ s.data.length = N := by
  have h1 : (FixedVector.toList s).length = m.keys.length := by rw [← h.keys]; simp
  exact ⟨h1, by rw [h.fv.back, h1], by rw [← h1]; exact h.fv.qlen, h.fv.len⟩

theorem Rel.index_present {N : Nat} {s : St K V} {m : Spec.Map K V} (h : Rel N s m) {k : K} (hk : k ∈ m.keys) :
    index s k = .ok (s, m.keys.idxOf k) := by
  unfold index; rw [h.search, if_pos hk]; rfl

theorem Rel.index_new {N : Nat} {s : St K V} {m : Spec.Map K V} (h : Rel N s m) {k : K} (hk : k ∉ m.keys)
    (hr : m.keys.length < N) : ∃ old, s.data[m.keys.length]? = some old ∧
    index s k = .ok (⟨s.data.set m.keys.length (k, old.2), m.keys.length + 1⟩, m.keys.length) := by
  obtain ⟨h1, h2, h3, h4⟩ := fv_length h
  refine ⟨s.data[m.keys.length]'(by omega), List.getElem?_eq_getElem _, ?_⟩
  unfold index
  rw [h.search, if_neg hk]
  simp only [FixedVector.pushBackForOverwrite, FixedVector.maxSize]
  have hc : ¬ s.back ≥ s.data.length := by omega
  have hc2 : ¬ s.back = s.data.length := by omega
  simp only [hc, hc2, if_false, R.pure_eq, R.bind_ok]
  simp only [h2]
  rw [arrGet_lt (by omega), R.bind_ok, arrSet_lt (by omega)]
  rfl

theorem fv_append {N : Nat} {s : St K V} {q : List (K × V)} (h : FixedVector.Rel N s q) (p : K × V) (hr : q.length < N) :
    FixedVector.Rel N ⟨s.data.set q.length p, q.length + 1⟩ (q ++ [p]) := by
  have := h.len; have := h.back; have := h.qlen
  constructor
  · simpa using h.len
  · simp
  · simp; omega
  · intro j hj
    simp at hj
    by_cases hij : q.length = j
    · subst hij; rw [List.getElem?_set_self (by omega), List.getElem?_append_right (by omega)]; simp
    · rw [List.getElem?_set_ne hij, List.getElem?_append_left (by omega)]; exact h.el j (by omega)

theorem Rel.assign {N : Nat} {s : St K V} {m m' : Spec.Map K V} {o : List (Out K V)} (h : Rel N s m) (k : K) (v : V)
    (hs : Spec.step N m (.assign k v) = some (m', o)) : ∃ s', SequentialMap.assign s k v = .ok s' ∧ Rel N s' m' := by
  obtain ⟨h1, h2, h3, h4⟩ := fv_length h
  simp only [Spec.step] at hs
  by_cases hk : k ∈ m.keys
  · rw [if_pos hk] at hs
    cases hs
    obtain ⟨v0, e1, e2, e3⟩ := h.entry hk
    have hq : (FixedVector.toList s)[m.keys.idxOf k]? = some (k, v0) := by rw [← h.fv.el _ e3]; exact e1
    refine ⟨{ s with data := s.data.set (m.keys.idxOf k) (k, v) }, ?_, ?_⟩
    · unfold SequentialMap.assign
      rw [h.index_present hk]
      simp only [R.bind_ok]
      rw [arrGet_some e1]
      simp only [R.bind_ok]
      rw [arrSet_lt (by omega)]
      rfl
    · refine Rel.mk' (fv_set h.fv _ (k, v) e3) ?_ h.nodup ?_
      · simp only
        rw [← h.keys] at e3 hq ⊢
        rw [List.map_set]
        apply List.ext_getElem?
        intro j
        by_cases hj : List.idxOf k ((FixedVector.toList s).map (·.1)) = j
        · rw [← hj, List.getElem?_set_self (by simpa using e3), List.getElem?_map, hq]; rfl
        · rw [List.getElem?_set_ne hj]
      · intro x y
        simp only
        rw [set_mem_nodup hq (by rw [h.keys]; exact h.nodup)]
        by_cases hx : x = k
        · simp [hx, eq_comm]
        · simp [hx, h.val]
  · rw [if_neg hk] at hs
    split at hs
    · next hr =>
      cases hs
      obtain ⟨old, e1, e2⟩ := h.index_new hk hr
      refine ⟨⟨s.data.set m.keys.length (k, v), m.keys.length + 1⟩, ?_, ?_⟩
      · unfold SequentialMap.assign
        rw [e2]
        simp only [R.bind_ok]
        rw [arrGet_some (a := (k, old.2)) (by rw [List.getElem?_set_self (by omega)])]
        simp only [R.bind_ok]
        rw [arrSet_lt (by simp; omega)]
        simp
      · have := fv_append h.fv (k, v) (by omega)
        rw [h1] at this
        refine Rel.mk' this ?_ ?_ ?_
        · simp [h.keys]
        · simp only; rw [List.nodup_append]; refine ⟨h.nodup, by simp, ?_⟩
          intro a ha b hb; simp at hb; subst hb; rintro rfl; exact hk ha
        · intro x y
          simp only [List.mem_append, List.mem_singleton, Prod.mk.injEq]
          by_cases hx : x = k
          · subst hx
            simp only [if_pos, Option.some.injEq, true_and]
            constructor
            · intro e; exact .inr e.symm
            · rintro (e | e)
              · exact absurd (List.mem_map.mpr ⟨_, e, rfl⟩ : x ∈ (FixedVector.toList s).map (·.1)) (by rw [h.keys]; exact hk)
              · exact e.symm
          · simp [hx, h.val]
    · cases hs

theorem erase_take_drop (l : List K) (k : K) : l.erase k = l.take (l.idxOf k) ++ l.drop (l.idxOf k + 1) := by
  rw [← List.eraseIdx_eq_take_drop_succ, List.erase_eq_eraseIdx_of_idxOf rfl]

theorem iterate_eq {s : St K V} {N : Nat} {m : Spec.Map K V} (h : Rel N s m) :
    m.keys.filterMap (fun k => (m.val k).map fun v => (k, v)) = FixedVector.toList s := by
  rw [← h.keys, List.filterMap_map]
  have hv : ∀ p ∈ FixedVector.toList s, m.val p.1 = some p.2 := fun p hp => (h.val p.1 p.2).mpr hp
  generalize FixedVector.toList s = q at hv
  induction q with
  | nil => rfl
  | cons p q ih =>
    rw [List.filterMap_cons, ih (fun x hx => hv x (List.mem_cons_of_mem _ hx))]
    simp [hv p (by simp)]

theorem fv_eraseRange {N : Nat} {s : FixedVector.St (K × V)} {q : List (K × V)} (h : FixedVector.Rel N s q) (f l : Nat)
    (h1 : f ≤ l) (h2 : l ≤ q.length) :
    ∃ s', FixedVector.eraseRange s f l = .ok s' ∧ FixedVector.Rel N s' (q.take f ++ q.drop l) := by
  cases q with
  | nil =>
    have : s.back = 0 := h.back
    refine ⟨s, by simp [FixedVector.eraseRange, this], by simpa using h⟩
  | cons p q =>
    obtain ⟨s', e1, e2⟩ := h.step p (.eraseRange f l) (show FixedVector.Spec.step N p (p :: q) (.eraseRange f l) = some _ from
      if_pos ⟨h1, h2⟩)
    refine ⟨s', ?_, e2⟩
    simp only [FixedVector.step] at e1
    cases he : FixedVector.eraseRange s f l with
    | ub => rw [he] at e1; simp at e1
    | ok a => rw [he] at e1; simp at e1; rw [e1]

theorem Rel.step {N : Nat} {s : St K V} {m m' : Spec.Map K V} {o : List (Out K V)} (h : Rel N s m) (op : Op K V)
    (hs : Spec.step N m op = some (m', o)) : ∃ s', step s op = .ok (s', o) ∧ Rel N s' m' := by
  obtain ⟨h1, h2, h3, h4⟩ := fv_length h
  have hfind : ∀ k, find s k = m.keys.idxOf k := by
    intro k
    unfold find
    rw [h.search]
    split
    · rfl
    · next hk => rw [List.idxOf_eq_length hk]; simpa using h2
  cases op with
  | assign k v =>
    obtain ⟨s', e1, e2⟩ := h.assign k v hs
    refine ⟨s', ?_, e2⟩
    have : o = [] := by
      simp only [Spec.step] at hs
      split at hs
      · cases hs; rfl
      · split at hs
        · cases hs; rfl
        · cases hs
    subst this
    simp [SequentialMap.step, e1]
  | read k =>
    simp only [Spec.step, Option.map_eq_some_iff] at hs
    obtain ⟨v, hv, he⟩ := hs
    cases he
    obtain ⟨v0, e1, e2, e3⟩ := h.entry (h.val_mem hv)
    rw [e2] at hv; cases hv
    refine ⟨s, ?_, h⟩
    simp [SequentialMap.step, SequentialMap.read, h.index_present (h.val_mem e2), arrGet_some e1]
  | readConst k =>
    simp only [Spec.step, Option.map_eq_some_iff] at hs
    obtain ⟨v, hv, he⟩ := hs
    cases he
    obtain ⟨v0, e1, e2, e3⟩ := h.entry (h.val_mem hv)
    rw [e2] at hv; cases hv
    refine ⟨s, ?_, h⟩
    simp [SequentialMap.step, SequentialMap.readConst, h.search, h.val_mem e2, arrGet_some e1]
  | contains k =>
    cases hs
    refine ⟨s, ?_, h⟩
    have : contains s k = decide (k ∈ m.keys) := by
      rw [Bool.eq_iff_iff]
      simp only [contains, List.any_eq_true, decide_eq_true_eq, ← h.keys, List.mem_map]
    simp [SequentialMap.step, this]
  | find k =>
    cases hs
    exact ⟨s, by simp [SequentialMap.step, hfind], h⟩
  | erase k =>
    cases hs
    simp only [SequentialMap.step, SequentialMap.erase, hfind]
    by_cases hk : k ∈ m.keys
    · have hlt := List.idxOf_lt_length_of_mem hk
      have hne : m.keys.idxOf k ≠ s.back := by omega
      rw [if_pos hne]
      obtain ⟨s', e1, e2⟩ := fv_eraseRange h.fv (m.keys.idxOf k) (m.keys.idxOf k + 1) (by omega) (by omega)
      rw [e1]
      refine ⟨s', by simp [hk], ?_⟩
      refine Rel.mk' e2 ?_ (h.nodup.erase k) ?_
      · rw [List.map_append, List.map_take, List.map_drop, h.keys, erase_take_drop]
      · intro x y
        obtain ⟨v0, e3, e4, e5⟩ := h.entry hk
        have hq : (FixedVector.toList s)[m.keys.idxOf k]? = some (k, v0) := by rw [← h.fv.el _ e5]; exact e3
        have hkeys : ((FixedVector.toList s).take (m.keys.idxOf k) ++ (FixedVector.toList s).drop (m.keys.idxOf k + 1)).map (·.1)
            = m.keys.erase k := by rw [List.map_append, List.map_take, List.map_drop, h.keys, erase_take_drop]
        have hsplit : FixedVector.toList s = (FixedVector.toList s).take (m.keys.idxOf k) ++
            (k, v0) :: (FixedVector.toList s).drop (m.keys.idxOf k + 1) := by
          rw [List.getElem?_eq_getElem e5] at hq
          rw [← Option.some.inj hq, ← List.drop_eq_getElem_cons, List.take_append_drop]
        simp only
        by_cases hx : x = k
        · subst hx
          simp only [if_pos, reduceCtorEq, false_iff]
          intro hm
          have : x ∈ m.keys.erase x := by rw [← hkeys]; exact List.mem_map.mpr ⟨_, hm, rfl⟩
          exact (h.nodup.mem_erase_iff.mp this).1 rfl
        · rw [if_neg hx, h.val]
          conv => lhs; rw [hsplit]
          simp [hx]
    · have hne : m.keys.idxOf k = s.back := by rw [List.idxOf_eq_length hk, h2]
      simp only [hne, ne_eq, not_true, if_false, if_neg hk]
      refine ⟨s, by simp, ?_⟩
      rw [List.erase_of_not_mem hk]
      refine ⟨h.fv, h.keys, h.nodup, ?_⟩
      intro x y
      simp only
      split
      · next e =>
        subst e
        simp only [reduceCtorEq, false_iff]
        intro hm
        exact hk (h.val_mem ((h.val x y).mpr hm))
      · exact h.val x y
  | clear =>
    cases hs
    refine ⟨_, rfl, ?_⟩
    refine Rel.mk' (q := []) ⟨h4, rfl, Nat.zero_le _, fun i hi => by simp at hi⟩ rfl (by simp) (by simp)
  | size => cases hs; exact ⟨s, by simp [SequentialMap.step, SequentialMap.size, FixedVector.size, h2], h⟩
  | empty =>
    cases hs
    refine ⟨s, ?_, h⟩
    simp [SequentialMap.step, SequentialMap.empty, FixedVector.size, h2]
  | isFull => cases hs; exact ⟨s, by simp [SequentialMap.step, SequentialMap.isFull, FixedVector.size, FixedVector.maxSize, h2, h4], h⟩
  | iterate => cases hs; exact ⟨s, by simp [SequentialMap.step, iterate_eq h], h⟩

theorem Rel.run {N : Nat} (ops : List (Op K V)) : ∀ {s : St K V} {m m' : Spec.Map K V} {os : List (Out K V)}, Rel N s m →
    Spec.run N m ops = some (m', os) → ∃ s', run s ops = .ok (s', os) ∧ Rel N s' m' := by
  induction ops with
  | nil => intro s m m' os h hr; simp [Spec.run] at hr; obtain ⟨rfl, rfl⟩ := hr; exact ⟨s, by simp [SequentialMap.run], h⟩
  | cons op ops ih =>
    intro s m m' os h hr
    simp only [Spec.run] at hr
    split at hr
    · cases hr
    · next m1 o1 h1 =>
      split at hr
      · cases hr
      · next m2 o2 h2 =>
        cases hr
        obtain ⟨s1, h3, h4⟩ := h.step op h1
        obtain ⟨s2, h5, h6⟩ := ih h4 h2
        exact ⟨s2, by simp [SequentialMap.run, h3, h5], h6⟩

theorem Rel.init (arr : List (K × V)) : Rel arr.length (⟨arr, 0⟩ : St K V) ⟨[], fun _ => none⟩ :=
  Rel.mk' (q := []) ⟨rfl, rfl, Nat.zero_le _, fun i hi => by simp at hi⟩ rfl (by simp) (by simp)

/-- **C26**: a new SequentialMap with room for `arr.length` entries, under any sequence of calls that never uses more than
that many keys at once and reads only present keys, returns exactly what the finite map returns; its iteration order is
the order in which the present keys were introduced, each key once. -/
theorem C26_is_map (arr : List (K × V)) (ops : List (Op K V)) (m : Spec.Map K V) (os : List (Out K V))
    (h : Spec.run arr.length ⟨[], fun _ => none⟩ ops = some (m, os)) :
    ∃ s, run (⟨arr, 0⟩ : St K V) ops = .ok (s, os) ∧ (FixedVector.toList s).map (·.1) = m.keys ∧ m.keys.Nodup ∧
      size s ≤ arr.length := by
  obtain ⟨s, h1, h2⟩ := (Rel.init arr).run ops h
  exact ⟨s, h1, h2.keys, h2.nodup, by have := fv_length h2; simp [size, FixedVector.size]; omega⟩

example : (Spec.run 2 (⟨[], fun _ => none⟩ : Spec.Map Nat Nat) [.assign 5 50, .assign 7 70, .assign 5 51, .isFull, .iterate, .erase 5,
    .find 7, .contains 5, .read 7, .assign 9 90, .find 9, .size]).map (·.2) =
    some [.bool true, .list [(5, 51), (7, 70)], .num 1, .num 0, .bool false, .val 70, .num 1, .num 2] := by decide

/-- The vector invariant: the number of entries never exceeds the array. -/
def Ok (s : St K V) : Prop := s.back ≤ s.data.length

omit [DecidableEq K] in
theorem Ok.fv {s : St K V} (h : Ok s) : FixedVector.Rel s.data.length s (FixedVector.toList s) := by
  unfold Ok at h
  exact ⟨rfl, by simp [FixedVector.toList]; omega, by simp [FixedVector.toList]; omega, by
    intro i hi; simp [FixedVector.toList] at hi; simp only [FixedVector.toList]; rw [List.getElem?_take, if_pos (by omega)]⟩

/-- **C27 (partial)**: `insert` of a present key, or into a full map, returns false and changes nothing; otherwise it appends
one entry with the new key, returns its position and true, and leaves the other entries alone.
Missing: the value of the new entry, which is whatever the slot held before (next theorem). -/
theorem C27_insert_partial (s : St K V) (h : Ok s) (e : K × V) :
    (contains s e.1 = true → insert s e = .ok (s, find s e.1, false)) ∧
    (contains s e.1 = false → isFull s = true → insert s e = .ok (s, size s, false)) ∧
    (contains s e.1 = false → isFull s = false → ∃ s' stale, insert s e = .ok (s', size s, true) ∧
      FixedVector.toList s' = FixedVector.toList s ++ [(e.1, stale)]) := by
  have hs := search_eq e.1 (FixedVector.toList s) 0
  have hc : contains s e.1 = true ↔ e.1 ∈ (FixedVector.toList s).map (·.1) := by
    simp only [contains, List.any_eq_true, decide_eq_true_eq, List.mem_map]
  have hfv := h.fv
  have hlen : (FixedVector.toList s).length = s.back := by rw [hfv.back]
  unfold Ok at h
  refine ⟨?_, ?_, ?_⟩
  · intro hh
    rw [hc] at hh
    rw [if_pos hh] at hs
    simp [insert, find, hs]
  · intro hh hf
    rw [← Bool.not_eq_true, hc] at hh
    rw [if_neg hh] at hs
    have hf : s.back = s.data.length := of_decide_eq_true hf
    simp [insert, hs, FixedVector.pushBackForOverwrite, FixedVector.maxSize, hf, size, FixedVector.size]
  · intro hh hf
    rw [← Bool.not_eq_true, hc] at hh
    rw [if_neg hh] at hs
    have hf : ¬ s.back = s.data.length := of_decide_eq_false hf
    have hlt : s.back < s.data.length := by omega
    refine ⟨⟨s.data.set s.back (e.1, s.data[s.back].2), s.back + 1⟩, s.data[s.back].2, ?_, ?_⟩
    · have h1 : ¬ s.data.length ≤ s.back := by omega
      have h2 : ¬ s.back = s.data.length := by omega
      simp [insert, hs, FixedVector.pushBackForOverwrite, FixedVector.maxSize, h1, h2, size, FixedVector.size, arrGet_lt hlt,
        arrSet_lt hlt]
    · have := fv_append hfv (e.1, s.data[s.back].2) (by omega)
      rw [hlen] at this
      exact this.toList

example : Ok (⟨[(1, 10), (2, 20), (0, 0)], 2⟩ : St Nat Nat) ∧
    contains (⟨[(1, 10), (2, 20), (0, 0)], 2⟩ : St Nat Nat) 5 = false ∧
    isFull (⟨[(1, 10), (2, 20), (0, 0)], 2⟩ : St Nat Nat) = false := ⟨by unfold Ok; decide, by decide, by decide⟩

/-- **C27 is violated**: inserting (1, 5) into a new map reports success, and the map then maps 1 to 0. -/
theorem C27_insert_violated :
    ∃ s', insert (⟨[(0, 0), (0, 0)], 0⟩ : St Nat Nat) (1, 5) = .ok (s', 0, true) ∧ readConst s' 1 = .ok 0 :=
  ⟨⟨[(1, 0), (0, 0)], 1⟩, by decide, by decide⟩

/-- **C28**: assigning through `operator[]` with a new key on a full map with at least one entry is defined and replaces the
last entry only. Missing: capacity 0 (next theorem). -/
theorem C28_overfull_partial (s : St K V) (hf : isFull s = true) (hp : 0 < maxSize s) (k : K) (v : V)
    (hk : contains s k = false) :
    ∃ s', assign s k v = .ok s' ∧ FixedVector.toList s' = (FixedVector.toList s).dropLast ++ [(k, v)] ∧
      s'.data.length = s.data.length := by
  have hb : s.back = s.data.length := of_decide_eq_true hf
  simp only [maxSize, FixedVector.maxSize] at hp
  have hc : k ∉ (FixedVector.toList s).map (·.1) := by
    rw [← Bool.not_eq_true] at hk
    simpa [contains] using hk
  have hs := search_eq k (FixedVector.toList s) 0
  rw [if_neg hc] at hs
  have hlt : s.data.length - 1 < s.data.length := by omega
  have hne : s.data.length ≠ 0 := by omega
  have hp : FixedVector.pushBackForOverwrite s = (s, s.data.length) := by simp [FixedVector.pushBackForOverwrite, hb]
  have hidx : index s k = .ok ({ s with data := s.data.set (s.data.length - 1) (k, (s.data[s.data.length - 1]).2) }, s.data.length - 1) := by
    simp only [index, hs, hp, FixedVector.maxSize, if_true, if_neg hne, R.pure_eq, R.bind_ok, arrGet_lt hlt, arrSet_lt hlt]
  refine ⟨{ s with data := s.data.set (s.data.length - 1) (k, v) }, ?_, ?_, by simp⟩
  · simp only [assign, hidx, R.bind_ok]
    rw [arrGet_some (List.getElem?_set_self hlt), R.bind_ok, arrSet_lt (by simpa using hlt), R.bind_ok, List.set_set]
    rfl
  · have h1 : FixedVector.toList s = s.data := by simp [FixedVector.toList, hb]
    rw [h1]
    simp only [FixedVector.toList, hb]
    rw [List.take_of_length_le (by simp), List.dropLast_eq_take, List.set_eq_take_append_cons_drop, if_pos hlt,
      List.drop_of_length_le (by omega)]

example : isFull (⟨[(1, 10), (2, 20)], 2⟩ : St Nat Nat) = true ∧ contains (⟨[(1, 10), (2, 20)], 2⟩ : St Nat Nat) 3 = false ∧
    assign (⟨[(1, 10), (2, 20)], 2⟩ : St Nat Nat) 3 30 = .ok ⟨[(1, 10), (3, 30)], 2⟩ := by decide

/-- **C28 is violated** for capacity 0: every use of `operator[]` is out of bounds. -/
theorem C28_capacity_zero_violated (k v : Nat) : assign (⟨[], 0⟩ : St Nat Nat) k v = .ub := by
  simp [assign, index, FixedVector.toList, search, FixedVector.pushBackForOverwrite, FixedVector.maxSize]

/-- **C121 is violated**: after erase or clear a new key shows the value of an entry that was removed. -/
theorem C121_stale_value_violated :
    (·.2) <$> (run (⟨[(0, 0), (0, 0)], 0⟩ : St Nat Nat) [.assign 1 5, .erase 1, .contains 2, .read 2])
      = .ok [.num 1, .bool false, .val 5] ∧
    (·.2) <$> (run (⟨[(0, 0), (0, 0)], 0⟩ : St Nat Nat) [.assign 1 5, .clear, .contains 2, .read 2])
      = .ok [.bool false, .val 5] := by decide

/-- **C122 (partial)**: on a const map a present key reads its stored value. Missing: absent keys (next theorem). -/
theorem C122_const_read_partial (s : St K V) (h : Ok s) (k : K) (hk : contains s k = true) :
    ∃ v, readConst s k = .ok v ∧ (k, v) ∈ FixedVector.toList s ∧
      (FixedVector.toList s)[find s k]? = some (k, v) := by
  have hc : k ∈ (FixedVector.toList s).map (·.1) := by
    simpa [contains] using hk
  have hs := search_eq k (FixedVector.toList s) 0
  rw [if_pos hc, Nat.zero_add] at hs
  have hlt : ((FixedVector.toList s).map (·.1)).idxOf k < ((FixedVector.toList s).map (·.1)).length := List.idxOf_lt_length_of_mem hc
  obtain ⟨i, hi⟩ : ∃ i, ((FixedVector.toList s).map (·.1)).idxOf k = i := ⟨_, rfl⟩
  have hik : ((FixedVector.toList s).map (·.1))[i]? = some k := by
    rw [← hi, List.getElem?_eq_getElem hlt]; simp
  rw [hi] at hs
  rw [List.getElem?_map] at hik
  obtain ⟨p, hp, rfl⟩ := Option.map_eq_some_iff.mp hik
  have hd : s.data[i]? = some p := by
    rw [h.fv.el i (List.getElem?_eq_some_iff.mp hp).1, hp]
  refine ⟨p.2, ?_, List.mem_of_getElem? hp, ?_⟩
  · simp [readConst, hs, arrGet_some hd]
  · simp [find, hs, hp]

example : Ok (⟨[(1, 10), (2, 20), (0, 0)], 2⟩ : St Nat Nat) ∧ contains (⟨[(1, 10), (2, 20), (0, 0)], 2⟩ : St Nat Nat) 2 = true :=
  ⟨by unfold Ok; decide, by decide⟩

/-- **C122 is violated**: reading any absent key of a const map is undefined behaviour. -/
theorem C122_const_read_absent_violated (s : St K V) (k : K) (hk : contains s k = false) : readConst s k = .ub := by
  have hc : k ∉ (FixedVector.toList s).map (·.1) := by
    rw [← Bool.not_eq_true] at hk
    simpa [contains] using hk
  have hs := search_eq k (FixedVector.toList s) 0
  rw [if_neg hc] at hs
  simp [readConst, hs]

/-- All unused slots hold the value `v0`. -/
def Fresh (v0 : V) (s : St K V) : Prop := ∀ (i : Nat) (p : K × V), s.back ≤ i → s.data[i]? = some p → p.2 = v0

/-- Calls that remove nothing. -/
def Op.grows : Op K V → Bool
  | .erase _ | .clear => false
  | _ => true

theorem Fresh.index {v0 : V} {s s' : St K V} {k : K} {i : Nat} (hb : Ok s) (h : Fresh v0 s) (hi : index s k = .ok (s', i)) :
    Fresh v0 s' ∧ i < s'.back ∧ Ok s' ∧ (contains s k = false → s.back < s.data.length → ∀ p, s'.data[i]? = some p → p.2 = v0) := by
  unfold SequentialMap.index at hi
  have hlen : (FixedVector.toList s).length = s.back := by rw [hb.fv.back]
  unfold Ok at hb
  rw [search_eq] at hi
  by_cases hc : k ∈ (FixedVector.toList s).map (·.1)
  · rw [if_pos hc] at hi
    simp only [R.pure_eq, R.ok.injEq, Prod.mk.injEq, Nat.zero_add] at hi
    obtain ⟨rfl, rfl⟩ := hi
    have := List.idxOf_lt_length_of_mem hc
    refine ⟨h, by simp at this; omega, hb, ?_⟩
    intro hn
    simp [contains] at hn
    simp at hc
    obtain ⟨v, hv⟩ := hc
    exact absurd rfl (hn k v hv)
  · rw [if_neg hc] at hi
    simp only [FixedVector.pushBackForOverwrite, FixedVector.maxSize] at hi
    by_cases hf : s.back ≥ s.data.length
    · simp only [if_pos hf, if_true] at hi
      by_cases hz : s.data.length = 0
      · simp [hz] at hi
      · have hlt : s.data.length - 1 < s.data.length := by omega
        simp only [if_neg hz, R.pure_eq, R.bind_ok, arrGet_lt hlt, arrSet_lt hlt, R.ok.injEq, Prod.mk.injEq] at hi
        obtain ⟨rfl, rfl⟩ := hi
        refine ⟨?_, by simp only; omega, by simpa [Ok] using hb, by intro _ hh; omega⟩
        intro j p hj hp
        have := (List.getElem?_eq_some_iff.mp hp).1
        simp at this hj
        omega
    · have hlt : s.back < s.data.length := by omega
      have hne : ¬ s.back = s.data.length := by omega
      simp only [if_neg hf, if_neg hne, R.pure_eq, R.bind_ok, arrGet_lt hlt, arrSet_lt hlt, R.ok.injEq, Prod.mk.injEq] at hi
      obtain ⟨rfl, rfl⟩ := hi
      refine ⟨?_, by simp, by simp [Ok]; omega, ?_⟩
      · intro j p hj hp
        simp only at hj hp
        rw [List.getElem?_set_ne (by omega)] at hp
        exact h j p (by omega) hp
      · intro _ _ p hp
        simp only at hp
        rw [List.getElem?_set_self hlt] at hp
        cases hp
        exact h s.back s.data[s.back] (Nat.le_refl _) (List.getElem?_eq_getElem hlt)

theorem Fresh.step {v0 : V} {s s' : St K V} {op : Op K V} {o : List (Out K V)} (hb : Ok s) (h : Fresh v0 s) (hg : op.grows = true)
    (hs : step s op = .ok (s', o)) : Fresh v0 s' ∧ Ok s' := by
  cases op with
  | assign k v =>
    simp only [SequentialMap.step, assign] at hs
    cases hi : SequentialMap.index s k with
    | ub => rw [hi] at hs; simp at hs
    | ok a =>
      obtain ⟨s1, i⟩ := a
      obtain ⟨g1, g2, g3, _⟩ := h.index hb hi
      rw [hi] at hs
      simp only [R.bind_ok] at hs
      unfold Ok at g3
      have hlt : i < s1.data.length := by omega
      simp only [arrGet_lt hlt, R.bind_ok, arrSet_lt hlt, R.pure_eq, R.ok.injEq, Prod.mk.injEq] at hs
      obtain ⟨rfl, rfl⟩ := hs
      refine ⟨?_, by simpa [Ok] using g3⟩
      intro j p hj hp
      simp only at hj hp
      rw [List.getElem?_set_ne (by omega)] at hp
      exact g1 j p hj hp
  | read k =>
    simp only [SequentialMap.step, read] at hs
    cases hi : SequentialMap.index s k with
    | ub => rw [hi] at hs; simp at hs
    | ok a =>
      obtain ⟨s1, i⟩ := a
      obtain ⟨g1, g2, g3, _⟩ := h.index hb hi
      rw [hi] at hs
      have hlt : i < s1.data.length := by unfold Ok at g3; omega
      simp only [R.bind_ok, arrGet_lt hlt, R.pure_eq, R.ok.injEq, Prod.mk.injEq] at hs
      obtain ⟨rfl, rfl⟩ := hs
      exact ⟨g1, g3⟩
  | readConst k =>
    simp only [SequentialMap.step] at hs
    cases hr : readConst s k with
    | ub => rw [hr] at hs; simp at hs
    | ok a => rw [hr] at hs; simp at hs; obtain ⟨rfl, rfl⟩ := hs; exact ⟨h, hb⟩
  | erase k => simp [Op.grows] at hg
  | clear => simp [Op.grows] at hg
  | _ => simp only [SequentialMap.step, R.pure_eq, R.ok.injEq, Prod.mk.injEq] at hs; obtain ⟨rfl, rfl⟩ := hs; exact ⟨h, hb⟩

theorem Fresh.run {v0 : V} (ops : List (Op K V)) : ∀ {s s' : St K V} {os : List (Out K V)}, Ok s → Fresh v0 s →
    (∀ op ∈ ops, op.grows = true) → run s ops = .ok (s', os) → Fresh v0 s' ∧ Ok s' := by
  induction ops with
  | nil => intro s s' os hb h _ hr; simp [SequentialMap.run] at hr; obtain ⟨rfl, rfl⟩ := hr; exact ⟨h, hb⟩
  | cons op ops ih =>
    intro s s' os hb h hg hr
    simp only [SequentialMap.run] at hr
    cases h1 : SequentialMap.step s op with
    | ub => rw [h1] at hr; simp at hr
    | ok a =>
      rw [h1] at hr
      simp only [R.bind_ok] at hr
      cases h2 : SequentialMap.run a.1 ops with
      | ub => rw [h2] at hr; simp at hr
      | ok b =>
        rw [h2] at hr
        simp only [R.bind_ok, R.pure_eq, R.ok.injEq, Prod.mk.injEq] at hr
        obtain ⟨rfl, rfl⟩ := hr
        obtain ⟨g1, g2⟩ := h.step hb (hg op (by simp)) h1
        exact ih g2 g1 (fun o ho => hg o (by simp [ho])) h2

/-- **C121 (partial)**: in a new map (all values `V{}` = `v0`) on which only calls other than erase and clear were made,
reading a new key while there is room yields `v0`. Missing: maps from which something was removed, and full maps. -/
theorem C121_new_key_partial (k0 : K) (v0 : V) (N : Nat) (ops : List (Op K V)) (hg : ∀ op ∈ ops, op.grows = true)
    (s : St K V) (os : List (Out K V)) (hr : run (⟨List.replicate N (k0, v0), 0⟩ : St K V) ops = .ok (s, os))
    (k : K) (hk : contains s k = false) (hf : isFull s = false) :
    ∃ s', read s k = .ok (s', v0) := by
  obtain ⟨g1, g2⟩ := Fresh.run (v0 := v0) ops (by simp [Ok]) (by
    intro i p _ hp
    rw [List.getElem?_replicate] at hp
    split at hp
    · cases hp; rfl
    · cases hp) hg hr
  have hb := g2
  have hf : ¬ s.back = s.data.length := of_decide_eq_false hf
  have hroom : s.back < s.data.length := by unfold Ok at hb; omega
  have hc : k ∉ (FixedVector.toList s).map (·.1) := by
    have hk' := hk
    rw [← Bool.not_eq_true] at hk'
    simpa [contains] using hk'
  have hne : ¬ s.back = s.data.length := by omega
  have hnf : ¬ s.back ≥ s.data.length := by omega
  obtain ⟨s1, i, hi⟩ : ∃ s1 i, index s k = .ok (s1, i) := by
    refine ⟨⟨s.data.set s.back (k, s.data[s.back].2), s.back + 1⟩, s.back, ?_⟩
    unfold index
    rw [search_eq, if_neg hc]
    simp only [FixedVector.pushBackForOverwrite, FixedVector.maxSize, if_neg hnf, if_neg hne, R.pure_eq, R.bind_ok,
      arrGet_lt hroom, arrSet_lt hroom]
  obtain ⟨_, f2, f3, f4⟩ := g1.index hb hi
  unfold Ok at f3
  have hlt : i < s1.data.length := by omega
  refine ⟨s1, ?_⟩
  have := f4 hk hroom _ (List.getElem?_eq_getElem hlt)
  simp [read, hi, arrGet_lt hlt, this]

example : run (⟨List.replicate 3 (0, 0), 0⟩ : St Nat Nat) [.assign 4 40, .contains 4] = .ok (⟨[(4, 40), (0, 0), (0, 0)], 1⟩, [.bool true])
    ∧ contains (⟨[(4, 40), (0, 0), (0, 0)], 1⟩ : St Nat Nat) 5 = false ∧ isFull (⟨[(4, 40), (0, 0), (0, 0)], 1⟩ : St Nat Nat) = false := by
  decide

end SequentialMap
