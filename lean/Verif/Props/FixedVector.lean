import Verif.Spec.FixedVector
/-! # Properties C19, C20: FixedVector -/
namespace FixedVector
variable {T : Type}

structure Rel (M : Nat) (s : St T) (q : List T) : Prop where
  len : s.data.length = M
  back : s.back = q.length
  qlen : q.length ≤ M
  el : ∀ i : Nat, i < q.length → s.data[i]? = q[i]?

theorem Rel.toList {M : Nat} {s : St T} {q : List T} (h : Rel M s q) : toList s = q := by
  have := h.qlen; have := h.len; have := h.back
  apply List.ext_getElem?
  intro i
  unfold FixedVector.toList
  rw [List.getElem?_take]
  split
  · exact h.el i (by omega)
  · rw [List.getElem?_eq_none (by omega)]

theorem moveRange_getElem? {data out : List T} {f l d : Nat} (h : moveRange data f l d = .ok out) (i : Nat) :
    out.length = data.length ∧ out[i]? = if d ≤ i ∧ i < d + (l - f) then data[f + (i - d)]? else data[i]? := by
  unfold moveRange at h
  split at h
  · next hc =>
    obtain ⟨h1, h2, h3⟩ := hc
    cases h
    refine ⟨by simp; omega, ?_⟩
    have e : (data.take d).length = d := by simp; omega
    have e2 : ((data.drop f).take (l - f)).length = l - f := by simp; omega
    by_cases h4 : i < d
    · rw [if_neg (by omega), List.append_assoc, List.getElem?_append_left (by omega), List.getElem?_take, if_pos h4]
    · rw [List.append_assoc, List.getElem?_append_right (by omega), e]
      by_cases h5 : i < d + (l - f)
      · rw [if_pos (by omega), List.getElem?_append_left (by omega), List.getElem?_take, if_pos (by omega), List.getElem?_drop]
      · rw [if_neg (by omega), List.getElem?_append_right (by omega), e2, List.getElem?_drop]
        congr 1; omega
  · cases h

theorem moveRange_ok {data : List T} {f l d : Nat} (h1 : f ≤ l) (h2 : l ≤ data.length) (h3 : d + (l - f) ≤ data.length) :
    ∃ out, moveRange data f l d = .ok out := by
  simp [moveRange, h1, h2, h3]

theorem fillFrom_spec (el : T) (n : Nat) : ∀ (data : List T) (i : Nat), i + n ≤ data.length →
    ∃ out, fillFrom data i n el = .ok out ∧ out.length = data.length ∧
      ∀ j : Nat, out[j]? = if i ≤ j ∧ j < i + n then some el else data[j]? := by
  induction n with
  | zero => intro data i h; exact ⟨data, rfl, rfl, fun j => by rw [if_neg (by omega)]⟩
  | succ n ih =>
    intro data i h
    obtain ⟨out, h1, h2, h3⟩ := ih (data.set i el) (i + 1) (by simp; omega)
    refine ⟨out, ?_, by simpa using h2, ?_⟩
    · simp only [fillFrom, arrSet_lt (show i < data.length by omega), R.bind_ok, h1]
    · intro j
      rw [h3 j]
      by_cases hj : j = i
      · subst hj
        rw [if_neg (by omega), if_pos (by omega), List.getElem?_set_self (by omega)]
      · rw [List.getElem?_set_ne (Ne.symm hj)]
        by_cases hc : i + 1 ≤ j ∧ j < i + 1 + n
        · rw [if_pos hc, if_pos (by omega)]
        · rw [if_neg hc, if_neg (by omega)]

theorem addr_le {data : List T} {i : Nat} (h : i ≤ data.length) : addr false data i = .ok i := by
  unfold addr
  rw [if_pos]
  rcases Nat.lt_or_ge i data.length with h1 | h1
  · exact .inl h1
  · exact .inr ⟨rfl, by omega⟩

theorem Rel.push {M : Nat} {s : St T} {q : List T} (h : Rel M s q) (x : T) :
    ∃ s', pushBack s x = .ok (s', decide (q.length < M)) ∧ Rel M s' (if q.length < M then q ++ [x] else q) := by
  have hl := h.len; have hb := h.back; have hq := h.qlen
  unfold pushBack
  by_cases hc : q.length < M
  · rw [if_neg (by omega), arrSet_lt (by omega)]
    refine ⟨_, by simp [hc]; rfl, ?_⟩
    rw [if_pos hc]
    constructor
    · simpa using hl
    · simp [hb]
    · simp; omega
    · intro i hi
      simp at hi
      by_cases h2 : i = q.length
      · subst h2; simp only [hb]; rw [List.getElem?_set_self (by omega), List.getElem?_append_right (by omega)]; simp
      · simp only [hb]; rw [List.getElem?_set_ne (Ne.symm h2), List.getElem?_append_left (by omega)]; exact h.el i (by omega)
  · rw [if_pos (by omega), if_neg hc]
    exact ⟨s, by simp [hc], h⟩

theorem Rel.step {M : Nat} {s : St T} {q q' : List T} {o : List (Out T)} (dflt : T) (h : Rel M s q) (op : Op T)
    (hs : Spec.step M dflt q op = some (q', o)) :
    ∃ s', step false dflt s op = .ok (s', o) ∧ Rel M s' q' := by
  have hl := h.len; have hb := h.back; have hq := h.qlen
  have hlast : 0 < q.length → s.data[q.length - 1]? = q.getLast? := by
    intro hq
    rw [h.el _ (by omega), List.getLast?_eq_getElem?]
  have hex : 0 < q.length → ∃ x, q.getLast? = some x := by
    intro hq
    rw [List.getLast?_eq_getElem?, List.getElem?_eq_getElem (by omega)]
    exact ⟨_, rfl⟩
  cases op with
  | push x =>
    obtain ⟨s', h1, h2⟩ := h.push x
    simp only [Spec.step, Option.some.injEq, Prod.mk.injEq] at hs
    obtain ⟨rfl, rfl⟩ := hs
    exact ⟨s', by simp [FixedVector.step, h1], h2⟩
  | pop =>
    simp only [Spec.step, Option.some.injEq, Prod.mk.injEq] at hs
    obtain ⟨rfl, rfl⟩ := hs
    simp only [FixedVector.step, popBack]
    by_cases hz : q.length = 0
    · have : q = [] := by simpa using hz
      subst this
      rw [if_pos (by omega)]
      exact ⟨s, by simp, h⟩
    · obtain ⟨x, hx⟩ := hex (by omega)
      rw [if_neg (by omega)]
      simp only [hb]
      rw [arrGet_some (a := x) (by rw [hlast (by omega), hx])]
      refine ⟨⟨s.data, q.length - 1⟩, by simp [hx], ?_⟩
      constructor
      · exact hl
      · simp
      · simp; omega
      · intro i hi
        simp at hi
        rw [List.getElem?_dropLast, if_pos (by omega)]; exact h.el i (by omega)
  | back =>
    simp only [Spec.step, Option.some.injEq, Prod.mk.injEq] at hs
    obtain ⟨rfl, rfl⟩ := hs
    simp only [FixedVector.step, FixedVector.back]
    by_cases hz : q.length = 0
    · have : q = [] := by simpa using hz
      subst this
      rw [if_neg (by simp at hb; omega)]
      exact ⟨s, by simp, h⟩
    · obtain ⟨x, hx⟩ := hex (by omega)
      rw [if_pos (by omega)]
      simp only [hb]
      rw [arrGet_some (a := x) (by rw [hlast (by omega), hx])]
      exact ⟨s, by simp [hx], h⟩
  | get i =>
    simp only [Spec.step, Option.map_eq_some_iff] at hs
    obtain ⟨x, hx, he⟩ := hs
    cases he
    have hi := (List.getElem?_eq_some_iff.mp hx).1
    refine ⟨s, ?_, h⟩
    simp [FixedVector.step, at', arrGet_some (show s.data[i]? = some x by rw [h.el i hi, hx])]
  | insert i x =>
    simp only [Spec.step, Option.some.injEq, Prod.mk.injEq] at hs
    obtain ⟨rfl, rfl⟩ := hs
    simp only [FixedVector.step, FixedVector.insert, maxSize]
    by_cases hc : q.length < M ∧ i ≤ q.length
    · rw [if_neg (by omega), if_pos hc]
      by_cases he : i = s.back
      · rw [if_pos he]
        obtain ⟨s', h1, h2⟩ := h.push x
        rw [if_pos hc.1] at h2
        refine ⟨s', by simp [h1], ?_⟩
        rw [he, hb]
        simpa using h2
      · rw [if_neg he]
        obtain ⟨out, hout⟩ := moveRange_ok (data := s.data) (f := i) (l := s.back) (d := i + 1) (by omega) (by omega) (by omega)
        have hg := fun j => moveRange_getElem? hout j
        have ho : out.length = M := by rw [(hg 0).1, hl]
        rw [addr_le (show i ≤ s.data.length by omega), addr_le (show s.back ≤ s.data.length by omega),
          addr_le (show s.back + 1 ≤ s.data.length by omega)]
        simp only [R.bind_ok, show s.back + 1 - (s.back - i) = i + 1 by omega, hout, arrSet_lt (show i < out.length by omega),
          R.pure_eq]
        refine ⟨_, rfl, ?_⟩
        have ht : (q.take i).length = i := by simp; omega
        constructor
        · simpa using ho
        · simp; omega
        · simp; omega
        · intro j hj
          simp at hj
          by_cases h1 : j = i
          · subst h1
            rw [List.getElem?_set_self (by omega), List.getElem?_append_right (by omega), ht]; simp
          · rw [List.getElem?_set_ne (Ne.symm h1), (hg j).2]
            by_cases h2 : j < i
            · rw [if_neg (by omega), List.getElem?_append_left (by omega), List.getElem?_take, if_pos h2]
              exact h.el j (by omega)
            · rw [if_pos (by omega), List.getElem?_append_right (by omega), ht, List.getElem?_cons, if_neg (by omega),
                List.getElem?_drop, h.el _ (by omega)]
              congr 1
    · rw [if_pos (by omega), if_neg hc]
      exact ⟨s, by simp, h⟩
  | erase i =>
    simp only [Spec.step, Option.some.injEq, Prod.mk.injEq] at hs
    obtain ⟨rfl, rfl⟩ := hs
    simp only [FixedVector.step, FixedVector.erase]
    by_cases hc : i < q.length
    · rw [if_neg (by omega)]
      by_cases he : i = s.back - 1
      · rw [if_pos he]
        refine ⟨{ s with back := s.back - 1 }, by simp, ?_⟩
        constructor
        · exact hl
        · simp; omega
        · simp; omega
        · intro j hj
          simp at hj
          rw [List.getElem?_append_left (by simp; omega), List.getElem?_take, if_pos (by omega)]
          exact h.el j (by omega)
      · rw [if_neg he]
        obtain ⟨out, hout⟩ := moveRange_ok (data := s.data) (f := i + 1) (l := s.back) (d := i) (by omega) (by omega) (by omega)
        have hg := fun j => moveRange_getElem? hout j
        have ho : out.length = M := by rw [(hg 0).1, hl]
        rw [addr_le (show i + 1 ≤ s.data.length by omega), addr_le (show s.back ≤ s.data.length by omega),
          addr_le (show i ≤ s.data.length by omega)]
        simp only [R.bind_ok, hout, R.pure_eq]
        refine ⟨_, rfl, ?_⟩
        have ht : (q.take i).length = i := by simp; omega
        constructor
        · exact ho
        · simp; omega
        · simp; omega
        · intro j hj
          simp at hj
          simp only
          rw [(hg j).2]
          by_cases h2 : j < i
          · rw [if_neg (by omega), List.getElem?_append_left (by omega), List.getElem?_take, if_pos h2]
            exact h.el j (by omega)
          · rw [if_pos (by omega), List.getElem?_append_right (by omega), ht, List.getElem?_drop, h.el _ (by omega)]
    · rw [if_pos (by omega)]
      rw [List.take_of_length_le (by omega), List.drop_of_length_le (by omega), List.append_nil]
      exact ⟨s, by simp, h⟩
  | eraseRange f l =>
    simp only [Spec.step] at hs
    split at hs
    · next hc =>
      simp only [Option.some.injEq, Prod.mk.injEq] at hs
      obtain ⟨rfl, rfl⟩ := hs
      simp only [FixedVector.step, FixedVector.eraseRange]
      by_cases hz : s.back = 0 ∨ l ≤ f
      · rw [if_pos hz]
        refine ⟨s, by simp, ?_⟩
        have : q.take f ++ q.drop l = q := by
          rcases hz with hz | hz
          · have : q = [] := by simpa [hb] using hz
            subst this; simp
          · rw [show l = f by omega, List.take_append_drop]
        rw [this]; exact h
      · rw [if_neg hz]
        obtain ⟨out, hout⟩ := moveRange_ok (data := s.data) (f := l) (l := s.back) (d := f) (by omega) (by omega) (by omega)
        have hg := fun j => moveRange_getElem? hout j
        have ho : out.length = M := by rw [(hg 0).1, hl]
        simp only [hout, R.bind_ok, R.pure_eq]
        refine ⟨_, rfl, ?_⟩
        have ht : (q.take f).length = f := by simp; omega
        constructor
        · exact ho
        · simp; omega
        · simp; omega
        · intro j hj
          simp at hj
          simp only
          rw [(hg j).2]
          by_cases h2 : j < f
          · rw [if_neg (by omega), List.getElem?_append_left (by omega), List.getElem?_take, if_pos h2]
            exact h.el j (by omega)
          · rw [if_pos (by omega), List.getElem?_append_right (by omega), ht, List.getElem?_drop, h.el _ (by omega)]
    · cases hs
  | resize n x =>
    simp only [Spec.step, Option.some.injEq, Prod.mk.injEq] at hs
    obtain ⟨rfl, rfl⟩ := hs
    simp only [FixedVector.step, FixedVector.resize]
    have hd : decide (n = min n s.data.length) = decide (n ≤ M) := by simp only [decide_eq_decide]; omega
    by_cases hc : min n s.data.length > s.back
    · rw [if_pos hc]
      obtain ⟨out, h1, h2, h3⟩ := fillFrom_spec x (min n s.data.length - s.back) s.data s.back (by omega)
      rw [h1]
      refine ⟨⟨out, min n s.data.length⟩, by simp only [R.bind_ok, R.pure_eq, hd], ?_⟩
      have ht : (q.take n).length = q.length := by simp; omega
      constructor
      · simp only; omega
      · simp; omega
      · simp; omega
      · intro j hj
        simp at hj
        simp only
        rw [h3 j]
        by_cases h4 : j < q.length
        · rw [if_neg (by omega), List.getElem?_append_left (by omega), List.getElem?_take, if_pos (by omega)]
          exact h.el j h4
        · rw [if_pos (by omega), List.getElem?_append_right (by omega), List.getElem?_replicate, if_pos (by omega)]
    · rw [if_neg hc]
      refine ⟨⟨s.data, min n s.data.length⟩, by simp only [R.bind_ok, R.pure_eq, hd], ?_⟩
      constructor
      · exact hl
      · simp; omega
      · simp; omega
      · intro j hj
        simp at hj
        rw [List.getElem?_append_left (by simp; omega), List.getElem?_take, if_pos (by omega)]
        exact h.el j (by omega)
  | clear =>
    simp only [Spec.step, Option.some.injEq, Prod.mk.injEq] at hs
    obtain ⟨rfl, rfl⟩ := hs
    exact ⟨_, rfl, ⟨hl, rfl, Nat.zero_le _, fun i hi => by simp at hi⟩⟩
  | size =>
    simp only [Spec.step, Option.some.injEq, Prod.mk.injEq] at hs
    obtain ⟨rfl, rfl⟩ := hs
    exact ⟨s, by simp [FixedVector.step, FixedVector.size, hb], h⟩
  | available =>
    simp only [Spec.step, Option.some.injEq, Prod.mk.injEq] at hs
    obtain ⟨rfl, rfl⟩ := hs
    exact ⟨s, by simp [FixedVector.step, FixedVector.available, maxSize, FixedVector.size, hb, hl], h⟩
  | iterate =>
    simp only [Spec.step, Option.some.injEq, Prod.mk.injEq] at hs
    obtain ⟨rfl, rfl⟩ := hs
    exact ⟨s, by simp [FixedVector.step, h.toList], h⟩

theorem Rel.run {M : Nat} (dflt : T) (ops : List (Op T)) : ∀ {s : St T} {q q' : List T} {os : List (Out T)}, Rel M s q →
    Spec.run M dflt q ops = some (q', os) → ∃ s', run false dflt s ops = .ok (s', os) ∧ Rel M s' q' := by
  induction ops with
  | nil => intro s q q' os h hr; simp [Spec.run] at hr; obtain ⟨rfl, rfl⟩ := hr; exact ⟨s, by simp [FixedVector.run], h⟩
  | cons op ops ih =>
    intro s q q' os h hr
    simp only [Spec.run] at hr
    split at hr
    · cases hr
    · next q1 o1 h1 =>
      split at hr
      · cases hr
      · next q2 o2 h2 =>
        cases hr
        obtain ⟨s1, h3, h4⟩ := h.step dflt op h1
        obtain ⟨s2, h5, h6⟩ := ih h4 h2
        exact ⟨s2, by simp [FixedVector.run, h3, h5], h6⟩

theorem Rel.ofValues {M : Nat} (dflt : T) (ts : List T) (ht : ts.length ≤ M) : Rel M (ofValues M dflt ts) ts := by
  constructor
  · simp [FixedVector.ofValues]; omega
  · rfl
  · exact ht
  · intro i hi
    simp [FixedVector.ofValues, List.getElem?_append_left hi]

/-- **C19**: constructed from at most `M` values, a FixedVector under any sequence of calls that keeps the contract
(subscripts below the size, erased ranges inside the vector) returns what the list returns, stays within `M`, and
touches nothing outside its storage. -/
theorem C19_is_bounded_list (M : Nat) (dflt : T) (ts : List T) (ht : ts.length ≤ M) (ops : List (Op T))
    (q : List T) (os : List (Out T)) (h : Spec.run M dflt ts ops = some (q, os)) :
    ∃ s, run false dflt (ofValues M dflt ts) ops = .ok (s, os) ∧ toList s = q ∧ size s ≤ M := by
  obtain ⟨s, h1, h2⟩ := (Rel.ofValues dflt ts ht).run dflt ops h
  exact ⟨s, h1, h2.toList, by rw [size, h2.back]; exact h2.qlen⟩

example : Spec.run 4 0 [1, 2] [.insert 1 9, .push 3, .push 4, .erase 0, .eraseRange 1 3, .resize 6 7, .iterate, .pop, .back]
    = some ([9, 7, 7], [.bool true, .bool false, .bool false, .list [9, 7, 7, 7], .val 7, .val 7]) := by decide

/-- **C123 is violated** under a checking `operator[]` (which is what the standard specifies): inserting before the end
of a vector with one free place, and erasing an inner element of a full vector, evaluate `data[M]`. -/
theorem C123_past_the_end_subscript_violated :
    insert true (⟨[1, 2, 0], 2⟩ : St Nat) 0 9 = .ub ∧ erase true (⟨[1, 2, 3], 3⟩ : St Nat) 0 = .ub := by decide

/-- **C20**: the calls that can fail for lack of capacity say so. -/
theorem C20_capacity_results (s : St T) (h : s.back ≤ s.data.length) (x : T) (n : Nat) :
    (∃ s', pushBack s x = .ok (s', decide (size s < maxSize s)) ∧ size s' = min (size s + 1) (maxSize s)) ∧
    ((pushBackForOverwrite s).2 = if size s < maxSize s then size s else maxSize s) ∧
    (size (pushBackForOverwrite s).1 = min (size s + 1) (maxSize s)) ∧
    (toList (pushBackForOverwrite s).1).take (size s) = toList s ∧
    (∃ s', resize s n x = .ok (s', decide (n ≤ maxSize s)) ∧ size s' = min n (maxSize s) ∧
      toList s' = (toList s).take n ++ List.replicate (min n (maxSize s) - size s) x) ∧
    ((resizeForOverwrite s n).2 = true ↔ n ≤ maxSize s) ∧ size (resizeForOverwrite s n).1 = min n (maxSize s) ∧
    (toList (resizeForOverwrite s n).1).take (size s) = (toList s).take n ∧
    available s + size s = maxSize s := by
  have hr : Rel s.data.length s (toList s) :=
    ⟨rfl, by simp [toList]; omega, by simp [toList]; omega, by
      intro i hi; simp [toList] at hi; simp only [toList]; rw [List.getElem?_take, if_pos (by omega)]⟩
  have hlen : (toList s).length = s.back := by simp [toList]; omega
  have htl : ∀ a b : Nat, (s.data.take a).take b = (s.data.take b).take a := by
    intro a b; rw [List.take_take, List.take_take, Nat.min_comm]
  refine ⟨?_, ?_, ?_, ?_, ?_, ?_, ?_, ?_, ?_⟩
  · obtain ⟨s', h1, h2⟩ := hr.push x
    refine ⟨s', by rw [h1, hlen]; rfl, ?_⟩
    have := h2.back
    rw [size, this]
    simp only [size, maxSize]
    split <;> simp_all <;> omega
  · simp only [pushBackForOverwrite, size, maxSize]
    by_cases hc : s.back < s.data.length
    · simp [hc, Nat.not_le.mpr hc]
    · simp [hc, Nat.le_of_not_lt hc]
  · simp only [pushBackForOverwrite, size, maxSize]
    split <;> simp <;> omega
  · simp only [pushBackForOverwrite, size, toList]
    split
    · rw [List.take_take]; simp
    · simp only; rw [List.take_take]; congr 1; omega
  · have hs : Spec.step s.data.length x (toList s) (.resize n x) = some
        ((toList s).take n ++ List.replicate (min n s.data.length - (toList s).length) x, [.bool (decide (n ≤ s.data.length))]) := rfl
    obtain ⟨s', h1, h2⟩ := hr.step x (.resize n x) hs
    simp only [step] at h1
    cases hrz : resize s n x with
    | ub => rw [hrz] at h1; simp at h1
    | ok p =>
      obtain ⟨s1, b⟩ := p
      rw [hrz] at h1
      simp at h1
      obtain ⟨rfl, rfl⟩ := h1
      refine ⟨s1, rfl, ?_, ?_⟩
      · rw [size, h2.back]; simp [hlen, maxSize]; omega
      · rw [h2.toList, hlen]; rfl
  · simp [resizeForOverwrite, maxSize]; omega
  · simp [resizeForOverwrite, size, maxSize]
  · simp only [resizeForOverwrite, toList, size]
    rw [List.take_take, List.take_take]
    by_cases hn : n ≤ s.data.length
    · congr 1; omega
    · congr 1; omega
  · simp [available, maxSize, size]; omega

example : (⟨[1, 2, 0], 2⟩ : St Nat).back ≤ 3 ∧ pushBack (⟨[1, 2, 0], 2⟩ : St Nat) 5 = .ok (⟨[1, 2, 5], 3⟩, true) ∧
    pushBack (⟨[1, 2, 5], 3⟩ : St Nat) 6 = .ok (⟨[1, 2, 5], 3⟩, false) := by decide

end FixedVector
