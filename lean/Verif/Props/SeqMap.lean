import Verif.Model.SeqMap
import Verif.Spec.SeqMap
/-! # Properties C23–C25: SeqMap -/
namespace SeqMap
variable {K V : Type} [DecidableEq K]

theorem findIdx?_spec {l : List α} {p : α → Bool} {i : Nat} (h : l.findIdx? p = some i) :
    (∃ x, l[i]? = some x ∧ p x = true) ∧ ∀ (j : Nat) x, j < i → l[j]? = some x → p x = false := by
  rw [List.findIdx?_eq_some_iff_getElem] at h
  obtain ⟨hi, h1, h2⟩ := h
  refine ⟨⟨l[i], by simp, h1⟩, ?_⟩
  intro j x hj hx
  have := h2 j hj
  obtain ⟨hj2, rfl⟩ := List.getElem?_eq_some_iff.mp hx
  simpa using this

theorem scan_some {s : St K V} {k : K} {i : Nat} (h : scan s k = some i) :
    i < s.sz ∧ s.keys[i]? = some k ∧ ∀ j : Nat, j < i → s.keys[j]? ≠ some k := by
  obtain ⟨⟨x, h1, h2⟩, h3⟩ := findIdx?_spec h
  rw [List.getElem?_take] at h1
  split at h1
  · next hi =>
    simp at h2; subst h2
    refine ⟨hi, h1, ?_⟩
    intro j hj hk
    have := h3 j x hj (by rw [List.getElem?_take, if_pos (by omega)]; exact hk)
    simp at this
  · cases h1

theorem scan_none {s : St K V} {k : K} (h : scan s k = none) : ∀ j : Nat, j < s.sz → s.keys[j]? ≠ some k := by
  intro j hj hk
  rw [scan, List.findIdx?_eq_none_iff] at h
  have := h k (List.mem_iff_getElem?.mpr ⟨j, by rw [List.getElem?_take, if_pos hj]; exact hk⟩)
  simp at this

theorem scan_eq_some {s : St K V} {k : K} {i : Nat} (h1 : i < s.sz) (h2 : s.keys[i]? = some k)
    (h3 : ∀ j : Nat, j < i → s.keys[j]? ≠ some k) : scan s k = some i := by
  cases hs : scan s k with
  | none => exact absurd h2 (scan_none hs i h1)
  | some j =>
    obtain ⟨g1, g2, g3⟩ := scan_some hs
    rcases Nat.lt_trichotomy i j with h | h | h
    · exact absurd h2 (g3 i h)
    · rw [h]
    · exact absurd g2 (h3 j h)

theorem scan_eq_none {s : St K V} {k : K} (h : ∀ j : Nat, j < s.sz → s.keys[j]? ≠ some k) : scan s k = none := by
  cases hs : scan s k with
  | none => rfl
  | some j =>
    obtain ⟨g1, g2, _⟩ := scan_some hs
    exact absurd g2 (h j g1)

/-- the map holds the pairs `q`, the j-th oldest at index `(oldest + j) mod M` -/
structure Rel (M : Nat) (s : St K V) (q : List (K × V)) : Prop where
  pos : 0 < M
  kl : s.keys.length = M
  vl : s.vals.length = M
  sz : s.sz = q.length
  qlen : q.length ≤ M
  old : s.oldest < M
  notfull : q.length < M → s.oldest = 0
  el : ∀ (j : Nat) p, q[j]? = some p → s.keys[(s.oldest + j) % M]? = some p.1 ∧ s.vals[(s.oldest + j) % M]? = some p.2
  nodup : ∀ (i j : Nat) p p', q[i]? = some p → q[j]? = some p' → p.1 = p'.1 → i = j

theorem Rel.index {M : Nat} {s : St K V} {q : List (K × V)} (h : Rel M s q) {i : Nat} (hi : i < s.sz) :
    ∃ j, j < q.length ∧ (s.oldest + j) % M = i := by
  have := h.sz; have := h.qlen; have := h.old
  by_cases hf : q.length < M
  · exact ⟨i, by omega, by rw [h.notfull hf, Nat.zero_add, Nat.mod_eq_of_lt (by omega)]⟩
  · by_cases hc : s.oldest ≤ i
    · exact ⟨i - s.oldest, by omega, by rw [show s.oldest + (i - s.oldest) = i by omega, Nat.mod_eq_of_lt (by omega)]⟩
    · exact ⟨i + M - s.oldest, by omega, by
        rw [show s.oldest + (i + M - s.oldest) = i + M by omega, Nat.add_mod_right, Nat.mod_eq_of_lt (by omega)]⟩

theorem Rel.index_lt {M : Nat} {s : St K V} {q : List (K × V)} (h : Rel M s q) {j : Nat} (hj : j < q.length) :
    (s.oldest + j) % M < s.sz := by
  have := h.sz; have := h.qlen; have := h.pos
  by_cases hf : q.length < M
  · rw [h.notfull hf, Nat.zero_add, Nat.mod_eq_of_lt (by omega)]; omega
  · have := Nat.mod_lt (s.oldest + j) h.pos; omega

theorem Rel.scan_has {M : Nat} {s : St K V} {q : List (K × V)} (h : Rel M s q) {j : Nat} {p : K × V} (hp : q[j]? = some p) :
    scan s p.1 = some ((s.oldest + j) % M) := by
  have hj := (List.getElem?_eq_some_iff.mp hp).1
  refine scan_eq_some (h.index_lt hj) (h.el j p hp).1 ?_
  intro i hi hk
  obtain ⟨j', h1, h2⟩ := h.index (i := i) (by have := h.index_lt hj; omega)
  have hp' : q[j']? = some q[j'] := by simp
  have := (h.el j' _ hp').1
  rw [h2, hk] at this
  have e := h.nodup j j' p _ hp hp' (by simpa using this)
  subst e
  omega

theorem Rel.scan_not {M : Nat} {s : St K V} {q : List (K × V)} (h : Rel M s q) {k : K} (hk : ¬ Spec.has q k) :
    scan s k = none := by
  refine scan_eq_none ?_
  intro i hi hik
  obtain ⟨j, h1, h2⟩ := h.index hi
  have hp : q[j]? = some q[j] := by simp
  have := (h.el j _ hp).1
  rw [h2, hik] at this
  apply hk
  refine ⟨q[j].2, ?_⟩
  simp at this
  rw [this]
  exact List.getElem_mem h1

theorem has_iff {q : List (K × V)} {k : K} : Spec.has q k ↔ ∃ (j : Nat) (v : V), q[j]? = some (k, v) := by
  unfold Spec.has
  constructor
  · rintro ⟨v, h⟩
    obtain ⟨j, hj⟩ := List.mem_iff_getElem?.mp h
    exact ⟨j, v, hj⟩
  · rintro ⟨j, v, h⟩
    exact ⟨v, List.mem_iff_getElem?.mpr ⟨j, h⟩⟩

theorem Rel.overwrite {M : Nat} {s : St K V} {q : List (K × V)} (h : Rel M s q) (k : K) (v : V) :
    ∃ s' i, overwrite s k v = .ok (s', i) ∧ s'.vals[i]? = some v ∧ Rel M s' (Spec.overwrite M q k v) := by
  have hpos := h.pos; have hkl := h.kl; have hvl := h.vl; have hsz := h.sz; have hql := h.qlen; have hold := h.old
  unfold SeqMap.overwrite Spec.overwrite
  by_cases hh : Spec.has q k
  · obtain ⟨j, v0, hj⟩ := has_iff.1 hh
    have hjl := (List.getElem?_eq_some_iff.mp hj).1
    have hsc := h.scan_has hj
    simp only at hsc
    rw [hsc, if_pos hh]
    have hlt : (s.oldest + j) % M < s.vals.length := by rw [hvl]; exact Nat.mod_lt _ hpos
    simp only [arrSet_lt hlt, R.bind_ok, R.pure_eq]
    refine ⟨_, _, rfl, by simp only; rw [List.getElem?_set_self hlt], ?_⟩
    exact { pos := hpos, kl := hkl, vl := by simpa using hvl, sz := by simpa using hsz, qlen := by simpa using hql,
            old := hold, notfull := by simpa using h.notfull,
            el := by
              intro i p hp
              simp only [List.getElem?_map, Option.map_eq_some_iff] at hp
              obtain ⟨p0, hp0, rfl⟩ := hp
              obtain ⟨e1, e2⟩ := h.el i p0 hp0
              have hil := (List.getElem?_eq_some_iff.mp hp0).1
              split
              · next hk =>
                have : j = i := h.nodup j i _ _ hj hp0 hk.symm
                subst this
                exact ⟨by rw [e1, hk], by simp only; rw [List.getElem?_set_self hlt]⟩
              · next hk =>
                refine ⟨e1, ?_⟩
                simp only
                rw [List.getElem?_set_ne, e2]
                intro e
                have := mod_add_inj (by omega) (by omega) e
                subst this
                rw [hj] at hp0
                cases hp0
                exact hk rfl
            nodup := by
              intro i i' p p' hp hp' he
              simp only [List.getElem?_map, Option.map_eq_some_iff] at hp hp'
              obtain ⟨p0, hp0, rfl⟩ := hp
              obtain ⟨p0', hp0', rfl⟩ := hp'
              refine h.nodup i i' p0 p0' hp0 hp0' ?_
              split at he <;> split at he <;> simp_all }
  · rw [h.scan_not hh, if_neg hh]
    simp only
    by_cases hf : q.length = M
    · rw [if_pos (show s.sz ≥ s.keys.length by omega), if_pos hf]
      simp only [arrSet_lt (show s.oldest < s.keys.length by omega), arrSet_lt (show s.oldest < s.vals.length by omega),
        R.bind_ok, R.pure_eq]
      have hnext : (if s.oldest + 1 ≥ s.keys.length then 0 else s.oldest + 1) = (s.oldest + 1) % M := by
        rw [hkl]
        split
        · rw [show s.oldest + 1 = M by omega]; simp
        · rw [Nat.mod_eq_of_lt (by omega)]
      rw [hnext]
      refine ⟨_, _, rfl, by simp only; rw [List.getElem?_set_self (by omega)], ?_⟩
      have htl : q.tail.length = M - 1 := by simp [hf]
      have hel : ∀ (i : Nat) p, (q.tail ++ [(k, v)])[i]? = some p →
          (i < M - 1 ∧ q[i + 1]? = some p) ∨ (i = M - 1 ∧ p = (k, v)) := by
        intro i p hp
        by_cases hi : i < M - 1
        · rw [List.getElem?_append_left (by omega), List.getElem?_tail] at hp; exact .inl ⟨hi, hp⟩
        · rw [List.getElem?_append_right (by omega), htl] at hp
          have : i - (M - 1) = 0 := by
            by_cases h0 : i - (M - 1) = 0
            · exact h0
            · rw [List.getElem?_eq_none (by simp; omega)] at hp; cases hp
          rw [this] at hp
          simp at hp
          exact .inr ⟨by omega, hp.symm⟩
      exact { pos := hpos, kl := by simpa using hkl, vl := by simpa using hvl, sz := by simp; omega,
              qlen := by simp; omega, old := Nat.mod_lt _ hpos, notfull := by intro hlt; simp at hlt; omega,
              el := by
                intro i p hp
                simp only [mod_add_mod']
                rcases hel i p hp with ⟨hi, hq⟩ | ⟨rfl, rfl⟩
                · obtain ⟨e1, e2⟩ := h.el (i + 1) p hq
                  have hne : s.oldest ≠ (s.oldest + 1 + i) % M := by
                    intro e
                    have : (s.oldest + 0) % M = (s.oldest + (1 + i)) % M := by
                      rw [← Nat.add_assoc, ← e, Nat.add_zero, Nat.mod_eq_of_lt hold]
                    have := mod_add_inj hpos (by omega) this
                    omega
                  rw [List.getElem?_set_ne hne, List.getElem?_set_ne hne, show s.oldest + 1 + i = s.oldest + (i + 1) by omega]
                  exact ⟨e1, e2⟩
                · rw [show s.oldest + 1 + (M - 1) = s.oldest + M by omega, Nat.add_mod_right, Nat.mod_eq_of_lt hold,
                    List.getElem?_set_self (by omega), List.getElem?_set_self (by omega)]
                  exact ⟨rfl, rfl⟩
              nodup := by
                intro i i' p p' hp hp' he
                rcases hel i p hp with ⟨hi, hq⟩ | ⟨rfl, rfl⟩ <;> rcases hel i' p' hp' with ⟨hi', hq'⟩ | ⟨rfl, rfl⟩
                · have := h.nodup _ _ _ _ hq hq' he; omega
                · exact absurd (has_iff.2 ⟨i + 1, p.2, by rw [hq]; simp at he; rw [← he]⟩) hh
                · exact absurd (has_iff.2 ⟨i' + 1, p'.2, by rw [hq']; simp at he; rw [he]⟩) hh
                · rfl }
    · rw [if_neg (show ¬ s.sz ≥ s.keys.length by omega), if_neg hf]
      simp only [arrSet_lt (show s.sz < s.keys.length by omega), arrSet_lt (show s.sz < s.vals.length by omega),
        R.bind_ok, R.pure_eq]
      refine ⟨_, _, rfl, by simp only; rw [List.getElem?_set_self (by omega)], ?_⟩
      have h0 := h.notfull (by omega)
      have hel : ∀ (i : Nat) p, (q ++ [(k, v)])[i]? = some p → (i < q.length ∧ q[i]? = some p) ∨ (i = q.length ∧ p = (k, v)) := by
        intro i p hp
        by_cases hi : i < q.length
        · rw [List.getElem?_append_left hi] at hp; exact .inl ⟨hi, hp⟩
        · rw [List.getElem?_append_right (by omega)] at hp
          have : i - q.length = 0 := by
            by_cases h0 : i - q.length = 0
            · exact h0
            · rw [List.getElem?_eq_none (by simp; omega)] at hp; cases hp
          rw [this] at hp
          simp at hp
          exact .inr ⟨by omega, hp.symm⟩
      exact { pos := hpos, kl := by simpa using hkl, vl := by simpa using hvl, sz := by simp; omega,
              qlen := by simp; omega, old := hold, notfull := fun _ => h0,
              el := by
                intro i p hp
                simp only [h0, Nat.zero_add]
                rcases hel i p hp with ⟨hi, hq⟩ | ⟨rfl, rfl⟩
                · obtain ⟨e1, e2⟩ := h.el i p hq
                  rw [h0, Nat.zero_add] at e1 e2
                  rw [Nat.mod_eq_of_lt (by omega)] at e1 e2 ⊢
                  rw [List.getElem?_set_ne (by omega), List.getElem?_set_ne (by omega)]
                  exact ⟨e1, e2⟩
                · rw [Nat.mod_eq_of_lt (by omega), hsz, List.getElem?_set_self (by omega), List.getElem?_set_self (by omega)]
                  exact ⟨rfl, rfl⟩
              nodup := by
                intro i i' p p' hp hp' he
                rcases hel i p hp with ⟨hi, hq⟩ | ⟨rfl, rfl⟩ <;> rcases hel i' p' hp' with ⟨hi', hq'⟩ | ⟨rfl, rfl⟩
                · exact h.nodup _ _ _ _ hq hq' he
                · exact absurd (has_iff.2 ⟨i, p.2, by rw [hq]; simp at he; rw [← he]⟩) hh
                · exact absurd (has_iff.2 ⟨i', p'.2, by rw [hq']; simp at he; rw [he]⟩) hh
                · rfl }

theorem Rel.run {M : Nat} (hist : List (K × V)) : ∀ {s : St K V} {q : List (K × V)}, Rel M s q →
    ∃ s', runOverwrites s hist = .ok s' ∧ Rel M s' (Spec.run M q hist) := by
  induction hist with
  | nil => intro s q h; exact ⟨s, rfl, h⟩
  | cons p hist ih =>
    intro s q h
    obtain ⟨s1, i, h1, _, h2⟩ := h.overwrite p.1 p.2
    obtain ⟨s2, h3, h4⟩ := ih h2
    exact ⟨s2, by simp [runOverwrites, h1, h3], h4⟩

theorem Rel.get {M : Nat} {s : St K V} {q : List (K × V)} (h : Rel M s q) (k : K) : get s k = .ok (Spec.lookup q k) := by
  unfold SeqMap.get getIdx Spec.lookup
  cases hf : q.find? (fun p => decide (p.1 = k)) with
  | none =>
    have : ¬ Spec.has q k := by
      rintro ⟨v, hv⟩
      have := List.find?_eq_none.mp hf _ hv
      simp at this
    rw [h.scan_not this]; rfl
  | some p =>
    have hk : p.1 = k := by simpa using List.find?_some hf
    obtain ⟨j, hj⟩ := List.mem_iff_getElem?.mp (List.mem_of_find?_eq_some hf)
    have := h.scan_has hj
    rw [hk] at this
    rw [this]
    simp [arrGet_some (h.el j p hj).2]

theorem init_Rel (keys : List K) (vals : List V) (hp : 0 < keys.length) (hl : vals.length = keys.length) :
    Rel keys.length (init keys vals) ([] : List (K × V)) :=
  { pos := hp, kl := rfl, vl := hl, sz := rfl, qlen := Nat.zero_le _, old := hp, notfull := fun _ => rfl,
    el := by intro j p h; simp at h, nodup := by intro i j p p' h; simp at h }

theorem keyExists_eq (s : St K V) (k : K) : keyExists s k = (scan s k).isSome := by
  unfold keyExists scan
  rw [Bool.eq_iff_iff, List.findIdx?_isSome]

/-- **C23**: after any history of overwrites on a map of capacity `M > 0` (whatever its uninitialised arrays held),
`get`, `key_exists` and `size` agree with the specification map that evicts in order of introduction, and no access is
out of bounds. -/
theorem C23_overwrite_get (keys : List K) (vals : List V) (hp : 0 < keys.length) (hl : vals.length = keys.length)
    (hist : List (K × V)) :
    ∃ s, runOverwrites (init keys vals) hist = .ok s ∧
      (∀ k, get s k = .ok (Spec.lookup (Spec.run keys.length [] hist) k)) ∧
      (∀ k, keyExists s k = true ↔ Spec.has (Spec.run keys.length [] hist) k) ∧
      size s = (Spec.run keys.length [] hist).length ∧ size s ≤ keys.length := by
  obtain ⟨s, h1, h2⟩ := (init_Rel keys vals hp hl).run hist
  refine ⟨s, h1, h2.get, ?_, h2.sz, by rw [size, h2.sz]; exact h2.qlen⟩
  intro k
  rw [keyExists_eq]
  constructor
  · intro h
    by_cases hh : Spec.has (Spec.run keys.length [] hist) k
    · exact hh
    · rw [h2.scan_not hh] at h; simp at h
  · intro h
    obtain ⟨j, v, hj⟩ := has_iff.1 h
    have := h2.scan_has hj
    simp only at this
    rw [this]; rfl

/-- **C23**: the pointer returned by `overwrite(k, v)` points to `v`, and `get(k)` then yields `v`. -/
theorem C23_get_after_overwrite (keys : List K) (vals : List V) (hp : 0 < keys.length) (hl : vals.length = keys.length)
    (hist : List (K × V)) (s : St K V) (hs : runOverwrites (init keys vals) hist = .ok s) (k : K) (v : V) :
    ∃ s' i, overwrite s k v = .ok (s', i) ∧ s'.vals[i]? = some v ∧ get s' k = .ok (some v) := by
  obtain ⟨s1, h1, h2⟩ := (init_Rel keys vals hp hl).run hist
  rw [hs] at h1; cases h1
  obtain ⟨s', i, h3, h4, h5⟩ := h2.overwrite k v
  refine ⟨s', i, h3, h4, ?_⟩
  rw [h5.get]
  unfold Spec.overwrite Spec.lookup
  split
  · next hh =>
    obtain ⟨v0, hv0⟩ := hh
    have : ∀ l : List (K × V), (k, v0) ∈ l →
        ((l.map (fun p => if p.1 = k then (k, v) else p)).find? (fun p => decide (p.1 = k))).map (·.2) = some v := by
      intro l
      induction l with
      | nil => intro h; simp at h
      | cons a l ih =>
        intro h
        by_cases ha : a.1 = k
        · simp [ha]
        · simp only [List.map_cons, ha, if_false, List.find?_cons, decide_false]
          apply ih
          simp at h
          rcases h with rfl | h
          · exact absurd rfl ha
          · exact h
    rw [this _ hv0]
  · next hh =>
    have : (if (Spec.run keys.length [] hist).length = keys.length then (Spec.run keys.length [] hist).tail
        else Spec.run keys.length [] hist).find? (fun p => decide (p.1 = k)) = none := by
      rw [List.find?_eq_none]
      intro p hp hk
      simp at hk
      apply hh
      refine ⟨p.2, ?_⟩
      have hm : p ∈ Spec.run keys.length [] hist := by
        split at hp
        · exact List.mem_of_mem_tail hp
        · exact hp
      rw [← hk]; exact hm
    rw [List.find?_append, this]
    simp

theorem survives {M : Nat} (hist : List (K × V)) : ∀ (pre post : List (K × V)) (k : K) (v : V),
    (∀ p ∈ pre, p.1 ≠ k) → (pre ++ (k, v) :: post).length ≤ M →
    Spec.intros M (pre ++ (k, v) :: post) hist < M - post.length →
    Spec.lookup (Spec.run M (pre ++ (k, v) :: post) hist) k = some (Spec.latest k v hist) := by
  induction hist with
  | nil =>
    intro pre post k v hpre _ _
    unfold Spec.run Spec.lookup Spec.latest
    have : pre.find? (fun p => decide (p.1 = k)) = none := by
      rw [List.find?_eq_none]; intro p hp; simpa using hpre p hp
    rw [List.find?_append, this]; simp
  | cons a hist ih =>
    obtain ⟨x, y⟩ := a
    intro pre post k v hpre hlen hint
    unfold Spec.run Spec.latest
    unfold Spec.intros at hint
    by_cases hx : x = k
    · subst hx
      have hh : Spec.has (pre ++ (x, v) :: post) x := ⟨v, by simp⟩
      have e : Spec.overwrite M (pre ++ (x, v) :: post) x y =
          pre ++ (x, y) :: post.map (fun p => if p.1 = x then (x, y) else p) := by
        unfold Spec.overwrite
        rw [if_pos hh, List.map_append, List.map_cons]
        congr 1
        · conv => rhs; rw [← List.map_id pre]
          apply List.map_congr_left
          intro p hp
          simp [hpre p hp]
        · simp
      rw [if_pos hh, e] at hint
      rw [e, if_pos rfl]
      exact ih _ _ _ _ hpre (by simpa using hlen) (by simpa using hint)
    · rw [if_neg hx]
      by_cases hh : Spec.has (pre ++ (k, v) :: post) x
      · have e : Spec.overwrite M (pre ++ (k, v) :: post) x y =
            pre.map (fun p => if p.1 = x then (x, y) else p) ++ (k, v) :: post.map (fun p => if p.1 = x then (x, y) else p) := by
          unfold Spec.overwrite
          rw [if_pos hh, List.map_append, List.map_cons]
          simp [Ne.symm hx]
        rw [if_pos hh, e] at hint
        rw [e]
        refine ih _ _ _ _ ?_ (by simpa using hlen) (by simpa using hint)
        intro p hp
        simp only [List.mem_map] at hp
        obtain ⟨p0, hp0, rfl⟩ := hp
        split
        · exact hx
        · exact hpre p0 hp0
      · rw [if_neg hh] at hint
        have e : Spec.overwrite M (pre ++ (k, v) :: post) x y =
            (if (pre ++ (k, v) :: post).length = M then (pre ++ (k, v) :: post).tail else (pre ++ (k, v) :: post)) ++ [(x, y)] := by
          unfold Spec.overwrite; rw [if_neg hh]
        rw [e] at hint ⊢
        by_cases hf : (pre ++ (k, v) :: post).length = M
        · rw [if_pos hf] at hint ⊢
          cases pre with
          | nil => simp at hf; omega
          | cons b pre =>
            simp only [List.cons_append, List.tail_cons, List.append_assoc] at hint ⊢
            refine ih pre (post ++ [(x, y)]) k v (fun p hp => hpre p (by simp [hp])) ?_ ?_
            · simp at hf ⊢; omega
            · simp only [List.length_append, List.length_singleton]; omega
        · rw [if_neg hf] at hint ⊢
          simp only [List.append_assoc, List.cons_append] at hint ⊢
          refine ih pre (post ++ [(x, y)]) k v hpre ?_ ?_
          · simp at hf hlen ⊢; omega
          · simp only [List.length_append, List.length_singleton]; omega

/-- **C23**: a key introduced at some point, after which fewer than `MaxSize` new keys were introduced, is still in the map
with the value of its latest overwrite. -/
theorem C23_recent_keys_survive (keys : List K) (vals : List V) (hp : 0 < keys.length) (hl : vals.length = keys.length)
    (h1 h2 : List (K × V)) (k : K) (v : V) (hnew : ¬ Spec.has (Spec.run keys.length [] h1) k)
    (hfew : Spec.intros keys.length (Spec.run keys.length [] (h1 ++ [(k, v)])) h2 < keys.length) :
    ∃ s, runOverwrites (init keys vals) (h1 ++ (k, v) :: h2) = .ok s ∧ get s k = .ok (some (Spec.latest k v h2)) := by
  obtain ⟨s1, g1, r1⟩ := (init_Rel keys vals hp hl).run h1
  obtain ⟨s, g, r⟩ := (init_Rel keys vals hp hl).run (h1 ++ (k, v) :: h2)
  refine ⟨s, g, ?_⟩
  rw [r.get]
  have hrun : ∀ (a b q : List (K × V)), Spec.run keys.length q (a ++ b) = Spec.run keys.length (Spec.run keys.length q a) b := by
    intro a
    induction a with
    | nil => intro b q; rfl
    | cons p a ih => intro b q; exact ih b _
  rw [hrun] at hfew ⊢
  have hq := r1.qlen
  generalize Spec.run keys.length [] h1 = q at *
  simp only [Spec.run] at hfew ⊢
  have e : Spec.overwrite keys.length q k v = (if q.length = keys.length then q.tail else q) ++ (k, v) :: [] := by
    unfold Spec.overwrite; rw [if_neg hnew]
  rw [e] at hfew ⊢
  rw [survives h2 _ [] k v ?_ ?_ (by simpa using hfew)]
  · intro p hp hk
    apply hnew
    refine ⟨p.2, ?_⟩
    rw [← hk]
    split at hp
    · exact List.mem_of_mem_tail hp
    · exact hp
  · split <;> simp <;> omega

/-- a history with an eviction: key 1 is introduced first and evicted by key 3, key 2 survives -/
example : (runOverwrites (init [0, 0] [0, 0]) [(1, 10), (2, 20), (1, 11), (3, 30)]) = .ok ⟨[3, 2], [30, 20], 2, 1⟩ ∧
    Spec.run 2 [] [(1, 10), (2, 20), (1, 11), (3, 30)] = [(2, 20), (3, 30)] ∧
    ¬ Spec.has (Spec.run 2 [] [(1, 10)]) 2 ∧
    Spec.intros 2 (Spec.run 2 [] ([(1, 10)] ++ [(2, 20)])) [(1, 11), (3, 30)] < 2 := by decide

/-! ### insert, remove_last, remove -/

/-- What every state of a map satisfies. -/
def Ok (s : St K V) : Prop := s.vals.length = s.keys.length ∧ s.sz ≤ s.keys.length

theorem get_of_scan {s : St K V} (h : Ok s) (k : K) :
    (scan s k = none ∧ get s k = .ok none) ∨
    ∃ i v, scan s k = some i ∧ i < s.sz ∧ s.keys[i]? = some k ∧ s.vals[i]? = some v ∧ get s k = .ok (some v) := by
  cases hs : scan s k with
  | none => exact .inl ⟨rfl, by simp [get, getIdx, hs]⟩
  | some i =>
    obtain ⟨h1, h2, _⟩ := scan_some hs
    obtain ⟨ho1, ho2⟩ := h
    have hi : i < s.vals.length := by omega
    exact .inr ⟨i, s.vals[i], rfl, h1, h2, by simp, by simp [get, getIdx, hs, arrGet_lt hi]⟩

/-- **C24**: in every state, `get(k)` is defined, non-null iff `key_exists(k)`, and what it finds is stored under `k`. -/
theorem C24_get_iff_exists (s : St K V) (h : Ok s) (k : K) :
    ∃ r, get s k = .ok r ∧ (r.isSome = true ↔ keyExists s k = true) ∧
      ∀ v, r = some v → ∃ i, i < s.sz ∧ s.keys[i]? = some k ∧ s.vals[i]? = some v := by
  rw [keyExists_eq]
  rcases get_of_scan h k with ⟨h1, h2⟩ | ⟨i, v, h1, h2, h3, h4, h5⟩
  · exact ⟨none, h2, by simp [h1], by intro v hv; cases hv⟩
  · exact ⟨some v, h5, by simp [h1], by intro v' hv; cases hv; exact ⟨i, h2, h3, h4⟩⟩

example := C24_get_iff_exists (⟨[5, 6, 0], [50, 60, 0], 2, 0⟩ : St Nat Nat) ⟨rfl, by decide⟩ 6

theorem scan_prefix {s s' : St K V} {k : K} (hsz : s.sz ≤ s'.sz) (hk : ∀ j : Nat, j < s.sz → s'.keys[j]? = s.keys[j]?) {i : Nat}
    (h : scan s k = some i) : scan s' k = some i := by
  obtain ⟨h1, h2, h3⟩ := scan_some h
  refine scan_eq_some (by omega) (by rw [hk i h1]; exact h2) ?_
  intro j hj
  rw [hk j (by omega)]
  exact h3 j hj

/-- **C24**: `insert(k, v)` fails iff the map is full, leaving it unchanged; otherwise `k` is found afterwards (with `v`
unless `k` was already there), and every other key keeps its presence and value. -/
theorem C24_insert (s : St K V) (h : Ok s) (k : K) (v : V) :
    ∃ s' b, insert s k v = .ok (s', b) ∧ Ok s' ∧ (b = true ↔ s.sz < s.keys.length) ∧ (b = false → s' = s) ∧
      (b = true → size s' = size s + 1 ∧ keyExists s' k = true ∧
        (keyExists s k = false → get s' k = .ok (some v)) ∧ (keyExists s k = true → get s' k = get s k) ∧
        ∀ k', k' ≠ k → get s' k' = get s k' ∧ keyExists s' k' = keyExists s k') := by
  obtain ⟨ho1, ho2⟩ := h
  unfold insert
  by_cases hf : s.sz ≥ s.keys.length
  · rw [if_pos hf]
    exact ⟨s, false, rfl, ⟨ho1, ho2⟩, by simp; omega, fun _ => rfl, by simp⟩
  · rw [if_neg hf]
    simp only [arrSet_lt (show s.sz < s.keys.length by omega), arrSet_lt (show s.sz < s.vals.length by omega), R.bind_ok,
      R.pure_eq]
    obtain ⟨s', hs'⟩ : ∃ s' : St K V, s' = { s with keys := s.keys.set s.sz k, vals := s.vals.set s.sz v, sz := s.sz + 1 } := ⟨_, rfl⟩
    have hkeys : ∀ j : Nat, j < s.sz → s'.keys[j]? = s.keys[j]? := by
      intro j hj; rw [hs']; simp only; rw [List.getElem?_set_ne (by omega)]
    have hvals : ∀ j : Nat, j < s.sz → s'.vals[j]? = s.vals[j]? := by
      intro j hj; rw [hs']; simp only; rw [List.getElem?_set_ne (by omega)]
    have hknew : s'.keys[s.sz]? = some k := by rw [hs']; simp only; rw [List.getElem?_set_self (by omega)]
    have hvnew : s'.vals[s.sz]? = some v := by rw [hs']; simp only; rw [List.getElem?_set_self (by omega)]
    have hsz : s'.sz = s.sz + 1 := by rw [hs']
    have hok : Ok s' := by rw [hs']; exact ⟨by simpa using ho1, by simp; omega⟩
    have hold : ∀ k' i, scan s k' = some i → scan s' k' = some i ∧ get s' k' = get s k' := by
      intro k' i hi
      have h1 := scan_prefix (s' := s') (by omega) hkeys hi
      refine ⟨h1, ?_⟩
      have := (scan_some hi).1
      simp only [get, getIdx, hi, h1, arrGet, hvals i this]
    have hnew : ∀ k', scan s k' = none → k' ≠ k → scan s' k' = none := by
      intro k' hk' hne
      refine scan_eq_none ?_
      intro j hj
      by_cases hjs : j = s.sz
      · subst hjs; rw [hknew]; simp; exact fun e => hne e.symm
      · rw [hkeys j (by omega)]; exact scan_none hk' j (by omega)
    have hk : scan s k = none → scan s' k = some s.sz := by
      intro hn
      refine scan_eq_some (by omega) hknew ?_
      intro j hj
      rw [hkeys j hj]; exact scan_none hn j hj
    rw [← hs']
    refine ⟨s', true, rfl, hok, by simp; omega, by simp, fun _ => ⟨hsz, ?_, ?_, ?_, ?_⟩⟩
    · rw [keyExists_eq]
      cases hc : scan s k with
      | none => rw [hk hc]; rfl
      | some i => rw [(hold k i hc).1]; rfl
    · intro hn
      rw [keyExists_eq] at hn
      have hn' : scan s k = none := by simpa using hn
      simp only [get, getIdx, hk hn', arrGet_some hvnew]; rfl
    · intro hn
      rw [keyExists_eq] at hn
      obtain ⟨i, hi⟩ := Option.isSome_iff_exists.mp hn
      exact (hold k i hi).2
    · intro k' hne
      cases hc : scan s k' with
      | none =>
        have := hnew k' hc hne
        simp [get, getIdx, keyExists_eq, hc, this]
      | some i => rw [keyExists_eq, keyExists_eq, (hold k' i hc).1, hc]; exact ⟨(hold k' i hc).2, rfl⟩

/-- **C24**: `remove_last()` drops the most recently added entry and disturbs no other key. -/
theorem C24_remove_last (s : St K V) (h : Ok s) :
    Ok (removeLast s) ∧ size (removeLast s) = size s - 1 ∧
    ∀ k, s.keys[s.sz - 1]? ≠ some k → get (removeLast s) k = get s k := by
  obtain ⟨ho1, ho2⟩ := h
  unfold removeLast
  split
  · next hs =>
    refine ⟨⟨ho1, by simp only; omega⟩, rfl, ?_⟩
    intro k hk
    cases hc : scan s k with
    | none =>
      have : scan { s with sz := s.sz - 1 } k = none := scan_eq_none (fun j hj => scan_none hc j (by simp at hj; omega))
      simp [get, getIdx, hc, this]
    | some i =>
      obtain ⟨h1, h2, h3⟩ := scan_some hc
      have hne : i ≠ s.sz - 1 := by rintro rfl; exact hk h2
      have : scan { s with sz := s.sz - 1 } k = some i := scan_eq_some (by simp only; omega) h2 h3
      simp [get, getIdx, hc, this]
  · exact ⟨⟨ho1, ho2⟩, by simp [size]; omega, fun _ _ => rfl⟩

/-- **C25 (partial)**: `remove(k)` returns true iff `k` was present; if `k` is not the default key and is stored once, then
afterwards it is absent, and every key other than `k` and the default key keeps its presence and value.
Missing: the default key, duplicates, and reuse of the freed place (next theorem). -/
theorem C25_remove_partial (k0 : K) (v0 : V) (s : St K V) (h : Ok s) (k : K) :
    ∃ s' b, remove k0 v0 s k = .ok (s', b) ∧ Ok s' ∧ (b = true ↔ keyExists s k = true) ∧ (b = false → s' = s) ∧
      (k ≠ k0 → (∀ i j : Nat, i < s.sz → j < s.sz → s.keys[i]? = some k → s.keys[j]? = some k → i = j) →
        keyExists s' k = false) ∧
      (∀ k', k' ≠ k → k' ≠ k0 → get s' k' = get s k' ∧ keyExists s' k' = keyExists s k') := by
  obtain ⟨ho1, ho2⟩ := h
  unfold remove
  cases hc : scan s k with
  | none =>
    refine ⟨s, false, rfl, ⟨ho1, ho2⟩, by simp [keyExists_eq, hc], fun _ => rfl, ?_, fun _ _ _ => ⟨rfl, rfl⟩⟩
    intro _ _; simp [keyExists_eq, hc]
  | some i =>
    obtain ⟨h1, h2, h3⟩ := scan_some hc
    simp only [arrSet_lt (show i < s.keys.length by omega), arrSet_lt (show i < s.vals.length by omega), R.bind_ok, R.pure_eq]
    refine ⟨_, true, rfl, ⟨by simpa using ho1, by simpa using ho2⟩, by simp [keyExists_eq, hc], by simp, ?_, ?_⟩
    · intro hk huniq
      rw [keyExists_eq, scan_eq_none]
      · rfl
      · intro j hj hjk
        simp only at hj hjk
        by_cases hji : j = i
        · subst hji
          rw [List.getElem?_set_self (by omega)] at hjk
          simp at hjk; exact hk hjk.symm
        · rw [List.getElem?_set_ne (Ne.symm hji)] at hjk
          exact hji (huniq j i hj h1 hjk h2)
    · intro k' hne hne0
      have hkeys : ∀ j : Nat, ((s.keys.set i k0)[j]? = some k') ↔ s.keys[j]? = some k' := by
        intro j
        by_cases hji : j = i
        · subst hji
          rw [List.getElem?_set_self (by omega), h2]
          simp; exact ⟨fun e => absurd e.symm hne0, fun e => absurd e.symm hne⟩
        · rw [List.getElem?_set_ne (Ne.symm hji)]
      cases hc' : scan s k' with
      | none =>
        have hs : scan { s with keys := s.keys.set i k0, vals := s.vals.set i v0 } k' = none :=
          scan_eq_none (fun j hj e => scan_none hc' j hj ((hkeys j).1 e))
        simp [get, getIdx, keyExists_eq, hc', hs]
      | some j =>
        obtain ⟨g1, g2, g3⟩ := scan_some hc'
        have hs : scan { s with keys := s.keys.set i k0, vals := s.vals.set i v0 } k' = some j :=
          scan_eq_some g1 ((hkeys j).2 g2) (fun m hm e => g3 m hm ((hkeys m).1 e))
        have hji : i ≠ j := by
          rintro rfl
          rw [h2] at g2; simp at g2; exact hne g2.symm
        simp [get, getIdx, keyExists_eq, hc', hs, arrGet, List.getElem?_set_ne hji]

/-- **C25** (partial), exactly what a successful `remove(k)` leaves: the size stays, the default key is present, and `k` is still present exactly if it is the default key or was stored a second time. -/
theorem C25_remove_exact_partial (k0 : K) (v0 : V) (s : St K V) (h : Ok s) (k : K) (hk : keyExists s k = true) :
    ∃ s', remove k0 v0 s k = .ok (s', true) ∧ size s' = size s ∧ keyExists s' k0 = true ∧
      (keyExists s' k = true ↔ k = k0 ∨ ∃ i j : Nat, i < j ∧ j < s.sz ∧ s.keys[i]? = some k ∧ s.keys[j]? = some k) := by
  obtain ⟨ho1, ho2⟩ := h
  unfold remove
  cases hc : scan s k with
  | none => rw [keyExists_eq, hc] at hk; cases hk
  | some i =>
    obtain ⟨h1, h2, h3⟩ := scan_some hc
    simp only [arrSet_lt (show i < s.keys.length by omega), arrSet_lt (show i < s.vals.length by omega), R.bind_ok, R.pure_eq]
    have ex : ∀ (q : K) (t : St K V) (j : Nat), j < t.sz → t.keys[j]? = some q → keyExists t q = true := by
      intro q t j hj hq
      rw [keyExists_eq]
      cases hq' : scan t q with
      | none => exact absurd hq (scan_none hq' j hj)
      | some _ => rfl
    refine ⟨_, rfl, rfl, ex k0 _ i h1 (List.getElem?_set_self (by omega)), ?_⟩
    constructor
    · intro he
      rw [keyExists_eq] at he
      cases hq : scan { s with keys := s.keys.set i k0, vals := s.vals.set i v0 } k with
      | none => rw [hq] at he; cases he
      | some j =>
        obtain ⟨g1, g2, _⟩ := scan_some hq
        simp only at g1 g2
        by_cases hji : j = i
        · subst hji
          rw [List.getElem?_set_self (by omega)] at g2
          exact .inl (Option.some.inj g2).symm
        · rw [List.getElem?_set_ne (Ne.symm hji)] at g2
          refine .inr ⟨i, j, ?_, g1, h2, g2⟩
          rcases Nat.lt_or_gt_of_ne hji with hlt | hgt
          · exact absurd g2 (h3 j hlt)
          · exact hgt
    · rintro (rfl | ⟨a, b, hab, hb, ha2, hb2⟩)
      · exact ex k _ i h1 (List.getElem?_set_self (by omega))
      · have hbi : i ≠ b := by
          rintro rfl
          exact h3 a hab ha2
        exact ex k _ b hb (by simp only; rw [List.getElem?_set_ne hbi]; exact hb2)

example : remove (0 : Nat) (0 : Nat) ⟨[4, 5, 4], [7, 8, 9], 3, 0⟩ 4 = .ok (⟨[0, 5, 4], [0, 8, 9], 3, 0⟩, true) := by decide

/-- **C25 is violated**: removing the default key leaves it present; removing another key makes the default key appear,
with the default value; and the freed place cannot be used: `insert` still reports the map full. -/
theorem C25_remove_violated :
    (∃ s', remove (0 : Nat) (0 : Nat) ⟨[0, 5], [7, 8], 2, 0⟩ 0 = .ok (s', true) ∧ keyExists s' 0 = true) ∧
    (∃ s', remove (0 : Nat) (0 : Nat) ⟨[4, 5], [7, 8], 2, 0⟩ 5 = .ok (s', true) ∧
      keyExists (⟨[4, 5], [7, 8], 2, 0⟩ : St Nat Nat) 0 = false ∧ get s' 0 = .ok (some 0) ∧
      insert s' 6 9 = .ok (s', false)) :=
  ⟨⟨_, rfl, by decide⟩, ⟨_, rfl, by decide, by decide, by decide⟩⟩

example : Ok (⟨[4, 5, 9], [7, 8, 1], 2, 0⟩ : St Nat Nat) ∧
    insert (⟨[4, 5, 9], [7, 8, 1], 2, 0⟩ : St Nat Nat) 6 3 = .ok (⟨[4, 5, 6], [7, 8, 3], 3, 0⟩, true) ∧
    remove 0 0 (⟨[4, 5, 9], [7, 8, 1], 2, 0⟩ : St Nat Nat) 4 = .ok (⟨[0, 5, 9], [0, 8, 1], 2, 0⟩, true) := by
  refine ⟨⟨rfl, by decide⟩, by decide, by decide⟩

end SeqMap
