import Verif.Model.MapSelf
import Verif.Props.SeqMap
import Verif.Props.SequentialMap
/-! # C260: map calls given references to the map's own keys and values -/
namespace SeqMap
variable {K V : Type} [DecidableEq K]

theorem overwriteRef_eq (s : St K V) (key : K) (p : Nat) (v : V) (h : s.vals[p]? = some v) : overwriteRef s key p = overwrite s key v := by
  obtain ⟨hp, hv⟩ := List.getElem?_eq_some_iff.mp h
  have hg : arrGet s.vals p = .ok v := by rw [arrGet_lt hp, hv]
  unfold overwriteRef overwrite
  cases scan s key with
  | some i => simp only [hg, R.bind_ok]
  | none =>
    by_cases hc : s.sz ≥ s.keys.length
    · simp only [if_pos hc, hg, R.bind_ok]
    · simp only [if_neg hc, hg, R.bind_ok]

/-- **C260**: after any history, overwriting a key with the value a pointer from get() points to, also when the map is full and that
value is the one to be thrown out, leaves the map with that value as it was before the call. -/
theorem C260_overwrite_with_own_value (keys : List K) (vals : List V) (hp : 0 < keys.length) (hl : vals.length = keys.length)
    (hist : List (K × V)) (s : St K V) (hs : runOverwrites (init keys vals) hist = .ok s) (k k2 : K) (p : Nat) (v : V)
    (hg : getIdx s k2 = some p) (hv : get s k2 = .ok (some v)) :
    ∃ s' i, overwriteRef s k p = .ok (s', i) ∧ get s' k = .ok (some v) ∧
      ∀ x, get s' x = .ok (Spec.lookup (Spec.overwrite keys.length (Spec.run keys.length [] hist) k v) x) := by
  obtain ⟨s1, h1, h2⟩ := (init_Rel keys vals hp hl).run hist
  rw [hs] at h1; cases h1
  have hpv : s.vals[p]? = some v := by
    unfold get at hv
    rw [hg] at hv
    simp only at hv
    cases ha : arrGet s.vals p with
    | ub => rw [ha] at hv; cases hv
    | ok w =>
      rw [ha] at hv; cases hv
      unfold arrGet at ha
      split at ha
      · next h => cases ha; assumption
      · cases ha
  rw [overwriteRef_eq s k p v hpv]
  obtain ⟨s', i, h3, h4, h5⟩ := h2.overwrite k v
  obtain ⟨s2, i2, h6, _, h7⟩ := C23_get_after_overwrite keys vals hp hl hist s hs k v
  rw [h3] at h6; cases h6
  exact ⟨s', i, h3, h7, fun x => h5.get x⟩

/-- full: key 3 takes the place of key 1 and the value it had -/
example : runOverwrites (init [0, 0] [0, 0]) [(1, 10), (2, 20)] = .ok (⟨[1, 2], [10, 20], 2, 0⟩ : St Nat Nat) ∧
    getIdx (⟨[1, 2], [10, 20], 2, 0⟩ : St Nat Nat) 1 = some 0 ∧ get (⟨[1, 2], [10, 20], 2, 0⟩ : St Nat Nat) 1 = .ok (some 10) ∧
    overwriteRef (⟨[1, 2], [10, 20], 2, 0⟩ : St Nat Nat) 3 0 = .ok (⟨[3, 2], [10, 20], 2, 1⟩, 0) := by decide +kernel

/-- **C260**: inserting the value a pointer into the map points to inserts what it was before the call. -/
theorem C260_insert_own_value (s : St K V) (key : K) (p : Nat) (v : V) (h : s.vals[p]? = some v) : insertRef s key p = insert s key v := by
  obtain ⟨hp, hv⟩ := List.getElem?_eq_some_iff.mp h
  have hg : arrGet s.vals p = .ok v := by rw [arrGet_lt hp, hv]
  unfold insertRef insert
  simp only [hg, R.bind_ok]

example : (⟨[1, 0], [10, 5], 1, 0⟩ : St Nat Nat).vals[0]? = some 10 ∧
    insertRef (⟨[1, 0], [10, 5], 1, 0⟩ : St Nat Nat) 2 0 = .ok (⟨[1, 2], [10, 10], 2, 0⟩, true) := by decide +kernel

end SeqMap

namespace SequentialMap
variable {K V : Type} [DecidableEq K]

/-- what `operator[]` leaves of the values: each entry's value is unchanged, and what it returns is a position of an entry -/
theorem index_keeps {s s' : St K V} {k : K} {i : Nat} (hb : s.back ≤ s.data.length) (h : index s k = .ok (s', i)) :
    s'.back ≤ s'.data.length ∧ i < s'.data.length ∧ s'.data.length = s.data.length ∧ ∀ j : Nat, (s'.data[j]?).map (·.2) = (s.data[j]?).map (·.2) := by
  unfold index at h
  cases hs : search k (FixedVector.toList s) 0 with
  | some i' =>
    rw [hs] at h
    cases h
    rw [search_eq] at hs
    split at hs
    · next hm =>
      cases hs
      have := List.idxOf_lt_length_of_mem hm
      have hl : (FixedVector.toList s).length ≤ s.data.length := by unfold FixedVector.toList; rw [List.length_take]; omega
      rw [List.length_map] at this
      exact ⟨hb, by omega, rfl, fun _ => rfl⟩
    · cases hs
  | none =>
    rw [hs] at h
    simp only at h
    have key : ∀ (t : St K V) (n : Nat), t.data = s.data → t.back ≤ s.data.length →
        (do let old ← arrGet t.data n; let d ← arrSet t.data n (k, old.2); pure (({ t with data := d } : St K V), n) : R (St K V × Nat)) = .ok (s', i) →
        s'.back ≤ s'.data.length ∧ i < s'.data.length ∧ s'.data.length = s.data.length ∧
          ∀ j : Nat, (s'.data[j]?).map (·.2) = (s.data[j]?).map (·.2) := by
      intro t n ht hbt hh
      rw [ht] at hh
      rcases Nat.lt_or_ge n s.data.length with hn | hn
      · rw [arrGet_lt hn, R.bind_ok, arrSet_lt hn, R.bind_ok] at hh
        cases hh
        refine ⟨by simpa using hbt, by simpa using hn, by simp, fun j => ?_⟩
        simp only [List.getElem?_set]
        split
        · next hj => subst hj; rw [List.getElem?_eq_getElem hn]; rfl
        · rfl
      · rw [show arrGet s.data n = R.ub by unfold arrGet; rw [List.getElem?_eq_none hn]] at hh
        cases hh
    unfold FixedVector.pushBackForOverwrite at h
    split at h
    · next hc =>
      simp only [FixedVector.maxSize, if_true] at h
      split at h
      · cases h
      · exact key s (s.data.length - 1) rfl hb h
    · next hc =>
      simp only [FixedVector.maxSize] at h hc
      split at h
      · split at h
        · cases h
        · exact key ⟨s.data, s.back + 1⟩ (s.back - 1) rfl (by simp only; omega) h
      · exact key ⟨s.data, s.back + 1⟩ s.back rfl (by simp only; omega) h

/-- an index call fails only as a subscript error -/
theorem assignFrom_eq (s : St K V) (hb : s.back ≤ s.data.length) (a b : K) :
    assignFrom s a b = (do let (s, v) ← read s b; assign s a v) := by
  unfold assignFrom read
  cases h1 : index s b with
  | ub => rfl
  | ok r =>
    obtain ⟨s1, j⟩ := r
    obtain ⟨g1, g2, g3, g4⟩ := index_keeps hb h1
    simp only [R.bind_ok]
    rw [arrGet_lt g2]
    simp only [R.bind_ok, R.pure_eq]
    unfold assign
    cases h2 : index s1 a with
    | ub => rfl
    | ok r =>
      obtain ⟨s2, i⟩ := r
      obtain ⟨k1, k2, k3, k4⟩ := index_keeps g1 h2
      have hj : j < s2.data.length := by omega
      have hv := k4 j
      rw [List.getElem?_eq_getElem hj, List.getElem?_eq_getElem g2] at hv
      simp only [Option.map_some, Option.some.injEq] at hv
      simp only [R.bind_ok]
      rw [arrGet_lt hj, arrGet_lt k2]
      simp only [R.bind_ok]
      rw [hv]
      rfl

/-- **C260**: after any history of a map that keeps within its room, `m[a] = m[b]` with `b` present and `a` present or room for it is the
assignment of the value `b` has: whether the two are the same key, and although `m[a]` may create its entry in between. -/
theorem C260_assign_own_value (arr : List (K × V)) (ops : List (Op K V)) (m : Spec.Map K V) (os : List (Out K V))
    (h : Spec.run arr.length ⟨[], fun _ => none⟩ ops = some (m, os)) (a b : K) (v : V) (hv : m.val b = some v)
    (ha : a ∈ m.keys ∨ m.keys.length < arr.length) :
    ∃ s s', run (⟨arr, 0⟩ : St K V) ops = .ok (s, os) ∧ assignFrom s a b = .ok s' ∧
      (∀ x w, (if x = a then some v else m.val x) = some w ↔ (x, w) ∈ FixedVector.toList s') ∧
      (FixedVector.toList s').map (·.1) = if a ∈ m.keys then m.keys else m.keys ++ [a] := by
  obtain ⟨s, h1, h2⟩ := (Rel.init arr).run ops h
  have hb : s.back ≤ s.data.length := by have := fv_length h2; omega
  have hr : read s b = .ok (s, v) := by
    have hk := h2.val_mem hv
    obtain ⟨w, e1, e2, _⟩ := h2.entry hk
    rw [hv] at e2; cases e2
    unfold read
    rw [h2.index_present hk]
    simp only [R.bind_ok]
    rw [arrGet_some e1]
    rfl
  have hstep : Spec.step arr.length m (.assign a v) =
      some (⟨if a ∈ m.keys then m.keys else m.keys ++ [a], fun x => if x = a then some v else m.val x⟩, []) := by
    simp only [Spec.step]
    by_cases hk : a ∈ m.keys
    · rw [if_pos hk, if_pos hk]
    · rw [if_neg hk, if_pos (ha.resolve_left hk), if_neg hk]
  obtain ⟨s', h3, h4⟩ := h2.assign a v hstep
  refine ⟨s, s', h1, ?_, h4.val, h4.keys⟩
  rw [assignFrom_eq s hb, hr]
  exact h3

/-- key 2 is created between the evaluation of `m[1]` and the assignment -/
example : ((Spec.run 2 (⟨[], fun _ => none⟩ : Spec.Map Nat Nat) [.assign 1 10]).map fun r => (r.1.keys, r.1.val 1)) = some ([1], some 10) ∧
    assignFrom (⟨[(1, 10), (0, 0)], 1⟩ : St Nat Nat) 2 1 = .ok ⟨[(1, 10), (2, 10)], 2⟩ := by decide +kernel

/-- **C260**, beyond the room: `m[a] = m[b]` is always the read of `m[b]` followed by the assignment. -/
theorem C260_assign_exact (s : St K V) (hb : s.back ≤ s.data.length) (a b : K) :
    assignFrom s a b = (do let (s, v) ← read s b; assign s a v) := assignFrom_eq s hb a b

/-- full: the entry read from becomes the new key's -/
example : (⟨[(1, 10), (2, 20)], 2⟩ : St Nat Nat).back ≤ (⟨[(1, 10), (2, 20)], 2⟩ : St Nat Nat).data.length ∧
    assignFrom (⟨[(1, 10), (2, 20)], 2⟩ : St Nat Nat) 3 2 = .ok ⟨[(1, 10), (3, 20)], 2⟩ := by decide +kernel

theorem eraseAt_rel {N : Nat} {s : St K V} {q : List (K × V)} (h : FixedVector.Rel N s q) (hn : (q.map (·.1)).Nodup) (i : Nat)
    (hi : i < q.length) : ∃ s', eraseAt s i = .ok (s', 1) ∧ FixedVector.Rel N s' (q.take i ++ q.drop (i + 1)) := by
  have e1 := h.el i hi
  rw [List.getElem?_eq_getElem hi] at e1
  unfold eraseAt
  rw [arrGet_some (by first | exact e1 | exact e1.symm)]
  simp only [R.bind_ok]
  have hf : find s q[i].1 = i := by
    unfold find
    rw [h.toList, search_eq, if_pos (List.mem_map.mpr ⟨q[i], List.getElem_mem _, rfl⟩)]
    have : (q.map (·.1)).idxOf q[i].1 = i := by
      have := List.Nodup.idxOf_getElem hn i (by simpa using hi)
      simpa using this
    rw [this]
    simp
  unfold erase
  simp only
  rw [hf, if_pos (by rw [h.back]; omega)]
  obtain ⟨s', h1, h2⟩ := fv_eraseRange h i (i + 1) (by omega) (by omega)
  rw [h1]
  exact ⟨s', rfl, h2⟩

theorem eraseLoop_rel {N : Nat} (p : K × V → Bool) : ∀ (fuel : Nat) (rest pre : List (K × V)) (s : St K V), rest.length ≤ fuel →
    FixedVector.Rel N s (pre ++ rest) → ((pre ++ rest).map (·.1)).Nodup →
    ∃ s', eraseLoop p fuel s pre.length = .ok s' ∧ FixedVector.Rel N s' (pre ++ rest.filter (fun x => !p x)) := by
  intro fuel
  induction fuel with
  | zero =>
    intro rest pre s hf h _
    have : rest = [] := List.eq_nil_of_length_eq_zero (by omega)
    subst this
    exact ⟨s, rfl, h⟩
  | succ fuel ih =>
    intro rest pre s hf h hn
    unfold eraseLoop
    have hb : s.back = pre.length + rest.length := by rw [h.back, List.length_append]
    cases rest with
    | nil =>
      rw [if_neg (by simp at hb; omega)]
      exact ⟨s, rfl, h⟩
    | cons a rest =>
      rw [List.length_cons] at hb hf
      have e1 := h.el pre.length (by simp)
      have e2 : (pre ++ a :: rest)[pre.length]? = some a := by simp
      rw [e2] at e1
      rw [if_pos (by omega), arrGet_some (by first | exact e1 | exact e1.symm)]
      simp only [R.bind_ok]
      by_cases hp : p a = true
      · rw [if_pos hp]
        obtain ⟨s', h1, h2⟩ := eraseAt_rel h hn pre.length (by simp)
        rw [h1]
        simp only [R.bind_ok]
        rw [List.take_left, show pre.length + 1 = (pre ++ [a]).length by simp, show pre ++ a :: rest = (pre ++ [a]) ++ rest by simp,
          List.drop_left] at h2
        obtain ⟨s2, h3, h4⟩ := ih rest pre s' (by omega) h2 (by
          refine hn.sublist (List.Sublist.map _ ?_)
          exact List.Sublist.append_left (List.sublist_cons_self a rest) pre)
        exact ⟨s2, h3, by rw [List.filter_cons_of_neg (by simp [hp])]; exact h4⟩
      · rw [if_neg hp]
        obtain ⟨s2, h3, h4⟩ := ih rest (pre ++ [a]) s (by omega) (by simpa using h) (by simpa using hn)
        rw [List.length_append, List.length_singleton] at h3
        exact ⟨s2, h3, by rw [List.filter_cons_of_pos (by simpa using hp)]; simpa using h4⟩

/-- **C260**: after any history of a map that keeps within its room, a loop over its iterators that erases each entry satisfying a
condition by its own key ends after at most `size()` rounds and leaves exactly the other entries, in order. -/
theorem C260_erase_loop (arr : List (K × V)) (ops : List (Op K V)) (m : Spec.Map K V) (os : List (Out K V))
    (h : Spec.run arr.length ⟨[], fun _ => none⟩ ops = some (m, os)) (p : K × V → Bool) (fuel : Nat) (hf : m.keys.length ≤ fuel) :
    ∃ s s', run (⟨arr, 0⟩ : St K V) ops = .ok (s, os) ∧ eraseLoop p fuel s 0 = .ok s' ∧
      FixedVector.toList s' = (FixedVector.toList s).filter (fun x => !p x) := by
  obtain ⟨s, h1, h2⟩ := (Rel.init arr).run ops h
  have hq : FixedVector.Rel arr.length s ([] ++ FixedVector.toList s) := h2.fv
  obtain ⟨s', h3, h4⟩ := eraseLoop_rel p fuel (FixedVector.toList s) [] s (by have := fv_length h2; omega) hq
    (by have := h2.nodup; rw [← h2.keys] at this; exact this)
  exact ⟨s, s', h1, h3, h4.toList⟩

example : ((Spec.run 3 (⟨[], fun _ => none⟩ : Spec.Map Nat Nat) [.assign 1 10, .assign 2 20, .assign 4 40]).map fun r => r.1.keys) = some [1, 2, 4] ∧
    (eraseLoop (fun e => e.1 % 2 == 0) 3 (⟨[(1, 10), (2, 20), (4, 40)], 3⟩ : St Nat Nat) 0 >>= fun s => .ok (FixedVector.toList s)) =
      .ok [(1, 10)] := by decide +kernel

end SequentialMap
