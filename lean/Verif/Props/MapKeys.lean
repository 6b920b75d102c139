import Verif.Spec.MapKeys
import Verif.Props.SeqMap
import Verif.Props.SequentialMap
import Verif.Props.StaticString
import Verif.XFlt
/-! # Property C236: maps whose keys are compared with the `==` of their type -/

theorem arrSet_map {α β : Type} (f : α → β) (l : List α) (i : Nat) (a : α) : arrSet (l.map f) i (f a) = List.map f <$> arrSet l i a := by
  simp only [arrSet, List.length_map]
  split
  · simp [List.map_set]
  · rfl

theorem arrGet_map {α β : Type} (f : α → β) (l : List α) (i : Nat) : arrGet (l.map f) i = f <$> arrGet l i := by
  simp only [arrGet, List.getElem?_map]
  cases l[i]? <;> rfl

namespace SeqMap.Keys
open MapKeys
variable {K Q V : Type}

def mapSt (cls : K → Q) (s : St K V) : St Q V := ⟨s.keys.map cls, s.vals, s.sz, s.oldest⟩

def Act (G : K → Prop) (s : St K V) : Prop := ∀ (i : Nat) k, i < s.sz → s.keys[i]? = some k → G k

def eqD [DecidableEq Q] : Q → Q → Bool := fun a b => decide (a = b)

variable {eq : K → K → Bool} {G : K → Prop} {cls : K → Q} [DecidableEq Q]

theorem mem_act {s : St K V} (h : Act G s) {k : K} (hk : k ∈ s.keys.take s.sz) : G k := by
  obtain ⟨i, hi⟩ := List.getElem?_of_mem hk
  rw [List.getElem?_take] at hi
  split at hi
  · next c => exact h i k c hi
  · cases hi

theorem findIdx?_congr' {α β : Type} (f : α → β) (p : α → Bool) (q : β → Bool) : ∀ l : List α, (∀ x ∈ l, q (f x) = p x) → (l.map f).findIdx? q = l.findIdx? p
  | [], _ => rfl
  | a :: l, h => by
    simp only [List.map_cons, List.findIdx?_cons, h a (List.mem_cons_self ..), findIdx?_congr' f p q l (fun x hx => h x (List.mem_cons_of_mem _ hx))]

theorem eqD_cls (hc : Classes eq G cls) {a b : K} (ha : G a) (hb : G b) : eqD (cls a) (cls b) = eq a b := by
  rw [Bool.eq_iff_iff]; simpa [eqD] using (hc a b ha hb).symm

theorem scan_map (hc : Classes eq G cls) {s : St K V} (h : Act G s) {k : K} (hk : G k) : scan eqD (mapSt cls s) (cls k) = scan eq s k := by
  simp only [scan, mapSt, ← List.map_take]
  exact findIdx?_congr' _ _ _ _ fun x hx => eqD_cls hc (mem_act h hx) hk

theorem any_map' (hc : Classes eq G cls) {s : St K V} (h : Act G s) {k : K} (hk : G k) : keyExists eqD (mapSt cls s) (cls k) = keyExists eq s k := by
  simp only [keyExists, mapSt, ← List.map_take, List.any_map]
  rw [Bool.eq_iff_iff, List.any_eq_true, List.any_eq_true]
  exact exists_congr fun x => and_congr_right fun hx => by simp only [Function.comp]; rw [eqD_cls hc (mem_act h hx) hk]

theorem act_set {s : St K V} (h : Act G s) {k : K} (hk : G k) {i : Nat} {vs : List V} {o n : Nat} (hn : ∀ j, j < n → j < s.sz ∨ j = i) {ks : List K} (hs : arrSet s.keys i k = .ok ks) : Act G ⟨ks, vs, n, o⟩ := by
  intro j k' hj hk'
  simp only at hj hk'
  unfold arrSet at hs
  split at hs
  · cases hs
    by_cases c : i = j
    · subst c
      rw [List.getElem?_set_self (by assumption)] at hk'
      cases hk'; exact hk
    · rw [List.getElem?_set_ne c] at hk'
      rcases hn j hj with h1 | h1
      · exact h j k' h1 hk'
      · exact absurd h1.symm c
  · cases hs

theorem step_map (hc : Classes eq G cls) {k0 : K} (h0 : G k0) (v0 : V) {s : St K V} (h : Act G s) (op : Op K V) (ho : okOp G op) :
    step eqD (cls k0) v0 (mapSt cls s) (mapOp cls op) = (fun r => (mapSt cls r.1, r.2)) <$> step eq k0 v0 s op ∧ ∀ s' o, step eq k0 v0 s op = .ok (s', o) → Act G s' := by
  cases op with
  | insert k v =>
    simp only [step, mapOp, insert, mapSt, List.length_map]
    by_cases c : s.sz ≥ s.keys.length
    · simp only [if_pos c, R.pure_eq, R.bind_ok, R.map_ok]
      exact ⟨by first | rfl | trivial, fun s' o e => by cases e; exact h⟩
    · simp only [if_neg c, arrSet_map]
      cases e1 : arrSet s.keys s.sz k with
      | ub => simp
      | ok ks =>
        cases e2 : arrSet s.vals s.sz v with
        | ub => simp
        | ok vs =>
          simp only [R.map_ok, R.bind_ok, R.pure_eq]
          exact ⟨by first | rfl | trivial, fun s' o e => by cases e; exact act_set h ho (by omega) e1⟩
  | overwrite k v =>
    have hs := scan_map hc h ho
    simp only [step, mapOp, overwrite, hs]
    cases scan eq s k with
    | some i =>
      simp only [mapSt]
      cases e2 : arrSet s.vals i v with
      | ub => simp
      | ok vs =>
        simp only [R.map_ok, R.bind_ok, R.pure_eq]
        exact ⟨by first | rfl | trivial, fun s' o e => by cases e; exact h⟩
    | none =>
      simp only [mapSt, List.length_map]
      by_cases c : s.sz ≥ s.keys.length
      · simp only [if_pos c, arrSet_map]
        cases e1 : arrSet s.keys s.oldest k with
        | ub => simp
        | ok ks =>
          cases e2 : arrSet s.vals s.oldest v with
          | ub => simp
          | ok vs =>
            simp only [R.map_ok, R.bind_ok, R.pure_eq]
            exact ⟨by first | rfl | trivial, fun s' o e => by cases e; exact act_set h ho (by omega) e1⟩
      · simp only [if_neg c, arrSet_map]
        cases e1 : arrSet s.keys s.sz k with
        | ub => simp
        | ok ks =>
          cases e2 : arrSet s.vals s.sz v with
          | ub => simp
          | ok vs =>
            simp only [R.map_ok, R.bind_ok, R.pure_eq]
            exact ⟨by first | rfl | trivial, fun s' o e => by cases e; exact act_set h ho (by omega) e1⟩
  | get k =>
    have hs := scan_map hc h ho
    simp only [step, mapOp, get, hs]
    cases scan eq s k with
    | none => exact ⟨by first | rfl | trivial, fun s' o e => by cases e; exact h⟩
    | some i =>
      simp only [mapSt]
      cases e2 : arrGet s.vals i with
      | ub => simp
      | ok v => exact ⟨by first | rfl | trivial, fun s' o e => by cases e; exact h⟩
  | removeLast =>
    simp only [step, mapOp, removeLast, mapSt]
    by_cases c : s.sz > 0 <;> simp only [c, if_true, if_false]
    · exact ⟨by first | rfl | trivial, fun s' o e => by cases e; exact fun i k hi => h i k (by simp only at hi; omega)⟩
    · exact ⟨by first | rfl | trivial, fun s' o e => by cases e; exact h⟩
  | remove k =>
    have hs := scan_map hc h ho
    simp only [step, mapOp, remove, hs]
    cases scan eq s k with
    | none => exact ⟨by first | rfl | trivial, fun s' o e => by cases e; exact h⟩
    | some i =>
      simp only [mapSt, arrSet_map]
      cases e1 : arrSet s.keys i k0 with
      | ub => simp
      | ok ks =>
        cases e2 : arrSet s.vals i v0 with
        | ub => simp
        | ok vs =>
          simp only [R.map_ok, R.bind_ok, R.pure_eq]
          exact ⟨by first | rfl | trivial, fun s' o e => by cases e; exact act_set h h0 (by omega) e1⟩
  | keyExists k =>
    simp only [step, mapOp, any_map' hc h ho]
    exact ⟨by first | rfl | trivial, fun s' o e => by cases e; exact h⟩
  | size => exact ⟨by first | rfl | trivial, fun s' o e => by cases e; exact h⟩

theorem run_map (hc : Classes eq G cls) {k0 : K} (h0 : G k0) (v0 : V) : ∀ (ops : List (Op K V)) (s : St K V), Act G s → (∀ op ∈ ops, okOp G op) →
    run eqD (cls k0) v0 (mapSt cls s) (ops.map (mapOp cls)) = (fun r => (mapSt cls r.1, r.2)) <$> run eq k0 v0 s ops ∧ ∀ s' o, run eq k0 v0 s ops = .ok (s', o) → Act G s'
  | [], s, h, _ => ⟨rfl, fun s' o e => by cases e; exact h⟩
  | op :: ops, s, h, ho => by
    obtain ⟨h1, h2⟩ := step_map hc h0 v0 h op (ho op (List.mem_cons_self ..))
    simp only [List.map_cons, run, h1]
    cases e : step eq k0 v0 s op with
    | ub => simp
    | ok r =>
      obtain ⟨s1, o1⟩ := r
      obtain ⟨h3, h4⟩ := run_map hc h0 v0 ops s1 (h2 s1 o1 e) (fun p hp => ho p (List.mem_cons_of_mem _ hp))
      simp only [R.map_ok, R.bind_ok, h3]
      cases e2 : run eq k0 v0 s1 ops with
      | ub => simp
      | ok r2 => exact ⟨rfl, fun s' o e' => by cases e'; exact h4 _ _ e2⟩

/-- **C236**: a SeqMap of keys with an `==`, used with keys among which `==` tells whether two are the same key, answers every sequence of calls as a SeqMap of those same keys does, for any contents of its uninitialised arrays. -/
theorem C236_seqmap (hc : Classes eq G cls) {k0 : K} (h0 : G k0) (v0 : V) (keys : List K) (vals : List V) (ops : List (Op K V)) (ho : ∀ op ∈ ops, okOp G op) :
    (·.2) <$> run eq k0 v0 ⟨keys, vals, 0, 0⟩ ops = (·.2) <$> run (fun a b => decide (a = b)) (cls k0) v0 ⟨keys.map cls, vals, 0, 0⟩ (ops.map (mapOp cls)) := by
  have := (run_map hc h0 v0 ops ⟨keys, vals, 0, 0⟩ (fun i k hi => absurd hi (by simp)) ho).1
  simp only [mapSt] at this
  have e : (eqD : Q → Q → Bool) = fun a b => decide (a = b) := rfl
  rw [e] at this
  rw [this]
  cases run eq k0 v0 ⟨keys, vals, 0, 0⟩ ops <;> rfl

theorem scan_id (s : St Q V) (k : Q) : scan (fun a b => decide (a = b)) s k = SeqMap.scan s k := rfl

/-- **C236**: compared for identity it is the SeqMap of C23 to C25. -/
theorem C236_seqmap_identity (s : St Q V) (k : Q) (v : V) (k0 : Q) (v0 : V) :
    insert s k v = SeqMap.insert s k v ∧ overwrite (fun a b => decide (a = b)) s k v = SeqMap.overwrite s k v ∧ get (fun a b => decide (a = b)) s k = SeqMap.get s k ∧
      removeLast s = SeqMap.removeLast s ∧ remove (fun a b => decide (a = b)) k0 v0 s k = SeqMap.remove k0 v0 s k ∧ keyExists (fun a b => decide (a = b)) s k = SeqMap.keyExists s k :=
  ⟨rfl, rfl, rfl, rfl, rfl, rfl⟩

theorem run_overwrites {k0 : Q} {v0 : V} : ∀ (h : List (Q × V)) (s s' : St Q V), SeqMap.runOverwrites s h = .ok s' → ∃ o, run (fun a b => decide (a = b)) k0 v0 s (h.map fun p => .overwrite p.1 p.2) = .ok (s', o)
  | [], s, s', e => by cases e; exact ⟨[], rfl⟩
  | (k, v) :: h, s, s', e => by
    simp only [SeqMap.runOverwrites] at e
    simp only [List.map_cons, run, step, (C236_seqmap_identity s k v k0 v0).2.1]
    cases e1 : SeqMap.overwrite s k v with
    | ub => rw [e1] at e; cases e
    | ok r =>
      rw [e1] at e
      obtain ⟨o, ho⟩ := run_overwrites (k0 := k0) (v0 := v0) h r.1 s' e
      simp only [R.bind_ok, R.pure_eq, ho]
      exact ⟨_, rfl⟩

/-- **C236**: after any history of overwrites, `get`, `key_exists` and `size` agree with the bounded map of C23 in which equal keys are one key. -/
theorem C236_seqmap_overwrite_get (hc : Classes eq G cls) (k0 : K) (v0 : V) (h0 : G k0) (keys : List K) (vals : List V) (hp : 0 < keys.length) (hl : vals.length = keys.length)
    (hist : List (K × V)) (hh : ∀ p ∈ hist, G p.1) :
    ∃ s o, run eq k0 v0 ⟨keys, vals, 0, 0⟩ (hist.map fun p => .overwrite p.1 p.2) = .ok (s, o) ∧
      (∀ k, G k → get eq s k = .ok (SeqMap.Spec.lookup (SeqMap.Spec.run keys.length [] (hist.map fun p => (cls p.1, p.2))) (cls k))) ∧
      (∀ k, G k → (keyExists eq s k = true ↔ SeqMap.Spec.has (SeqMap.Spec.run keys.length [] (hist.map fun p => (cls p.1, p.2))) (cls k))) ∧
      s.sz = (SeqMap.Spec.run keys.length [] (hist.map fun p => (cls p.1, p.2))).length := by
  obtain ⟨t, t1, t2, t3, t4, _⟩ := SeqMap.C23_overwrite_get (keys.map cls) vals (by simpa using hp) (by simpa using hl) (hist.map fun p => (cls p.1, p.2))
  simp only [List.length_map] at t2 t3 t4
  obtain ⟨o, ho⟩ := run_overwrites (k0 := cls k0) (v0 := v0) _ _ _ t1
  obtain ⟨r1, r2⟩ := run_map hc h0 v0 (hist.map fun p => .overwrite p.1 p.2) ⟨keys, vals, 0, 0⟩ (fun i k hi => absurd hi (by simp))
    (fun op hop => by obtain ⟨p, hp, rfl⟩ := List.mem_map.1 hop; exact hh p hp)
  have e : ((hist.map fun p => (.overwrite p.1 p.2 : Op K V)).map (mapOp cls)) = (hist.map fun p => (cls p.1, p.2)).map fun p => .overwrite p.1 p.2 := by simp [mapOp, Function.comp_def]
  rw [e] at r1
  have ed : (eqD : Q → Q → Bool) = fun a b => decide (a = b) := rfl
  rw [ed] at r1
  simp only [SeqMap.init] at ho
  simp only [mapSt] at r1
  rw [ho] at r1
  cases e2 : run eq k0 v0 ⟨keys, vals, 0, 0⟩ (hist.map fun p => .overwrite p.1 p.2) with
  | ub => rw [e2] at r1; cases r1
  | ok r =>
    obtain ⟨s, o'⟩ := r
    rw [e2] at r1
    simp only [R.map_ok, R.ok.injEq, Prod.mk.injEq] at r1
    have ha := r2 s o' e2
    have hm : t = mapSt cls s := r1.1
    subst hm
    refine ⟨s, o', rfl, fun k hk => ?_, fun k hk => ?_, t4⟩
    · have hs := scan_map hc ha hk
      rw [← t2 (cls k)]
      show get eq s k = get eqD (mapSt cls s) (cls k)
      simp only [get, hs]; rfl
    · rw [← t3 (cls k)]
      show keyExists eq s k = true ↔ keyExists eqD (mapSt cls s) (cls k) = true
      rw [any_map' hc ha hk]

end SeqMap.Keys

namespace SequentialMap.Keys
open MapKeys
variable {K Q V : Type}

def mapP (cls : K → Q) (p : K × V) : Q × V := (cls p.1, p.2)

def mapSt (cls : K → Q) (s : St K V) : St Q V := ⟨s.data.map (mapP cls), s.back⟩

def Act (G : K → Prop) (s : St K V) : Prop := ∀ p ∈ s.data.take s.back, G p.1

def eqD [DecidableEq Q] : Q → Q → Bool := fun a b => decide (a = b)

variable {eq : K → K → Bool} {G : K → Prop} {cls : K → Q} [DecidableEq Q]

theorem eqD_cls (hc : Classes eq G cls) {a b : K} (ha : G a) (hb : G b) : eqD (cls a) (cls b) = eq a b := by
  rw [Bool.eq_iff_iff]; simpa [eqD] using (hc a b ha hb).symm

theorem search_map (hc : Classes eq G cls) {k : K} (hk : G k) : ∀ (l : List (K × V)) (i : Nat), (∀ p ∈ l, G p.1) → search eqD (cls k) (l.map (mapP cls)) i = search eq k l i
  | [], _, _ => rfl
  | p :: l, i, h => by
    simp only [List.map_cons, search, mapP, eqD_cls hc (h p (List.mem_cons_self ..)) hk]
    rw [← search_map hc hk l (i + 1) (fun q hq => h q (List.mem_cons_of_mem _ hq))]

theorem toList_map (s : St K V) : FixedVector.toList (mapSt cls s) = (FixedVector.toList s).map (mapP cls) := by simp [FixedVector.toList, mapSt, List.map_take]

theorem search_lt (k : K) : ∀ (l : List (K × V)) (i j : Nat), search eq k l i = some j → i ≤ j ∧ j < i + l.length
  | [], _, _, h => by cases h
  | p :: l, i, j, h => by
    simp only [search] at h
    split at h
    · cases h; simp
    · have := search_lt k l (i + 1) j h
      simp; omega

theorem mem_take_set {α : Type} {l : List α} {i n : Nat} {a x : α} (h : x ∈ (l.set i a).take n) : x = a ∨ x ∈ l.take n := by
  obtain ⟨j, hj⟩ := List.getElem?_of_mem h
  rw [List.getElem?_take] at hj
  split at hj
  · next c =>
    rw [List.getElem?_set] at hj
    split at hj
    · split at hj
      · exact .inl (by simpa using hj.symm)
      · cases hj
    · exact .inr (List.mem_of_getElem? (i := j) (by rw [List.getElem?_take, if_pos c]; exact hj))
  · cases hj

theorem index_map (hc : Classes eq G cls) {s : St K V} (h : Act G s) {k : K} (hk : G k) :
    index eqD (mapSt cls s) (cls k) = (fun r => (mapSt cls r.1, r.2)) <$> index eq s k ∧ ∀ s' i, index eq s k = .ok (s', i) → Act G s' := by
  have hs := search_map hc hk (FixedVector.toList s) 0 h
  rw [← toList_map] at hs
  simp only [index, hs]
  cases search eq k (FixedVector.toList s) 0 with
  | some i => exact ⟨rfl, fun s' j e => by cases e; exact h⟩
  | none =>
    simp only [FixedVector.pushBackForOverwrite, mapSt, List.length_map]
    by_cases c : s.back ≥ s.data.length
    · simp only [if_pos c, FixedVector.maxSize, List.length_map, if_true]
      by_cases c0 : s.data.length = 0
      · simp [c0]
      · simp only [if_neg c0, R.pure_eq, R.bind_ok, arrGet_map]
        cases e1 : arrGet s.data (s.data.length - 1) with
        | ub => simp
        | ok old =>
          simp only [R.map_ok, R.bind_ok, mapP]
          have := arrSet_map (mapP cls) s.data (s.data.length - 1) (k, old.2)
          simp only [mapP] at this
          simp only [this]
          cases e2 : arrSet s.data (s.data.length - 1) (k, old.2) with
          | ub => simp
          | ok d =>
            refine ⟨rfl, fun s' j e => ?_⟩
            cases e
            unfold arrSet at e2
            split at e2
            · cases e2
              intro p hp
              rcases mem_take_set hp with rfl | hp
              · exact hk
              · exact h p hp
            · cases e2
    · have hb : ¬ s.back = s.data.length := by omega
      simp only [if_neg c, FixedVector.maxSize, List.length_map, if_neg hb, R.pure_eq, R.bind_ok, arrGet_map]
      cases e1 : arrGet s.data s.back with
      | ub => simp
      | ok old =>
        simp only [R.map_ok, R.bind_ok, mapP]
        have := arrSet_map (mapP cls) s.data s.back (k, old.2)
        simp only [mapP] at this
        simp only [this]
        cases e2 : arrSet s.data s.back (k, old.2) with
        | ub => simp
        | ok d =>
          refine ⟨rfl, fun s' j e => ?_⟩
          cases e
          unfold arrSet at e2
          split at e2
          · next hl =>
            cases e2
            intro p hp
            simp only at hp
            rw [List.take_add_one] at hp
            rcases List.mem_append.1 hp with hp | hp
            · rcases mem_take_set hp with rfl | hp
              · exact hk
              · exact h p hp
            · rw [List.getElem?_set_self hl] at hp
              simp at hp
              rw [hp]; exact hk
          · cases e2

theorem moveRange_map {α β : Type} (f : α → β) (l : List α) (a b d : Nat) : FixedVector.moveRange (l.map f) a b d = List.map f <$> FixedVector.moveRange l a b d := by
  simp only [FixedVector.moveRange, List.length_map]
  split
  · simp
  · rfl

theorem find_map (hc : Classes eq G cls) {s : St K V} (h : Act G s) {k : K} (hk : G k) : find eqD (mapSt cls s) (cls k) = find eq s k := by
  have hs := search_map hc hk (FixedVector.toList s) 0 h
  rw [← toList_map] at hs
  simp only [find, hs]; rfl

theorem erase_map (hc : Classes eq G cls) {s : St K V} (h : Act G s) {k : K} (hk : G k) :
    erase eqD (mapSt cls s) (cls k) = (fun r => (mapSt cls r.1, r.2)) <$> erase eq s k ∧ ∀ s' i, erase eq s k = .ok (s', i) → Act G s' := by
  have hf := find_map hc h hk
  have hb : (mapSt cls s).back = s.back := rfl
  simp only [erase, hf, hb]
  by_cases c : find eq s k ≠ s.back
  · simp only [if_pos c, FixedVector.eraseRange, hb]
    by_cases c0 : s.back = 0 ∨ find eq s k + 1 ≤ find eq s k
    · simp only [if_pos c0]
      exact ⟨rfl, fun s' i e => by cases e; exact h⟩
    · simp only [if_neg c0, mapSt, moveRange_map]
      cases e1 : FixedVector.moveRange s.data (find eq s k + 1) s.back (find eq s k) with
      | ub => simp
      | ok d =>
        refine ⟨rfl, fun s' i e => ?_⟩
        cases e
        unfold FixedVector.moveRange at e1
        split at e1
        · next hl =>
          cases e1
          intro p hp
          simp only at hp
          have hm : (find eq s k) + (s.back - (find eq s k + 1)) = s.back - 1 := by omega
          rw [show s.back - (find eq s k + 1 - find eq s k) = s.back - 1 by omega, List.take_append_of_le_length (by simp; omega)] at hp
          have hp := List.mem_of_mem_take hp
          rcases List.mem_append.1 hp with hp | hp
          · exact h p ((List.take_subset_take_left s.data (show find eq s k ≤ s.back by omega)) hp)
          · rw [List.take_drop] at hp
            have := List.mem_of_mem_drop hp
            rw [show find eq s k + 1 + (s.back - (find eq s k + 1)) = s.back by omega] at this
            exact h p this
        · cases e1
  · simp only [if_neg c]
    exact ⟨rfl, fun s' i e => by cases e; exact h⟩

theorem step_map (hc : Classes eq G cls) {s : St K V} (h : Act G s) (op : Op K V) (ho : okOp G op) :
    step eqD (mapSt cls s) (mapOp cls op) = (fun r => (mapSt cls r.1, r.2.map (mapOut cls))) <$> step eq s op ∧ ∀ s' o, step eq s op = .ok (s', o) → Act G s' := by
  cases op with
  | assign k v =>
    obtain ⟨i1, i2⟩ := index_map hc h ho
    simp only [step, mapOp, assign, i1]
    cases e : index eq s k with
    | ub => simp
    | ok r =>
      obtain ⟨s1, i⟩ := r
      have ha := i2 s1 i e
      simp only [R.map_ok, R.bind_ok, mapSt, arrGet_map]
      cases e1 : arrGet s1.data i with
      | ub => simp
      | ok old =>
        simp only [R.map_ok, R.bind_ok, mapP]
        have := arrSet_map (mapP cls) s1.data i (old.1, v)
        simp only [mapP] at this
        simp only [this]
        cases e2 : arrSet s1.data i (old.1, v) with
        | ub => simp
        | ok d =>
          refine ⟨rfl, fun s' j e' => ?_⟩
          cases e'
          unfold arrSet at e2
          split at e2
          · cases e2
            intro p hp
            obtain ⟨j, hj⟩ := List.getElem?_of_mem hp
            rw [List.getElem?_take] at hj
            split at hj
            · next cj =>
              simp only at cj
              rw [List.getElem?_set] at hj
              split at hj
              · next hij =>
                cases hj
                subst hij
                exact ha old (List.mem_of_getElem? (i := i) (by rw [List.getElem?_take, if_pos cj]; exact arrGet_eq_ok.1 e1))
              · exact ha p (List.mem_of_getElem? (i := j) (by rw [List.getElem?_take, if_pos cj]; exact hj))
            · cases hj
          · cases e2
  | read k =>
    obtain ⟨i1, i2⟩ := index_map hc h ho
    simp only [step, mapOp, read, i1]
    cases e : index eq s k with
    | ub => simp
    | ok r =>
      obtain ⟨s1, i⟩ := r
      simp only [R.map_ok, R.bind_ok, mapSt, arrGet_map]
      cases e1 : arrGet s1.data i with
      | ub => simp
      | ok old => exact ⟨rfl, fun s' j e' => by cases e'; exact i2 s1 i e⟩
  | readConst k =>
    have hs := search_map hc ho (FixedVector.toList s) 0 h
    rw [← toList_map] at hs
    simp only [step, mapOp, readConst, hs]
    cases search eq k (FixedVector.toList s) 0 with
    | none => simp
    | some i =>
      simp only [mapSt, arrGet_map]
      cases e1 : arrGet s.data i with
      | ub => simp
      | ok old => exact ⟨rfl, fun s' j e' => by cases e'; exact h⟩
  | contains k =>
    have : contains eqD (mapSt cls s) (cls k) = contains eq s k := by
      simp only [contains, toList_map, List.any_map]
      rw [Bool.eq_iff_iff, List.any_eq_true, List.any_eq_true]
      exact exists_congr fun x => and_congr_right fun hx => by simp only [Function.comp, mapP]; rw [eqD_cls hc (h x hx) ho]
    simp only [step, mapOp, this]
    exact ⟨rfl, fun s' j e' => by cases e'; exact h⟩
  | find k =>
    simp only [step, mapOp, find_map hc h ho]
    exact ⟨rfl, fun s' j e' => by cases e'; exact h⟩
  | erase k =>
    obtain ⟨i1, i2⟩ := erase_map hc h ho
    simp only [step, mapOp, i1]
    cases e : erase eq s k with
    | ub => simp
    | ok r => exact ⟨rfl, fun s' j e' => by cases e'; exact i2 _ _ e⟩
  | clear => exact ⟨rfl, fun s' j e' => by cases e'; simp [Act, FixedVector.clear]⟩
  | size => exact ⟨rfl, fun s' j e' => by cases e'; exact h⟩
  | empty => exact ⟨rfl, fun s' j e' => by cases e'; exact h⟩
  | isFull => exact ⟨by simp [step, mapOp, mapOut, FixedVector.size, FixedVector.maxSize, mapSt]; rfl, fun s' j e' => by cases e'; exact h⟩
  | iterate => exact ⟨by simp only [step, mapOp, toList_map]; rfl, fun s' j e' => by cases e'; exact h⟩

theorem run_map (hc : Classes eq G cls) : ∀ (ops : List (Op K V)) (s : St K V), Act G s → (∀ op ∈ ops, okOp G op) →
    run eqD (mapSt cls s) (ops.map (mapOp cls)) = (fun r => (mapSt cls r.1, r.2.map (mapOut cls))) <$> run eq s ops
  | [], s, _, _ => rfl
  | op :: ops, s, h, ho => by
    obtain ⟨h1, h2⟩ := step_map hc h op (ho op (List.mem_cons_self ..))
    simp only [List.map_cons, run, h1]
    cases e : step eq s op with
    | ub => rfl
    | ok r =>
      obtain ⟨s1, o1⟩ := r
      simp only [R.map_ok, R.bind_ok, run_map hc ops s1 (h2 s1 o1 e) (fun p hp => ho p (List.mem_cons_of_mem _ hp))]
      cases run eq s1 ops with
      | ub => rfl
      | ok r2 => simp

/-- Compared for identity it is the SequentialMap of C26. -/
theorem search_id (k : Q) : ∀ (l : List (Q × V)) (i : Nat), search eqD k l i = SequentialMap.search k l i
  | [], _ => rfl
  | p :: l, i => by simp [search, SequentialMap.search, eqD, ← search_id k l (i + 1)]

theorem index_id (s : St Q V) (k : Q) : index eqD s k = SequentialMap.index s k := by
  unfold index SequentialMap.index
  rw [search_id]
  cases SequentialMap.search k (FixedVector.toList s) 0 <;> rfl

theorem find_id (s : St Q V) (k : Q) : find eqD s k = SequentialMap.find s k := by simp only [find, SequentialMap.find, search_id]

theorem step_id (s : St Q V) (op : Op Q V) : step eqD s op = SequentialMap.step s op := by
  cases op <;> simp only [step, SequentialMap.step, assign, SequentialMap.assign, read, SequentialMap.read, readConst, SequentialMap.readConst, erase, SequentialMap.erase, index_id, find_id, search_id] <;> rfl

theorem run_id (ops : List (Op Q V)) : ∀ s : St Q V, run eqD s ops = SequentialMap.run s ops := by
  induction ops with
  | nil => intro s; rfl
  | cons op ops ih => intro s; simp only [run, SequentialMap.run, step_id, ih]

/-- **C236**: a SequentialMap of keys with an `==`, used with keys among which `==` tells whether two are the same key: whenever the calls are within the contract for a map in which equal keys are one key (C26), they are defined and
give that map's answers. -/
theorem C236_sequential_map (hc : Classes eq G cls) (arr : List (K × V)) (ops : List (Op K V)) (ho : ∀ op ∈ ops, okOp G op) (m : SequentialMap.Spec.Map Q V) (os : List (Out Q V))
    (h : SequentialMap.Spec.run arr.length ⟨[], fun _ => none⟩ (ops.map (mapOp cls)) = some (m, os)) :
    ∃ s o, run eq (⟨arr, 0⟩ : St K V) ops = .ok (s, o) ∧ o.map (mapOut cls) = os := by
  obtain ⟨t, t1, _⟩ := SequentialMap.C26_is_map (arr.map (mapP cls)) (ops.map (mapOp cls)) m os (by simpa using h)
  have r := run_map hc ops ⟨arr, 0⟩ (by simp [Act]) ho
  rw [run_id] at r
  simp only [mapSt] at r
  rw [t1] at r
  cases e : run eq (⟨arr, 0⟩ : St K V) ops with
  | ub => rw [e] at r; cases r
  | ok p =>
    rw [e] at r
    simp only [R.map_ok, R.ok.injEq, Prod.mk.injEq] at r
    exact ⟨p.1, p.2, rfl, r.2.symm⟩

end SequentialMap.Keys

namespace MapKeys

/-- **C236**: among floats that are not NaN `==` tells whether two have the same value. -/
theorem C236_float_classes : Classes XFlt.eq (· ≠ .nan) id := by
  intro a b ha hb
  cases a <;> cases b <;> simp_all [XFlt.eq]

/-- The `==` of StaticString on arrays that hold a string. -/
def strEq (a b : List Byte) : Bool := match StaticString.equal a b with
  | .ok r => r
  | .ub => false

/-- The string an array holds. -/
def str (a : List Byte) : List Byte := match StaticString.cstr a with
  | .ok s => s
  | .ub => []

/-- **C236**: the `==` of StaticString tells whether two hold the same string, whatever follows the terminators. -/
theorem C236_string_classes : Classes strEq (fun a => ∃ s, StaticString.Holds a s) str := by
  rintro a b ⟨s, hs⟩ ⟨t, ht⟩
  have h := StaticString.C22_equal_iff a b s t hs ht
  have h1 : StaticString.cstr a = .ok s := hs
  have h2 : StaticString.cstr b = .ok t := ht
  simp [strEq, str, h, h1, h2]

end MapKeys

namespace SeqMap.Keys
variable {K V : Type}

/-- **C236 (violated)**: a key that is unequal to itself, such as NaN, is accepted by `insert` and by `overwrite`, but never found, whatever else is in the map: not by `get`, `key_exists` or `remove`. -/
theorem C236_seqmap_nan_violated (eq : K → K → Bool) (k : K) (hk : ∀ a, eq a k = false) (k0 : K) (v0 : V) (s : St K V) (hl : s.vals.length = s.keys.length) (hs : s.sz < s.keys.length) (v : V) :
    (∃ s', insert s k v = .ok (s', true) ∧ get eq s' k = .ok none ∧ keyExists eq s' k = false ∧ remove eq k0 v0 s' k = .ok (s', false)) ∧
    ∃ s' i, overwrite eq s k v = .ok (s', i) ∧ s'.sz = s.sz + 1 ∧ get eq s' k = .ok none := by
  have sc : ∀ t : St K V, scan eq t k = none := fun t => List.findIdx?_eq_none_iff.2 fun x _ => hk x
  have ex : ∀ t : St K V, keyExists eq t k = false := fun t => by simp [keyExists, hk]
  refine ⟨⟨_, by simp only [insert, if_neg (show ¬ s.sz ≥ s.keys.length by omega), arrSet_lt hs, arrSet_lt (show s.sz < s.vals.length by omega)]; rfl, by simp [get, sc], ex _, by simp [remove, sc]⟩, ?_⟩
  exact ⟨_, _, by simp only [overwrite, sc, if_neg (show ¬ s.sz ≥ s.keys.length by omega), arrSet_lt hs, arrSet_lt (show s.sz < s.vals.length by omega)]; rfl, rfl, by simp [get, sc]⟩

example := C236_seqmap_nan_violated XFlt.eq .nan (fun a => by cases a <;> rfl) (.fin 0) (0 : Nat) ⟨[.fin 1, .nan], [10, 0], 1, 0⟩ rfl (by decide) 7

/-- A string map: two arrays that hold the same string are one key. -/
example : ∃ s o, run MapKeys.strEq [0, 0, 0] 0 ⟨[[1, 1, 1], [2, 2, 2]], [0, 0], 0, 0⟩ ([([65, 0, 7], 1), ([65, 0, 9], 2)].map fun p => .overwrite p.1 p.2) = .ok (s, o) ∧
    get MapKeys.strEq s [65, 0, 0] = .ok (some 2) ∧ s.sz = 1 := by
  have hh : ∀ a ∈ [[65, 0, 7], [65, 0, 9], [0, 0, 0], [65, 0, 0]], ∃ s, StaticString.Holds a s := by
    intro a ha
    simp only [List.mem_cons, List.not_mem_nil, or_false] at ha
    rcases ha with rfl | rfl | rfl | rfl
    exacts [⟨[65], rfl⟩, ⟨[65], rfl⟩, ⟨[], rfl⟩, ⟨[65], rfl⟩]
  obtain ⟨s, o, h1, h2, _, h3⟩ := C236_seqmap_overwrite_get (V := Nat) MapKeys.C236_string_classes [0, 0, 0] 0 (hh _ (by simp)) [[1, 1, 1], [2, 2, 2]] [0, 0] (by decide) rfl [([65, 0, 7], 1), ([65, 0, 9], 2)]
    (fun p hp => by simp only [List.mem_cons, List.not_mem_nil, or_false] at hp; rcases hp with rfl | rfl <;> exact hh _ (by simp))
  exact ⟨s, o, h1, by rw [h2 _ (hh _ (by simp))]; decide, by rw [h3]; decide⟩

end SeqMap.Keys

namespace SequentialMap.Keys
variable {K V : Type}

/-- **C236 (violated)**: every `m[k] = v` with a key that is unequal to itself, such as NaN, adds an entry, and none of them is found. -/
theorem C236_sequential_map_nan_violated (eq : K → K → Bool) (k : K) (hk : ∀ a, eq a k = false) (s : St K V) (hs : s.back < s.data.length) (v : V) :
    ∃ s', assign eq s k v = .ok s' ∧ FixedVector.toList s' = FixedVector.toList s ++ [(k, v)] ∧ contains eq s' k = false ∧ find eq s' k = s'.back ∧ erase eq s' k = .ok (s', 0) ∧ readConst eq s' k = .ub := by
  have sc : ∀ (l : List (K × V)) (i : Nat), search eq k l i = none := by
    intro l
    induction l with
    | nil => intro i; rfl
    | cons p l ih => intro i; simp [search, hk, ih]
  have hne : ¬ s.back = s.data.length := by omega
  have hg : ∃ old, s.data[s.back]? = some old := ⟨_, List.getElem?_eq_getElem hs⟩
  obtain ⟨old, hold⟩ := hg
  have hg2 : (s.data.set s.back (k, old.2))[s.back]? = some (k, old.2) := List.getElem?_set_self hs
  have ha : assign eq s k v = .ok ⟨s.data.set s.back (k, v), s.back + 1⟩ := by
    simp only [assign, index, sc, FixedVector.pushBackForOverwrite, if_neg (show ¬ s.back ≥ s.data.length by omega), FixedVector.maxSize, if_neg hne, R.pure_eq, R.bind_ok, arrGet_some hold, arrSet_lt hs, arrGet_some hg2]
    rw [arrSet_lt (by simpa using hs)]
    simp
  refine ⟨_, ha, ?_, by simp [contains, hk], by simp [find, sc], by simp [erase, find, sc], by simp [readConst, sc]⟩
  simp only [FixedVector.toList]
  rw [List.take_add_one, List.getElem?_set_self hs, List.take_set_of_le (Nat.le_refl _)]
  rfl

example := C236_sequential_map_nan_violated XFlt.eq .nan (fun a => by cases a <;> rfl) (⟨[(.fin 1, 10), (.nan, 0)], 1⟩ : St XFlt.XF Nat) (by decide) 7

/-- Float keys that are not NaN: the map of C26. -/
example : ∃ s o, run XFlt.eq (⟨[(.nan, 0), (.nan, 0)], 0⟩ : St XFlt.XF Nat) [.assign (.fin 1) 10, .assign (.inf true) 20, .assign (.fin 1) 30, .read (.fin 1), .size] = .ok (s, o) ∧ o.map (mapOut id) = [.val 30, .num 2] :=
  C236_sequential_map MapKeys.C236_float_classes _ [.assign (.fin 1) 10, .assign (.inf true) 20, .assign (.fin 1) 30, .read (.fin 1), .size] (by simp [okOp]) _ _ rfl

end SequentialMap.Keys
