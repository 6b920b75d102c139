import Verif.Spec.Pool
/-! # Properties C37, C38, C39: Pool and ThreadSafePool -/
namespace Pool
variable {T : Type}

/-- Entry `i` is handed out. -/
def live (l : List (Entry T)) (i : Nat) : Prop := ∃ d, l[i]? = some ⟨d, true⟩

theorem createLoop_spec (fresh : T → T) (l : List (Entry T)) : ∀ k,
    ((createLoop fresh l k).2 = none ∧ (createLoop fresh l k).1 = l ∧ ∀ i : Nat, i < l.length → live l i) ∨
    (∃ i d, (createLoop fresh l k).2 = some (k + i) ∧ l[i]? = some ⟨d, false⟩ ∧
      (createLoop fresh l k).1 = l.set i ⟨fresh d, true⟩ ∧ ∀ j : Nat, j < i → live l j) := by
  induction l with
  | nil => intro k; left; simp [createLoop]
  | cons en l ih =>
    intro k
    unfold createLoop
    obtain ⟨d, u⟩ := en
    cases u with
    | false => right; exact ⟨0, d, by simp, by simp, by simp, by intro j hj; omega⟩
    | true =>
      have hlive : ∀ j : Nat, live l j → live (⟨d, true⟩ :: l) (j + 1) := by
        rintro j ⟨x, hx⟩; exact ⟨x, by simpa using hx⟩
      rcases ih (k + 1) with ⟨h1, h2, h3⟩ | ⟨i, x, h1, h2, h3, h4⟩
      · left
        refine ⟨by simpa using h1, by simp [h2], ?_⟩
        intro i hi
        cases i with
        | zero => exact ⟨d, by simp⟩
        | succ i => exact hlive i (h3 i (by simpa using hi))
      · right
        refine ⟨i + 1, x, by simp [h1]; omega, by simpa using h2, by simp [h3], ?_⟩
        intro j hj
        cases j with
        | zero => exact ⟨d, by simp⟩
        | succ j => exact hlive j (h4 j (by omega))

theorem destroyLoop_spec (item : Nat) (l : List (Entry T)) : ∀ k, k ≤ item →
    (∃ d, l[item - k]? = some ⟨d, true⟩ ∧ destroyLoop item l k = (l.set (item - k) ⟨d, false⟩, true)) ∨
    (¬ live l (item - k) ∧ destroyLoop item l k = (l, false)) := by
  induction l with
  | nil => intro k _; right; exact ⟨by simp [live], rfl⟩
  | cons en l ih =>
    intro k hk
    unfold destroyLoop
    obtain ⟨d, u⟩ := en
    by_cases he : item = k
    · subst he
      have hge : ∀ m (l : List (Entry T)), item < m → destroyLoop item l m = (l, false) := by
        intro m l
        induction l generalizing m with
        | nil => intro _; rfl
        | cons e l ih2 =>
          intro hm
          unfold destroyLoop
          have : (item == m) = false := by simp; omega
          simp only [this, Bool.and_false, Bool.false_eq_true, if_false]
          rw [ih2 (m + 1) (by omega)]
      cases u with
      | true => left; exact ⟨d, by simp, by simp⟩
      | false =>
        right
        refine ⟨by simp [live], ?_⟩
        simp [hge (item + 1) l (by omega)]
    · have hb : (item == k) = false := by simpa using he
      simp only [hb, Bool.and_false, Bool.false_eq_true, if_false]
      have hs : item - k = (item - (k + 1)) + 1 := by omega
      rcases ih (k + 1) (by omega) with ⟨x, h1, h2⟩ | ⟨h1, h2⟩
      · left; exact ⟨x, by rw [hs]; simpa using h1, by rw [h2, hs]; simp⟩
      · right; refine ⟨?_, by rw [h2]⟩
        rw [hs]; rintro ⟨x, hx⟩; exact h1 ⟨x, by simpa using hx⟩

/-- **C37**: in every state of the pool, `create()` returns null exactly if all entries are live, changing nothing; otherwise
it returns an entry that was not live, which is now live and default-valued, and every other entry keeps value and liveness. -/
theorem C37_create (dflt : T) (l : List (Entry T)) :
    ((create dflt l).2 = none ↔ ∀ i : Nat, i < l.length → live l i) ∧
    ((create dflt l).2 = none → (create dflt l).1 = l) ∧
    ∀ p, (create dflt l).2 = some p → p < l.length ∧ ¬ live l p ∧ (create dflt l).1[p]? = some ⟨dflt, true⟩ ∧
      (create dflt l).1.length = l.length ∧ ∀ i : Nat, i ≠ p → (create dflt l).1[i]? = l[i]? := by
  unfold create
  rcases createLoop_spec (fun _ => dflt) l 0 with ⟨h1, h2, h3⟩ | ⟨i, d, h1, h2, h3, h4⟩
  · refine ⟨⟨fun _ => h3, fun _ => h1⟩, fun _ => h2, ?_⟩
    intro p hp; rw [h1] at hp; cases hp
  · have hi := (List.getElem?_eq_some_iff.mp h2).1
    have hnl : ¬ live l i := by rintro ⟨x, hx⟩; rw [h2] at hx; simp at hx
    rw [Nat.zero_add] at h1
    refine ⟨⟨fun h => (by rw [h1] at h; cases h), fun h => absurd (h i hi) hnl⟩, fun h => (by rw [h1] at h; cases h), ?_⟩
    intro p hp
    rw [h1] at hp
    cases hp
    rw [h3]
    exact ⟨hi, hnl, List.getElem?_set_self hi, by simp, fun j hj => List.getElem?_set_ne (Ne.symm hj)⟩

/-- **C37**: `create_for_overwrite()` does the same, except that the entry keeps its old value. -/
theorem C37_create_for_overwrite (l : List (Entry T)) :
    ((createForOverwrite l).2 = none ↔ ∀ i : Nat, i < l.length → live l i) ∧
    ((createForOverwrite l).2 = none → (createForOverwrite l).1 = l) ∧
    ∀ p, (createForOverwrite l).2 = some p → p < l.length ∧ ¬ live l p ∧ live (createForOverwrite l).1 p ∧
      (createForOverwrite l).1.map (·.data) = l.map (·.data) ∧ ∀ i : Nat, i ≠ p → (createForOverwrite l).1[i]? = l[i]? := by
  unfold createForOverwrite
  rcases createLoop_spec id l 0 with ⟨h1, h2, h3⟩ | ⟨i, d, h1, h2, h3, h4⟩
  · refine ⟨⟨fun _ => h3, fun _ => h1⟩, fun _ => h2, ?_⟩
    intro p hp; rw [h1] at hp; cases hp
  · have hi := (List.getElem?_eq_some_iff.mp h2).1
    have hnl : ¬ live l i := by rintro ⟨x, hx⟩; rw [h2] at hx; simp at hx
    rw [Nat.zero_add] at h1
    refine ⟨⟨fun h => (by rw [h1] at h; cases h), fun h => absurd (h i hi) hnl⟩, fun h => (by rw [h1] at h; cases h), ?_⟩
    intro p hp
    rw [h1] at hp
    cases hp
    rw [h3]
    refine ⟨hi, hnl, ⟨d, List.getElem?_set_self hi⟩, ?_, fun j hj => List.getElem?_set_ne (Ne.symm hj)⟩
    apply List.ext_getElem?
    intro j
    by_cases hj : i = j
    · subst hj; rw [List.getElem?_map, List.getElem?_map, List.getElem?_set_self hi, h2]; rfl
    · rw [List.getElem?_map, List.getElem?_map, List.getElem?_set_ne hj]

/-- **C37**: `destroy(p)` returns true iff `p` is live; then `p` is free and everything else (and `p`'s value) unchanged;
otherwise nothing changes. -/
theorem C37_destroy (l : List (Entry T)) (p : Nat) :
    ((destroy l p).2 = true ↔ live l p) ∧ ((destroy l p).2 = false → (destroy l p).1 = l) ∧
    ((destroy l p).2 = true → ¬ live (destroy l p).1 p ∧ (destroy l p).1.length = l.length ∧
      ∀ i : Nat, i ≠ p → (destroy l p).1[i]? = l[i]?) := by
  unfold destroy
  rcases destroyLoop_spec p l 0 (Nat.zero_le _) with ⟨d, h1, h2⟩ | ⟨h1, h2⟩
  · rw [Nat.sub_zero] at h1 h2
    have hi := (List.getElem?_eq_some_iff.mp h1).1
    rw [h2]
    refine ⟨⟨fun _ => ⟨d, h1⟩, fun _ => rfl⟩, by simp, fun _ => ⟨?_, by simp, fun i hi => List.getElem?_set_ne (Ne.symm hi)⟩⟩
    rintro ⟨x, hx⟩
    rw [List.getElem?_set_self hi] at hx
    simp at hx
  · rw [Nat.sub_zero] at h1
    rw [h2]
    exact ⟨⟨by simp, fun h => absurd h h1⟩, fun _ => rfl, by simp⟩

/-- **C37**: in a new pool nothing is live. -/
theorem C37_init (n : Nat) (dflt : T) (i : Nat) : ¬ live (init n dflt) i := by
  rintro ⟨d, h⟩
  simp [init, List.getElem?_replicate] at h

/-- the second entry is free: create takes it, destroy gives back the first -/
example : create 0 [⟨5, true⟩, ⟨6, false⟩, ⟨7, true⟩] = ([⟨5, true⟩, ⟨0, true⟩, ⟨7, true⟩], some 1) ∧
    destroy [⟨5, true⟩, ⟨6, false⟩, ⟨7, true⟩] 0 = ([⟨5, false⟩, ⟨6, false⟩, ⟨7, true⟩], true) ∧
    destroy [⟨5, true⟩, ⟨6, false⟩] 1 = ([⟨5, true⟩, ⟨6, false⟩], false) ∧
    create 0 [⟨5, true⟩] = ([⟨5, true⟩], none) := by decide

end Pool

namespace TsPool

/-- An entry's flag is set exactly while somebody owns it, and there is at most one owner. -/
def Inv (c : Cfg) (own : Nat → List Nat) : Prop :=
  ∀ i : Nat, ((own i = [] ∧ c.flags[i]? ≠ some true) ∨ (∃ t, own i = [t]) ∧ c.flags[i]? = some true)

theorem Inv.step {c c' : Cfg} {own : Nat → List Nat} {t : Nat} {a : Act} {es : List Event} (h : Inv c own)
    (hd : ∀ i, a = .destroy i → t ∈ own i) (hs : step c t a = some (c', es)) :
    Inv c' (fun i => Spec.owners i es (own i)) ∧ c'.flags.length = c.flags.length ∧
    (∀ t' i, .created t' i ∈ es → i < c.flags.length ∧ own i = []) ∧
    (∀ t' i b, .destroyed t' i b ∈ es → b = true) ∧
    (∀ t' i b, .used t' i b ∈ es → (b = true ↔ own i ≠ [])) := by
  cases a with
  | startCreate =>
    simp only [TsPool.step] at hs
    split at hs
    · cases hs; exact ⟨h, rfl, by simp, by simp, by simp⟩
    · cases hs
  | cas =>
    simp only [TsPool.step] at hs
    split at hs
    · next i hi =>
      split at hs
      · next hf =>
        cases hs
        have hlt := (List.getElem?_eq_some_iff.mp hf).1
        have hown : own i = [] := by
          rcases h i with h1 | h1
          · exact h1.1
          · rw [hf] at h1; simp at h1
        refine ⟨?_, by simp, ?_, by simp, by simp⟩
        · intro j
          by_cases hj : i = j
          · subst hj
            right
            exact ⟨⟨t, by simp [Spec.owners, hown]⟩, List.getElem?_set_self hlt⟩
          · simp only [Spec.owners, if_neg hj, List.getElem?_set_ne hj]
            exact h j
        · intro t' j hm
          simp only [List.mem_singleton, Event.created.injEq] at hm
          obtain ⟨rfl, rfl⟩ := hm
          exact ⟨hlt, hown⟩
      · cases hs; exact ⟨h, rfl, by simp, by simp, by simp⟩
      · cases hs
    · cases hs
  | endCreate =>
    simp only [TsPool.step] at hs
    split at hs
    · split at hs
      · cases hs
      · cases hs; exact ⟨h, rfl, by simp, by simp, by simp⟩
    · cases hs
  | destroy idx =>
    have hown := hd idx rfl
    obtain ⟨⟨t0, h1⟩, h2⟩ : (∃ t, own idx = [t]) ∧ c.flags[idx]? = some true := by
      rcases h idx with h1 | h1
      · rw [h1.1] at hown; cases hown
      · exact h1
    have hlt := (List.getElem?_eq_some_iff.mp h2).1
    simp only [TsPool.step, if_pos hlt, if_pos h2] at hs
    split at hs
    · cases hs
      refine ⟨?_, by simp, by simp, by simp, by simp⟩
      intro j
      rw [h1, List.mem_singleton] at hown
      subst hown
      by_cases hj : idx = j
      · subst hj
        left
        exact ⟨by simp [Spec.owners, h1], by rw [List.getElem?_set_self hlt]; simp⟩
      · simp only [Spec.owners, if_neg hj, List.getElem?_set_ne hj]
        exact h j
    · cases hs
  | isUsed idx =>
    simp only [TsPool.step] at hs
    split at hs
    · split at hs
      · next hge =>
        cases hs
        refine ⟨h, rfl, by simp, by simp, ?_⟩
        intro t' i b hm
        simp only [List.mem_singleton, Event.used.injEq] at hm
        obtain ⟨rfl, rfl, rfl⟩ := hm
        rcases h i with h1 | h1
        · simp [h1.1]
        · have := (List.getElem?_eq_some_iff.mp h1.2).1; omega
      · cases hs
        refine ⟨h, rfl, by simp, by simp, ?_⟩
        intro t' i b hm
        simp only [List.mem_singleton, Event.used.injEq] at hm
        obtain ⟨rfl, rfl, rfl⟩ := hm
        rcases h i with ⟨h1, h2⟩ | ⟨⟨t0, h1⟩, h2⟩
        · rw [h1]
          cases hc : c.flags[i]? with
          | none => simp
          | some b => cases b with
            | false => simp
            | true => exact absurd hc h2
        · simp [h1, h2]
    · cases hs

theorem owners_append (i : Nat) (b : List Event) : ∀ (a : List Event) (l : List Nat),
    Spec.owners i (a ++ b) l = Spec.owners i b (Spec.owners i a l) := by
  intro a
  induction a with
  | nil => intro l; rfl
  | cons x a ih =>
    intro l
    cases x with
    | destroyed t j ok => cases ok <;> simp [Spec.owners, ih]
    | _ => simp [Spec.owners, ih]

theorem Inv.run (sched : List (Nat × Act)) : ∀ {c c' : Cfg} {own : Nat → List Nat} {es : List Event}, Inv c own →
    Spec.disciplined (Spec.trace c sched) own → run c sched = some (c', es) →
    Inv c' (fun i => Spec.owners i es (own i)) ∧ c'.flags.length = c.flags.length ∧
    (∀ pre t i post, es = pre ++ .created t i :: post → i < c.flags.length ∧ Spec.owners i pre (own i) = []) ∧
    (∀ pre t i b post, es = pre ++ .destroyed t i b :: post → b = true) ∧
    (∀ pre t i b post, es = pre ++ .used t i b :: post → (b = true ↔ Spec.owners i pre (own i) ≠ [])) := by
  induction sched with
  | nil =>
    intro c c' own es h _ hr
    simp only [TsPool.run, Option.some.injEq, Prod.mk.injEq] at hr
    obtain ⟨rfl, rfl⟩ := hr
    refine ⟨h, rfl, ?_, ?_, ?_⟩ <;> (intros; simp_all)
  | cons p sched ih =>
    obtain ⟨t, a⟩ := p
    intro c c' own es h hd hr
    simp only [TsPool.run] at hr
    cases h1 : TsPool.step c t a with
    | none => rw [h1] at hr; cases hr
    | some r =>
      obtain ⟨c1, e1⟩ := r
      rw [h1] at hr
      simp only at hr
      simp only [Spec.trace, h1, Spec.disciplined] at hd
      cases h2 : TsPool.run c1 sched with
      | none => rw [h2] at hr; cases hr
      | some r =>
        obtain ⟨c2, e2⟩ := r
        rw [h2] at hr
        cases hr
        obtain ⟨g1, g2, g3, g4, g5⟩ := h.step hd.1 h1
        obtain ⟨k1, k2, k3, k4, k5⟩ := ih g1 hd.2 h2
        have hlen : e1.length ≤ 1 := by
          cases a <;> simp only [TsPool.step] at h1 <;> (repeat' split at h1) <;> cases h1 <;> simp
        have hsplit : ∀ pre x post, e1 ++ e2 = pre ++ x :: post →
            (pre = [] ∧ x ∈ e1) ∨ (∃ pre', pre = e1 ++ pre' ∧ e2 = pre' ++ x :: post) := by
          intro pre x post he
          match e1, hlen with
          | [], _ => right; exact ⟨pre, by simp, by simpa using he⟩
          | [y], _ =>
            cases pre with
            | nil => left; simp at he; simp [he.1]
            | cons z pre => right; simp at he; exact ⟨pre, by simp [he.1], he.2⟩
        refine ⟨?_, by rw [k2, g2], ?_, ?_, ?_⟩
        · intro i
          have := k1 i
          simp only [owners_append]; exact this
        · intro pre t' i post he
          rcases hsplit _ _ _ he with ⟨rfl, hm⟩ | ⟨pre', rfl, he'⟩
          · exact g3 t' i hm
          · rw [owners_append]
            have := k3 pre' t' i post he'
            rw [g2] at this; exact this
        · intro pre t' i b post he
          rcases hsplit _ _ _ he with ⟨rfl, hm⟩ | ⟨pre', rfl, he'⟩
          · exact g4 t' i b hm
          · exact k4 pre' t' i b post he'
        · intro pre t' i b post he
          rcases hsplit _ _ _ he with ⟨rfl, hm⟩ | ⟨pre', rfl, he'⟩
          · exact g5 t' i b hm
          · rw [owners_append]; exact k5 pre' t' i b post he'

theorem init_Inv (n : Nat) : Inv (init n) (fun _ => []) := by
  intro i
  left
  simp [init, List.getElem?_replicate]

/-- **C38**: any number of threads, any interleaving of the atomic steps of any calls of create, destroy and is_used, each
thread destroying only what it owns. Whenever create() returns an index, it is below size() and owned by nobody at that
moment; so no entry ever has two owners; destroy by the owner succeeds; is_used(i) tells whether `i` is owned. -/
theorem C38_exclusive_ownership (n : Nat) (sched : List (Nat × Act)) (c : Cfg) (es : List Event)
    (hr : run (init n) sched = some (c, es)) (hd : Spec.disciplined (Spec.trace (init n) sched) (fun _ => [])) :
    (∀ i, (Spec.owners i es []).length ≤ 1) ∧
    (∀ pre t i post, es = pre ++ .created t i :: post → i < n ∧ Spec.owners i pre [] = []) ∧
    (∀ pre t i b post, es = pre ++ .destroyed t i b :: post → b = true) ∧
    (∀ pre t i b post, es = pre ++ .used t i b :: post → (b = true ↔ Spec.owners i pre [] ≠ [])) := by
  obtain ⟨k1, k2, k3, k4, k5⟩ := (init_Inv n).run sched hd hr
  refine ⟨?_, ?_, k4, k5⟩
  · intro i
    rcases k1 i with h | ⟨⟨t, h⟩, _⟩
    · simp only at h; rw [h.1]; simp
    · simp only at h; rw [h]; simp
  · intro pre t i post he
    have := k3 pre t i post he
    simpa [init] using this

/-- two threads race for one entry; thread 1 loses, then gets it after thread 0 destroys it -/
def demo : List (Nat × Act) :=
  [(0, .startCreate), (1, .startCreate), (0, .cas), (1, .cas), (1, .cas), (0, .destroy 0), (2, .startCreate), (2, .cas), (0, .isUsed 0)]

example : (run (init 2) demo).map (·.2) = some [.created 0 0, .created 1 1, .destroyed 0 0 true, .created 2 0, .used 0 0 true] ∧
    Spec.disciplined (Spec.trace (init 2) demo) (fun _ => []) := by
  refine ⟨by decide, ?_⟩
  simp [Spec.disciplined, Spec.trace, demo, init, step, setLoc, Spec.owners]

/-! ### create() fails only if every entry was seen in use -/

theorem setLoc_ne {loc : Nat → Local} {t t' : Nat} {l : Local} (h : t' ≠ t) : setLoc loc t l t' = loc t' := by simp [setLoc, h]

theorem step_length {c c' : Cfg} {t : Nat} {a : Act} {es : List Event} (h : step c t a = some (c', es)) :
    c'.flags.length = c.flags.length := by
  cases a <;> simp only [step] at h <;> (repeat' split at h) <;> cases h <;> simp

theorem step_other {c c' : Cfg} {t u : Nat} {a : Act} {es : List Event} (h : step c u a = some (c', es)) (hne : t ≠ u) :
    c'.loc t = c.loc t := by
  cases a <;> simp only [step] at h <;> (repeat' split at h) <;> cases h <;> simp [setLoc_ne hne]

theorem creating_mono (n : Nat) (mid : List (Nat × Act)) (t : Nat) : ∀ (c c' : Cfg) (es : List Event) (i0 : Nat),
    c.flags.length = n → c.loc t = .creating i0 → run c mid = some (c', es) → Event.failed t ∉ es → (∀ i, Event.created t i ∉ es) →
    ∃ i, c'.loc t = .creating i ∧ c'.flags.length = n ∧ i0 ≤ i ∧
      ∀ j : Nat, i0 ≤ j → j < i → ∃ l1 l2 cm em, mid = l1 ++ l2 ∧ run c l1 = some (cm, em) ∧ cm.flags[j]? = some true := by
  induction mid with
  | nil =>
    intro c c' es i0 hn hl hr _ _
    simp only [run, Option.some.injEq, Prod.mk.injEq] at hr
    obtain ⟨rfl, rfl⟩ := hr
    exact ⟨i0, hl, hn, Nat.le_refl _, by intros; omega⟩
  | cons p mid ih =>
    obtain ⟨u, a⟩ := p
    intro c c' es i0 hn hl hr hnf hnc
    simp only [run] at hr
    cases h1 : step c u a with
    | none => rw [h1] at hr; cases hr
    | some r =>
      obtain ⟨c1, e1⟩ := r
      rw [h1] at hr
      simp only at hr
      cases h2 : run c1 mid with
      | none => rw [h2] at hr; cases hr
      | some r =>
        obtain ⟨c2, e2⟩ := r
        rw [h2] at hr
        cases hr
        have hf1 : Event.failed t ∉ e1 := fun h => hnf (by simp [h])
        have hf2 : Event.failed t ∉ e2 := fun h => hnf (by simp [h])
        have hc1 : ∀ i, Event.created t i ∉ e1 := fun i h => hnc i (by simp [h])
        have hc2 : ∀ i, Event.created t i ∉ e2 := fun i h => hnc i (by simp [h])
        have hstep : c1.loc t = .creating i0 ∨ (c1.loc t = .creating (i0 + 1) ∧ c.flags[i0]? = some true) := by
          by_cases hu : t = u
          · subst hu
            cases a with
            | startCreate => simp [step, hl] at h1
            | destroy idx => simp [step, hl] at h1
            | isUsed idx => simp [step, hl] at h1
            | cas =>
              simp only [step, hl] at h1
              split at h1
              · cases h1; exact absurd (by simp) (hc1 i0)
              · next hf => cases h1; right; exact ⟨by simp [setLoc], hf⟩
              · cases h1
            | endCreate =>
              simp only [step, hl] at h1
              split at h1
              · cases h1
              · cases h1; exact absurd (by simp) hf1
          · left; rw [step_other h1 hu, hl]
        have hlen := step_length h1
        have hcons : ∀ l1 cm em, run c1 l1 = some (cm, em) → ∃ em', run c ((u, a) :: l1) = some (cm, em') := by
          intro l1 cm em h; exact ⟨e1 ++ em, by simp [run, h1, h]⟩
        rcases hstep with hs | ⟨hs, hf⟩
        · obtain ⟨i, g1, g2, g3, g4⟩ := ih c1 _ e2 i0 (by omega) hs h2 hf2 hc2
          refine ⟨i, g1, g2, g3, ?_⟩
          intro j hj hj2
          obtain ⟨l1, l2, cm, em, q1, q2, q3⟩ := g4 j hj hj2
          obtain ⟨em', q4⟩ := hcons _ _ _ q2
          exact ⟨(u, a) :: l1, l2, cm, em', by rw [q1]; rfl, q4, q3⟩
        · obtain ⟨i, g1, g2, g3, g4⟩ := ih c1 _ e2 (i0 + 1) (by omega) hs h2 hf2 hc2
          refine ⟨i, g1, g2, by omega, ?_⟩
          intro j hj hj2
          by_cases hj0 : j = i0
          · subst hj0
            exact ⟨[], (u, a) :: mid, c, [], rfl, rfl, hf⟩
          · obtain ⟨l1, l2, cm, em, q1, q2, q3⟩ := g4 j (by omega) hj2
            obtain ⟨em', q4⟩ := hcons _ _ _ q2
            exact ⟨(u, a) :: l1, l2, cm, em', by rw [q1]; rfl, q4, q3⟩

/-- **C39**: from any state, let thread `t` enter create(), let the threads take any steps `mid` in which `t` does not finish
that call, and let `t` then return nullopt. Then for every entry there was an instant between entry and return at
which it was in use. -/
theorem C39_fails_only_if_seen_full (c0 c1 c2 c3 : Cfg) (t : Nat) (mid : List (Nat × Act)) (es e3 : List Event)
    (h1 : step c0 t .startCreate = some (c1, [])) (h2 : run c1 mid = some (c2, es))
    (hmid : Event.failed t ∉ es ∧ ∀ i, Event.created t i ∉ es) (h3 : step c2 t .endCreate = some (c3, e3)) :
    e3 = [.failed t] ∧ ∀ j : Nat, j < c0.flags.length → ∃ l1 l2 cm em, mid = l1 ++ l2 ∧ run c1 l1 = some (cm, em) ∧
      cm.flags[j]? = some true := by
  have hl := step_length h1
  have hloc : c1.loc t = .creating 0 := by
    simp only [step] at h1
    split at h1
    · cases h1; simp [setLoc]
    · cases h1
  obtain ⟨i, g1, g2, g3, g4⟩ := creating_mono c0.flags.length mid t c1 c2 es 0 hl hloc h2 hmid.1 hmid.2
  simp only [step, g1] at h3
  split at h3
  · cases h3
  · next hi => cases h3; exact ⟨rfl, fun j hj => g4 j (Nat.zero_le _) (by omega)⟩

/-- a failing create(): entry 0 is seen in use and destroyed later, entry 1 is seen in use -/
example : ∃ c0 c1 c2 c3, run (init 2) [(0, .startCreate), (0, .cas), (0, .startCreate), (0, .cas), (0, .cas)] = some (c0, [.created 0 0, .created 0 1]) ∧
    step c0 1 .startCreate = some (c1, []) ∧ run c1 [(1, .cas), (0, .destroy 0), (1, .cas)] = some (c2, [.destroyed 0 0 true]) ∧
    step c2 1 .endCreate = some (c3, [.failed 1]) :=
  ⟨_, _, _, _, rfl, rfl, rfl, rfl⟩

/-- `create()` with no other thread running is the loop of CAS steps of one thread. -/
theorem createAlone_run (t : Nat) : ∀ (k : Nat) (c : Cfg) (i : Nat), c.flags.length - i = k → i ≤ c.flags.length →
    c.loc t = .creating i → ∃ sched c' es, (∀ p ∈ sched, p.1 = t) ∧ run c sched = some (c', es) ∧
      c'.flags = c.flags.take i ++ (createAlone (c.flags.drop i) i).1 ∧
      es = [match (createAlone (c.flags.drop i) i).2 with | some p => Event.created t p | none => Event.failed t] := by
  intro k
  induction k with
  | zero =>
    intro c i hk hi hl
    have hd : c.flags.drop i = [] := by simp; omega
    refine ⟨[(t, .endCreate)], { c with loc := setLoc c.loc t .idle }, [.failed t], by simp, ?_, ?_, ?_⟩
    · simp [run, step, hl, show ¬ i < c.flags.length by omega]
    · rw [hd]; simp [createAlone, List.take_of_length_le (show c.flags.length ≤ i by omega)]
    · rw [hd]; rfl
  | succ k ih =>
    intro c i hk hi hl
    have hlt : i < c.flags.length := by omega
    have hd : c.flags.drop i = c.flags[i] :: c.flags.drop (i + 1) := List.drop_eq_getElem_cons hlt
    cases hf : c.flags[i] with
    | false =>
      have hf? : c.flags[i]? = some false := by rw [List.getElem?_eq_getElem hlt, hf]
      refine ⟨[(t, .cas)], ⟨c.flags.set i true, setLoc c.loc t .idle⟩, [.created t i], by simp, ?_, ?_, ?_⟩
      · simp [run, step, hl, hf?]
      · rw [hd, hf]; simp only [createAlone]; rw [List.set_eq_take_append_cons_drop, if_pos hlt]
      · rw [hd, hf]; rfl
    | true =>
      have hf? : c.flags[i]? = some true := by rw [List.getElem?_eq_getElem hlt, hf]
      obtain ⟨sched, c', es, g1, g2, g3, g4⟩ := ih { c with loc := setLoc c.loc t (.creating (i + 1)) } (i + 1) (by simp; omega)
        (by simp; omega) (by simp [setLoc])
      refine ⟨(t, .cas) :: sched, c', es, ?_, ?_, ?_, ?_⟩
      · intro p hp
        rcases List.mem_cons.mp hp with rfl | hp
        · rfl
        · exact g1 p hp
      · simp only [run, step, hl, hf?, g2]; rfl
      · rw [g3, hd, hf]
        simp only [createAlone, List.take_add_one, hf?, Option.toList_some, List.append_assoc, List.singleton_append]
      · rw [g4, hd, hf]; rfl

/-- **C39**: without concurrent calls create() returns the smallest free index and marks it used, and fails iff all are in use. -/
theorem C39_create_alone (flags : List Bool) :
    ((createAlone flags 0).2 = none ↔ ∀ i : Nat, i < flags.length → flags[i]? = some true) ∧
    ((createAlone flags 0).2 = none → (createAlone flags 0).1 = flags) ∧
    ∀ p, (createAlone flags 0).2 = some p → flags[p]? = some false ∧ (∀ j : Nat, j < p → flags[j]? = some true) ∧
      (createAlone flags 0).1 = flags.set p true := by
  have key : ∀ (l : List Bool) (k : Nat),
      ((createAlone l k).2 = none ∧ (∀ i : Nat, i < l.length → l[i]? = some true) ∧ (createAlone l k).1 = l) ∨
      ∃ p, (createAlone l k).2 = some (k + p) ∧ l[p]? = some false ∧ (∀ j : Nat, j < p → l[j]? = some true) ∧
        (createAlone l k).1 = l.set p true := by
    intro l
    induction l with
    | nil => intro k; left; simp [createAlone]
    | cons b l ih =>
      intro k
      cases b with
      | false => right; exact ⟨0, by simp [createAlone], by simp, by intros; omega, by simp [createAlone]⟩
      | true =>
        rcases ih (k + 1) with ⟨h1, h2, h3⟩ | ⟨p, h1, h2, h3, h4⟩
        · left
          refine ⟨by simp [createAlone, h1], ?_, by simp [createAlone, h3]⟩
          intro i hi
          cases i with
          | zero => rfl
          | succ i => simpa using h2 i (by simpa using hi)
        · right
          refine ⟨p + 1, by simp [createAlone, h1]; omega, by simpa using h2, ?_, by simp [createAlone, h4]⟩
          intro j hj
          cases j with
          | zero => rfl
          | succ j => simpa using h3 j (by omega)
  rcases key flags 0 with ⟨h1, h2, h3⟩ | ⟨p, h1, h2, h3, h4⟩
  · exact ⟨⟨fun _ => h2, fun _ => h1⟩, fun _ => h3, fun p hp => by rw [h1] at hp; cases hp⟩
  · rw [Nat.zero_add] at h1
    refine ⟨⟨fun h => (by rw [h1] at h; cases h), fun h => ?_⟩, fun h => (by rw [h1] at h; cases h), ?_⟩
    · rw [h p (List.getElem?_eq_some_iff.mp h2).1] at h2; cases h2
    · intro q hq; rw [h1] at hq; cases hq; exact ⟨h2, h3, h4⟩

/-- **C39**: the interleaving model runs exactly that when only thread `t` moves. -/
theorem C39_create_alone_is_the_step_model (c : Cfg) (t : Nat) (hi : c.loc t = .idle) :
    ∃ sched c' es, (∀ p ∈ sched, p.1 = t) ∧ run c sched = some (c', es) ∧ c'.flags = (createAlone c.flags 0).1 ∧
      es = [match (createAlone c.flags 0).2 with | some p => Event.created t p | none => Event.failed t] := by
  obtain ⟨sched, c', es, g1, g2, g3, g4⟩ := createAlone_run t c.flags.length { c with loc := setLoc c.loc t (.creating 0) } 0
    (by simp) (by simp) (by simp [setLoc])
  refine ⟨(t, .startCreate) :: sched, c', es, ?_, ?_, by simpa using g3, by simpa using g4⟩
  · intro p hp
    rcases List.mem_cons.mp hp with rfl | hp
    · rfl
    · exact g1 p hp
  · simp only [run, step, hi, if_true, g2]; rfl

/-- **C39**: destroying a free or out-of-range index returns false and changes nothing. -/
theorem C39_destroy_free (c : Cfg) (t idx : Nat) (hi : c.loc t = .idle) (hf : c.flags[idx]? ≠ some true) :
    step c t (.destroy idx) = some (c, [.destroyed t idx false]) := by
  simp only [step, hi, if_true]
  rw [if_neg hf]
  split <;> rfl

example : (init 2).loc 0 = .idle ∧ (init 2).flags[7]? ≠ some true := by decide

/-- **C39**: after clear() nothing is in use. -/
theorem C39_clear (c : Cfg) (i : Nat) : (clear c).flags[i]? ≠ some true ∧ (clear c).flags.length = c.flags.length := by
  constructor
  · simp only [clear, List.getElem?_map]
    cases c.flags[i]? <;> simp
  · simp [clear]

end TsPool
