import Verif.Lemmas.PoolSignal
/-! # Property C231: `is_used()` of a thread-safe pool tells the thread that creates the entries when they are done -/
namespace PoolSignal
open PoolSignal.Spec

theorem run_Inv {d n N : Nat} : ∀ (l : List (Nat × Act)) (s s' : Sys) (es es' : List Event), Inv d n es s → Rules d N s es l → run N s l = some (s', es') → Inv d n (es ++ es') s' := by
  intro l
  induction l with
  | nil =>
    intro s s' es es' h _ hr
    simp only [run, Option.some.injEq, Prod.mk.injEq] at hr
    obtain ⟨rfl, rfl⟩ := hr
    simpa using h
  | cons a l ih =>
    obtain ⟨t, a⟩ := a
    intro s s' es es' h hd hr
    obtain ⟨_, h2, h3⟩ := hd
    simp only [run] at hr
    split at hr
    · exact absurd hr (by simp)
    · next s1 e1 h1 =>
      split at hr
      · exact absurd hr (by simp)
      · next s2 e2 hr2 =>
        simp only [Option.some.injEq, Prod.mk.injEq] at hr
        obtain ⟨rfl, rfl⟩ := hr
        rw [← List.append_assoc]
        exact ih s1 s2 _ e2 (step_Inv h h2 h1) (h3 s1 e1 h1) hr2

/-- what a result of `is_used` says at the moment of the call -/
theorem step_used {d n N : Nat} {es : List Event} {s s' : Sys} {t : Nat} {a : Act} {e : List Event} (h : Inv d n es s) (hs : step N s t a = some (s', e)) {pre post : List Event} {t' i : Nat} {b : Bool}
    (he : e = pre ++ .used t' i b :: post) (hi : i < n) :
    (t' = d → b = false → holder i (es ++ pre) none = none) ∧ (holder i (es ++ pre) none = some t' → b = true) := by
  cases a with
  | pool a =>
    simp only [step] at hs
    split at hs
    · exact absurd hs (by simp)
    · simp only [Option.some.injEq, Prod.mk.injEq] at hs
      obtain ⟨_, rfl⟩ := hs
      have : Event.used t' i b ∈ pre ++ .used t' i b :: post := by simp
      rw [← he] at this
      simp at this
  | give idx u =>
    simp only [step] at hs
    split_ifs at hs
    split at hs
    · exact absurd hs (by simp)
    · simp only [Option.some.injEq, Prod.mk.injEq] at hs
      obtain ⟨_, rfl⟩ := hs
      have : Event.used t' i b ∈ pre ++ .used t' i b :: post := by simp
      rw [← he] at this
      simp at this
  | isUsed idx j =>
    simp only [step] at hs
    split_ifs at hs with h1 h2 h3
    · split at hs
      · exact absurd hs (by simp)
      · next b' c hm =>
        simp only [Option.some.injEq, Prod.mk.injEq] at hs
        obtain ⟨_, rfl⟩ := hs
        have hpre : pre = [] := by
          cases pre with
          | nil => rfl
          | cons x xs => simp at he
        subst hpre
        simp only [List.nil_append, List.cons.injEq, Event.used.injEq] at he
        obtain ⟨⟨rfl, rfl, rfl⟩, _⟩ := he
        rw [List.append_nil, ← h.own idx]
        have hjlt := (List.getElem?_eq_some_iff.mp hm).1
        constructor
        · rintro rfl rfl
          cases ho : s.pool.own idx with
          | none => rfl
          | some u =>
            exfalso
            have hl := h.last idx true (h.owned idx u ho).1
            have hd := h.disp idx
            by_cases hj : j = s.seen t idx
            · subst hj
              rw [h.disp1 idx c hm, Nat.add_sub_cancel, hm] at hl
              simp at hl
            · have : (s.msgs idx).length - 1 = j := by omega
              rw [this, hm] at hl
              simp at hl
        · intro ho
          have hl := h.last idx true (h.owned idx t ho).1
          have hsn := h.ownseen idx t ho
          have : (s.msgs idx).length - 1 = j := by omega
          rw [this, hm] at hl
          simp at hl
          exact hl.1
    · simp only [Option.some.injEq, Prod.mk.injEq] at hs
      obtain ⟨_, rfl⟩ := hs
      have hpre : pre = [] := by
        cases pre with
        | nil => rfl
        | cons x xs => simp at he
      subst hpre
      simp only [List.nil_append, List.cons.injEq, Event.used.injEq] at he
      obtain ⟨⟨_, rfl, _⟩, _⟩ := he
      rw [h.len] at h2
      exact absurd hi h2

theorem run_used {d n N : Nat} : ∀ (l : List (Nat × Act)) (s s' : Sys) (es es' : List Event), Inv d n es s → Rules d N s es l → run N s l = some (s', es') →
    ∀ pre t i b post, es' = pre ++ .used t i b :: post → i < n →
    (t = d → b = false → holder i (es ++ pre) none = none) ∧ (holder i (es ++ pre) none = some t → b = true) := by
  intro l
  induction l with
  | nil =>
    intro s s' es es' _ _ hr pre t i b post he
    simp only [run, Option.some.injEq, Prod.mk.injEq] at hr
    rw [← hr.2] at he
    simp at he
  | cons a l ih =>
    obtain ⟨u, a⟩ := a
    intro s s' es es' h hd hr pre t i b post he hi
    obtain ⟨_, h2, h3⟩ := hd
    simp only [run] at hr
    split at hr
    · exact absurd hr (by simp)
    · next s1 e1 h1 =>
      split at hr
      · exact absurd hr (by simp)
      · next s2 e2 hr2 =>
        simp only [Option.some.injEq, Prod.mk.injEq] at hr
        obtain ⟨_, rfl⟩ := hr
        rcases List.append_eq_append_iff.mp he with ⟨q, hp, hq⟩ | ⟨q, hp, hq⟩
        · -- the event is in the rest
          have := ih s1 s2 (es ++ e1) e2 (step_Inv h h2 h1) (h3 s1 e1 h1) hr2 q t i b post hq hi
          rw [hp, ← List.append_assoc]
          exact this
        · cases q with
          | nil =>
            simp only [List.append_nil] at hp
            simp only [List.nil_append] at hq
            have := ih s1 s2 (es ++ e1) e2 (step_Inv h h2 h1) (h3 s1 e1 h1) hr2 [] t i b post (by simpa using hq.symm) hi
            rw [List.append_nil, hp] at this
            exact this
          | cons x q =>
            simp only [List.cons_append, List.cons.injEq] at hq
            obtain ⟨rfl, _⟩ := hq
            exact step_used h h1 hp hi

/-- **C231**: a dispatcher `d` and any number of workers, any interleaving, any old values the loads of `is_used()` may still return. If only the dispatcher creates entries, owners access, give on and destroy only what they own, and the
dispatcher accesses an entry it has given away only after `is_used()` told it that the entry is no longer in use, then no two accesses to the entries race: what the workers wrote before `destroy()` is there for the dispatcher to read,
although nobody told it but the flag. -/
theorem C231_done (d N n : Nat) (sched : List (Nat × Act)) (s : Sys) (es : List Event) (hr : run N (init n) sched = some (s, es)) (hd : Rules d N (init n) [] sched) : s.pool.race = false :=
  (run_Inv sched (init n) s [] es (init_Inv d n) hd hr).norace

/-- **C231**: when `is_used(i)` tells the dispatcher `false`, nobody owns entry `i` (old values of the flag cannot mislead it), -/
theorem C231_false_means_done (d N n : Nat) (sched : List (Nat × Act)) (s : Sys) (es : List Event) (hr : run N (init n) sched = some (s, es)) (hd : Rules d N (init n) [] sched)
    (pre post : List Event) (i : Nat) (he : es = pre ++ .used d i false :: post) (hi : i < n) : holder i pre none = none :=
  (run_used sched (init n) s [] es (init_Inv d n) hd hr pre d i false post he hi).1 rfl rfl

/-- and whoever owns an entry is told `true`. -/
theorem C231_owner_is_told (d N n : Nat) (sched : List (Nat × Act)) (s : Sys) (es : List Event) (hr : run N (init n) sched = some (s, es)) (hd : Rules d N (init n) [] sched)
    (pre post : List Event) (t i : Nat) (b : Bool) (he : es = pre ++ .used t i b :: post) (hi : i < n) (ho : holder i pre none = some t) : b = true :=
  (run_used sched (init n) s [] es (init_Inv d n) hd hr pre t i b post he hi).2 ho

/-- **C231**, the converse fails: `true` is no licence to read. The flag is set before the owner writes the entry, so a thread that saw `is_used() == true` and reads the entry races with the owner's write. -/
theorem C231_true_is_no_licence : ∃ s, run 2 (init 1) [(0, .pool .startCreate), (0, .pool .cas), (1, .isUsed 0 1), (0, .pool (.write 0)), (1, .pool (.read 0))] = some (s, [.pool (.created 0 0), .used 1 0 true]) ∧ s.pool.race = true := by
  refine ⟨_, rfl, ?_⟩
  decide +kernel

/-- **C231**, for other threads old values matter: thread 1 saw nothing of the creation and is told `false` of an entry thread 0 owns; reading the entry then is a race. -/
theorem C231_only_for_the_creator : ∃ s, run 2 (init 1) [(0, .pool .startCreate), (0, .pool .cas), (0, .pool (.write 0)), (1, .isUsed 0 0), (1, .pool (.read 0))] = some (s, [.pool (.created 0 0), .used 1 0 false]) ∧ s.pool.race = true := by
  refine ⟨_, rfl, ?_⟩
  decide +kernel

/-- A dispatcher (0) and a worker (1): the dispatcher fills an entry, gives it away, polls twice (the second time it gets the old value although the worker is done), reads the result, and uses the entry again. -/
def jobs : List (Nat × Act) := [(0, .pool .startCreate), (0, .pool .cas), (0, .pool (.write 0)), (0, .give 0 1), (0, .isUsed 0 1), (1, .pool (.read 0)), (1, .pool (.write 0)), (1, .pool (.destroy 0)), (0, .isUsed 0 1), (0, .isUsed 0 2),
  (0, .pool (.read 0)), (0, .pool .startCreate), (0, .pool .cas), (0, .pool (.write 0))]

/-- The schedule runs, with these results, -/
example : ((run 2 (init 1) jobs).map (fun r => (r.1.pool.race, r.2))) = some (false, [.pool (.created 0 0), .gave 0 0 1, .used 0 0 true, .pool (.destroyed 1 0 true), .used 0 0 true, .used 0 0 false, .pool (.created 0 0)]) := by decide +kernel

theorem rules_cons (d N : Nat) (s s1 : Sys) (es e : List Event) (t : Nat) (a : Act) (l : List (Nat × Act)) (ht : t < N) (hA : Allowed d es t a) (hs : step N s t a = some (s1, e)) (hr : Rules d N s1 (es ++ e) l) :
    Rules d N s es ((t, a) :: l) := by
  refine ⟨ht, hA, fun s' e' h => ?_⟩
  rw [hs] at h
  simp only [Option.some.injEq, Prod.mk.injEq] at h
  obtain ⟨rfl, rfl⟩ := h
  exact hr

/-- and keeps to the rules. -/
example : Rules 0 2 (init 1) [] jobs := by
  unfold jobs
  iterate 14 (refine rules_cons _ _ _ _ _ _ _ _ _ (by decide) (by simp [Allowed, holder, view]) rfl ?_)
  trivial

end PoolSignal
