import Verif.Spec.OwnerLedger
/-! # Property C114 (C131), exactly: how often a callable or heap object is destroyed in any history, with copies and assignments -/

namespace Owners

/-- The number of variables below `K` that hold `r`. -/
def held (K r : Nat) (s : Owners) : Nat := (List.range K).countP fun x => decide (s.vars x = some (some r))

theorem countP_update (f : Nat → Bool) (x : Nat) (b : Bool) : ∀ K, x < K →
    (List.range K).countP (fun y => if y = x then b else f y) + (if f x then 1 else 0) = (List.range K).countP f + (if b then 1 else 0) := by
  have out : ∀ K, K ≤ x → (List.range K).countP (fun y => if y = x then b else f y) = (List.range K).countP f := by
    intro K hK
    apply List.countP_congr
    intro y hy
    have : y ≠ x := by have := List.mem_range.1 hy; omega
    simp [this]
  intro K
  induction K with
  | zero => intro h; omega
  | succ K ih =>
    intro h
    rw [List.range_succ, List.countP_append, List.countP_append]
    by_cases hx : x = K
    · subst hx
      rw [out x (Nat.le_refl _)]
      simp only [List.countP_cons, List.countP_nil, if_true]
      omega
    · have := ih (by omega)
      have hK : ¬ K = x := fun e => hx e.symm
      simp only [List.countP_cons, List.countP_nil, if_neg hK]
      omega

theorem held_setVar (K r : Nat) (s : Owners) (x : Nat) (v : Option (Option Nat)) (hx : x < K) :
    held K r (s.setVar x v) + (if s.vars x = some (some r) then 1 else 0) = held K r s + (if v = some (some r) then 1 else 0) := by
  have h := countP_update (fun y => decide (s.vars y = some (some r))) x (decide (v = some (some r))) K hx
  have e : (fun y => decide ((s.setVar x v).vars y = some (some r))) = (fun y => if y = x then decide (v = some (some r)) else decide (s.vars y = some (some r))) := by
    funext y
    show decide ((if y = x then v else s.vars y) = some (some r)) = _
    split <;> rfl
  unfold held
  rw [e]
  simpa using h

/-- The variables of a call. -/
def Op.below (K : Nat) : Op → Prop
  | .default x => x < K
  | .construct x => x < K
  | .copy x y => x < K ∧ y < K
  | .assign x y => x < K ∧ y < K
  | .destroy x => x < K
  | .call x => x < K

theorem below_mono {K L : Nat} (h : K ≤ L) : ∀ o : Op, o.below K → o.below L
  | .default _, h' => Nat.lt_of_lt_of_le h' h
  | .construct _, h' => Nat.lt_of_lt_of_le h' h
  | .copy _ _, h' => ⟨Nat.lt_of_lt_of_le h'.1 h, Nat.lt_of_lt_of_le h'.2 h⟩
  | .assign _ _, h' => ⟨Nat.lt_of_lt_of_le h'.1 h, Nat.lt_of_lt_of_le h'.2 h⟩
  | .destroy _, h' => Nat.lt_of_lt_of_le h' h
  | .call _, h' => Nat.lt_of_lt_of_le h' h

theorem exists_bound (os : List Op) : ∃ K, ∀ o ∈ os, o.below K := by
  induction os with
  | nil => exact ⟨0, by simp⟩
  | cons o os ih =>
    obtain ⟨K, hK⟩ := ih
    have : ∃ L, o.below L := by
      cases o with
      | default x => exact ⟨x + 1, Nat.lt_succ_self x⟩
      | construct x => exact ⟨x + 1, Nat.lt_succ_self x⟩
      | destroy x => exact ⟨x + 1, Nat.lt_succ_self x⟩
      | call x => exact ⟨x + 1, Nat.lt_succ_self x⟩
      | copy x y => exact ⟨x + y + 1, by constructor <;> omega⟩
      | assign x y => exact ⟨x + y + 1, by constructor <;> omega⟩
    obtain ⟨L, hL⟩ := this
    refine ⟨K + L, fun o' ho' => ?_⟩
    rcases List.mem_cons.1 ho' with e | h
    · rw [e]; exact below_mono (by omega) _ hL
    · exact below_mono (by omega) _ (hK o' h)

/-- One call keeps the books. -/
theorem ledger_step (K r : Nat) (s s' : Owners) (o : Op) (hb : o.below K) (hs : step s o = .ok s') :
    held K r s' + s'.freed.count r + drops r s o + s.made.count r = held K r s + s.freed.count r + copies r s o + s'.made.count r := by
  cases o with
  | default x =>
    simp only [step, defaultCtor] at hs
    split at hs
    · next hx =>
      cases hs
      have h := held_setVar K r s x (some none) hb
      simp only [hx] at h
      simp at h
      simp only [setVar, drops, copies] at h ⊢
      omega
    · cases hs
  | construct x =>
    simp only [step, construct] at hs
    split at hs
    · next hx =>
      cases hs
      have h := held_setVar K r s x (some (some s.next)) hb
      simp only [hx] at h
      simp only [setVar, held] at h ⊢
      simp only [List.count_cons, reduceCtorEq, if_false, Option.some.injEq, beq_iff_eq, drops, copies] at h ⊢
      omega
    · cases hs
  | copy x y =>
    simp only [step, copyCtor] at hs
    split at hs
    · next hx =>
      split at hs
      · next v hy =>
        cases hs
        have h := held_setVar K r s x (some v) hb.1
        simp only [hx, reduceCtorEq, if_false] at h
        simp only [drops, copies, hy]
        simp only [setVar] at h ⊢
        omega
      · cases hs
    · cases hs
  | assign x y =>
    simp only [step, assign] at hs
    split at hs
    · next u v hx hy =>
      cases hs
      have h := held_setVar K r s x (some v) hb.1
      simp only [drops, copies, hy]
      simp only [setVar] at h ⊢
      omega
    · cases hs
  | destroy x =>
    simp only [step, destroy] at hs
    split at hs
    · cases hs
    · next hx =>
      cases hs
      have h := held_setVar K r s x none hb
      simp only [hx] at h
      simp at h
      simp only [setVar, drops, copies] at h ⊢
      omega
    · next q hx =>
      cases hs
      have h := held_setVar K r s x none hb
      simp only [hx, Option.some.injEq, reduceCtorEq, if_false] at h
      simp only [setVar, held] at h ⊢
      simp only [List.count_cons, beq_iff_eq, drops, copies]
      omega
  | call x =>
    simp only [step] at hs
    cases hc : s.call x with
    | ub => rw [hc] at hs; simp at hs
    | ok q => rw [hc] at hs; simp at hs; subst hs; simp only [drops, copies]

theorem ledger (K r : Nat) (os : List Op) : ∀ (s t : Owners), (∀ o ∈ os, o.below K) → run s os = .ok t →
    held K r t + t.freed.count r + dropped r s os + s.made.count r = held K r s + s.freed.count r + copied r s os + t.made.count r := by
  induction os with
  | nil => intro s t _ h; cases h; simp only [dropped, copied]
  | cons o os ih =>
    intro s t hb h
    cases hs : step s o with
    | ub => simp [run, hs] at h
    | ok s' =>
      have h' : run s' os = .ok t := by simpa [run, hs] using h
      have h1 := ledger_step K r s s' o (hb o List.mem_cons_self) hs
      have h2 := ih s' t (fun o' ho' => hb o' (List.mem_cons_of_mem _ ho')) h'
      simp only [dropped, copied, hs]
      omega

/-- Every resource is made at most once. -/
theorem made_once (os : List Op) : ∀ (s t : Owners), (∀ r ∈ s.made, r < s.next) → s.made.Nodup → run s os = .ok t → t.made.Nodup := by
  induction os with
  | nil => intro s t _ h2 h; cases h; exact h2
  | cons o os ih =>
    intro s t h1 h2 h
    cases hs : step s o with
    | ub => simp [run, hs] at h
    | ok s' =>
      have h' : run s' os = .ok t := by simpa [run, hs] using h
      have same : (s'.made = s.made ∧ s'.next = s.next) ∨ (s'.made = s.next :: s.made ∧ s'.next = s.next + 1) := by
        cases o with
        | default x => simp only [step, defaultCtor] at hs; split at hs <;> cases hs; left; exact ⟨rfl, rfl⟩
        | construct x => simp only [step, construct] at hs; split at hs <;> cases hs; right; exact ⟨rfl, rfl⟩
        | copy x y => simp only [step, copyCtor] at hs; split at hs <;> [split at hs; skip] <;> cases hs; left; exact ⟨rfl, rfl⟩
        | assign x y => simp only [step, assign] at hs; split at hs <;> cases hs; left; exact ⟨rfl, rfl⟩
        | destroy x => simp only [step, destroy] at hs; split at hs <;> cases hs <;> (left; exact ⟨rfl, rfl⟩)
        | call x =>
          simp only [step] at hs
          cases hc : s.call x with
          | ub => rw [hc] at hs; simp at hs
          | ok q => rw [hc] at hs; simp at hs; rw [← hs]; left; exact ⟨rfl, rfl⟩
      rcases same with ⟨e1, e2⟩ | ⟨e1, e2⟩
      · exact ih s' t (by rw [e1, e2]; exact h1) (by rw [e1]; exact h2) h'
      · refine ih s' t ?_ ?_ h'
        · rw [e1, e2]
          intro r hr
          rcases List.mem_cons.1 hr with e | hr
          · omega
          · exact Nat.lt_succ_of_lt (h1 r hr)
        · rw [e1]
          exact List.nodup_cons.2 ⟨fun hm => Nat.lt_irrefl _ (h1 _ hm), h2⟩

/-- **C114** (and C131), exactly, for every history including copies and assignments: once all variables are destroyed, a callable (heap object) that was constructed has been destroyed once, and once more for every time it was copied, less the number of
times a variable holding it was overwritten. So it is destroyed exactly once if and only if it was copied as often as it was overwritten; it is never destroyed if only overwritten, and more than once if only copied. -/
theorem C114_exact (os : List Op) (s : Owners) (hs : run init os = .ok s) (hend : ∀ x, s.vars x = none) (r : Nat) (hr : r ∈ s.made) :
    s.made.count r = 1 ∧ s.freed.count r + dropped r init os = 1 + copied r init os ∧ (s.freed.count r = 1 ↔ copied r init os = dropped r init os) := by
  obtain ⟨K, hK⟩ := exists_bound os
  have h := ledger K r os init s hK hs
  have h1 : s.made.count r = 1 := List.count_eq_one_of_mem (made_once os init s (by simp [init]) (by simp [init]) hs) hr
  have h2 : held K r s = 0 := by
    unfold held
    rw [List.countP_eq_zero]
    intro x _
    simp [hend x]
  have h3 : held K r init = 0 := by
    unfold held
    rw [List.countP_eq_zero]
    intro x _
    simp [init]
  have h4 : init.made.count r = 0 ∧ init.freed.count r = 0 := ⟨rfl, rfl⟩
  refine ⟨h1, by omega, ?_⟩
  constructor <;> intro _ <;> omega

/-- Two copies and one overwriting: the first callable is destroyed twice. -/
example : ∃ s, run init [.construct 0, .copy 1 0, .copy 2 0, .construct 3, .assign 2 3, .destroy 0, .destroy 1, .destroy 2, .destroy 3] = .ok s ∧ (∀ x, s.vars x = none) ∧ 0 ∈ s.made ∧
    copied 0 init [.construct 0, .copy 1 0, .copy 2 0, .construct 3, .assign 2 3, .destroy 0, .destroy 1, .destroy 2, .destroy 3] = 2 ∧
    dropped 0 init [.construct 0, .copy 1 0, .copy 2 0, .construct 3, .assign 2 3, .destroy 0, .destroy 1, .destroy 2, .destroy 3] = 1 ∧ s.freed.count 0 = 2 := by
  refine ⟨_, rfl, ?_, by decide, by decide, by decide, by decide⟩
  intro x
  show (if x = 3 then none else if x = 2 then none else if x = 1 then none else if x = 0 then none else if x = 2 then _ else if x = 3 then _ else if x = 2 then _ else if x = 1 then _ else if x = 0 then _ else none) = none
  by_cases h3 : x = 3 <;> by_cases h2 : x = 2 <;> by_cases h1 : x = 1 <;> by_cases h0 : x = 0 <;> simp [h3, h2, h1, h0]

end Owners
