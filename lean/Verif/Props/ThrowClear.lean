import Verif.Model.ThrowClear
import Verif.Props.Throwing
/-! # C265: an exception inside `ThreadSafePool::clear()` -/
namespace Throwing.TsP

variable {T : Type}

theorem bind_done {σ A B : Type} (m : E σ A) (g : A → E σ B) (s : σ) (n : Nat) (a : A) (s' : σ) (n' : Nat) (h : m s n = .done a s' n') :
    (m >>= g) s n = g a s' n' := by
  show (match m s n with | .done a s n => g a s n | .threw s => .threw s | .ub => .ub) = _
  rw [h]

theorem bind_threw {σ A B : Type} (m : E σ A) (g : A → E σ B) (s : σ) (n : Nat) (s' : σ) (h : m s n = .threw s') : (m >>= g) s n = .threw s' := by
  show (match m s n with | .done a s n => g a s n | .threw s => .threw s | .ub => .ub) = _
  rw [h]

/-- The first `k` entries reset and free, the others as they were. -/
def cleared (dflt : T) (k : Nat) (s : St T) : St T :=
  ⟨List.replicate k dflt ++ s.data.drop k, List.replicate k false ++ s.flags.drop k⟩

theorem cleared_step (dflt : T) (k : Nat) (s : St T) (h1 : k < s.data.length) (h2 : k < s.flags.length) :
    (cleared dflt k s).data.set k dflt = (cleared dflt (k + 1) s).data ∧ (cleared dflt k s).flags.set k false = (cleared dflt (k + 1) s).flags := by
  have aux : ∀ {A : Type} (l : List A) (a : A), k < l.length → (List.replicate k a ++ l.drop k).set k a = List.replicate (k + 1) a ++ l.drop (k + 1) := by
    intro A l a h
    rw [List.set_append_right _ _ (by simp), List.length_replicate, Nat.sub_self, List.drop_eq_getElem_cons h, List.set_cons_zero,
      List.replicate_succ', List.append_assoc]
    rfl
  exact ⟨aux _ _ h1, aux _ _ h2⟩

theorem clearOne_two (dflt : T) (k : Nat) (s : St T) (h1 : k < s.data.length) (h2 : k < s.flags.length) (b : Nat) :
    clearOne dflt k (cleared dflt k s) (b + 2) = .done () (cleared dflt (k + 1) s) b := by
  have hl : k < (cleared dflt k s).data.length := by simp only [cleared, List.length_append, List.length_replicate, List.length_drop]; omega
  have hl2 : k < (cleared dflt k s).flags.length := by simp only [cleared, List.length_append, List.length_replicate, List.length_drop]; omega
  obtain ⟨e1, e2⟩ := cleared_step dflt k s h1 h2
  unfold clearOne
  rw [elem_succ, elem_succ, members_bind]
  rw [arrSet_lt hl, arrSet_lt hl2, e1, e2]
  rfl

theorem clearOne_few (dflt : T) (k : Nat) (s : St T) (b : Nat) (hb : b < 2) : clearOne dflt k s b = .threw s := by
  unfold clearOne
  match b, hb with
  | 0, _ => rw [elem_zero]
  | 1, _ => rw [elem_succ, elem_zero]

theorem loop_exact (dflt : T) (s : St T) (hl : s.data.length = s.flags.length) : ∀ (n k b : Nat), k + n = s.data.length →
    clearLoop dflt k n (cleared dflt k s) b =
      if 2 * n ≤ b then .done () (cleared dflt (k + n) s) (b - 2 * n) else .threw (cleared dflt (k + b / 2) s) := by
  intro n
  induction n with
  | zero => intro k b _; rw [if_pos (by omega)]; rfl
  | succ n ih =>
    intro k b hk
    unfold clearLoop
    by_cases hb : b < 2
    · rw [bind_threw _ _ _ _ _ (clearOne_few dflt k _ b hb), if_neg (by omega)]
      simp only [show b / 2 = 0 by omega, Nat.add_zero]
    · obtain ⟨c, rfl⟩ : ∃ c, b = c + 2 := ⟨b - 2, by omega⟩
      rw [bind_done _ _ _ _ _ _ _ (clearOne_two dflt k s (by omega) (by omega) c)]
      rw [ih (k + 1) c (by omega)]
      by_cases hc : 2 * n ≤ c
      · rw [if_pos hc, if_pos (by omega), show k + 1 + n = k + (n + 1) by omega, show c + 2 - 2 * (n + 1) = c - 2 * n by omega]
      · rw [if_neg hc, if_neg (by omega), show k + 1 + c / 2 = k + (c + 2) / 2 by omega]

/-- **C265**: `clear()` exactly, whenever an exception comes: after `b` element operations (two for every entry) it either has cleared all
entries, or leaves by the exception with the entries before the one it failed at reset and free and all others, with their owners,
as they were. Nothing outside the arrays is touched. -/
theorem C265_clear_exact (dflt : T) (s : St T) (hl : s.data.length = s.flags.length) (b : Nat) :
    clear dflt s b = if 2 * s.data.length ≤ b then
        .done () ⟨List.replicate s.data.length dflt, List.replicate s.data.length false⟩ (b - 2 * s.data.length)
      else .threw ⟨List.replicate (b / 2) dflt ++ s.data.drop (b / 2), List.replicate (b / 2) false ++ s.flags.drop (b / 2)⟩ := by
  unfold clear
  rw [members_bind]
  have h0 : cleared dflt 0 s = s := by simp [cleared]
  have h := loop_exact dflt s hl s.data.length 0 b (by omega)
  rw [h0] at h
  rw [h]
  simp only [Nat.zero_add]
  congr 2
  simp [cleared, hl]

example : clear 0 (⟨[4, 5, 6], [true, false, true]⟩ : St Nat) 3 = .threw ⟨[0, 5, 6], [false, false, true]⟩ ∧
    clear 0 (⟨[4, 5, 6], [true, false, true]⟩ : St Nat) 7 = .done () ⟨[0, 0, 0], [false, false, false]⟩ 1 := by decide

/-- **C265**: whatever happened in the first call, a second one that meets no exception completes the work. -/
theorem C265_again (dflt : T) (s s' : St T) (hl : s.data.length = s.flags.length) (b b' : Nat) (h : clear dflt s b = .threw s')
    (hb : 2 * s.data.length ≤ b') :
    clear dflt s' b' = .done () ⟨List.replicate s.data.length dflt, List.replicate s.data.length false⟩ (b' - 2 * s.data.length) := by
  rw [C265_clear_exact dflt s hl] at h
  split at h
  · cases h
  · next hlt =>
    injection h with h
    subst h
    have hd : (List.replicate (b / 2) dflt ++ s.data.drop (b / 2)).length = s.data.length := by
      simp only [List.length_append, List.length_replicate, List.length_drop]; omega
    have hf : (List.replicate (b / 2) false ++ s.flags.drop (b / 2)).length = s.data.length := by
      simp only [List.length_append, List.length_replicate, List.length_drop]; omega
    rw [C265_clear_exact dflt _ (hd.trans hf.symm)]
    simp only [hd, if_pos hb]

example : ∃ s', clear 0 (⟨[4, 5, 6], [true, false, true]⟩ : St Nat) 3 = .threw s' ∧
    clear 0 s' 6 = .done () ⟨[0, 0, 0], [false, false, false]⟩ 0 := ⟨_, rfl, by decide⟩

end Throwing.TsP
