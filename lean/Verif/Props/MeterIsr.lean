import Verif.Spec.MeterIsr
import Mathlib.Order.MinMax
import Mathlib.Data.Int.Order.Basic
/-!
# C252: meters shared with an interrupt
-/
namespace MeterIsr
open MeterIsrSpec

variable {T : Type} [LinearOrder T]

theorem update_eq (m : Meter T) (v : T) : update m v = ⟨min m.min v, max m.max v⟩ := by
  unfold update
  dsimp only
  by_cases h1 : v < m.min
  · rw [if_pos h1]
    dsimp only
    by_cases h2 : m.max < v
    · rw [if_pos h2, min_eq_right h1.le, max_eq_right h2.le]
    · rw [if_neg h2, min_eq_right h1.le, max_eq_left (not_lt.mp h2)]
  · rw [if_neg h1]
    by_cases h2 : m.max < v
    · rw [if_pos h2, min_eq_left (not_lt.mp h1), max_eq_right h2.le]
    · rw [if_neg h2, min_eq_left (not_lt.mp h1), max_eq_left (not_lt.mp h2)]

/-- what calls do to `min` -/
def runMin (x : T) (os : List (Op T)) : T :=
  os.foldl (fun x o => match o with | .update v => min x v | .reset hi _ => hi) x

/-- what calls do to `max` -/
def runMax (x : T) (os : List (Op T)) : T :=
  os.foldl (fun x o => match o with | .update v => max x v | .reset _ lo => lo) x

theorem calls_eq (os : List (Op T)) : ∀ m : Meter T, calls m os = ⟨runMin m.min os, runMax m.max os⟩ := by
  induction os with
  | nil => intro m; rfl
  | cons o os ih =>
    intro m
    unfold calls runMin runMax at *
    rw [List.foldl_cons, ih, List.foldl_cons, List.foldl_cons]
    cases o with
    | update v => simp only [call, update_eq]
    | reset hi lo => rfl

theorem runMin_append (x : T) (a b : List (Op T)) : runMin x (a ++ b) = runMin (runMin x a) b := List.foldl_append
theorem runMax_append (x : T) (a b : List (Op T)) : runMax x (a ++ b) = runMax (runMax x a) b := List.foldl_append

theorem runMin_updates (l : List T) : ∀ x, runMin x (l.map .update) = l.foldl min x := by
  induction l with
  | nil => intro x; rfl
  | cons v l ih => intro x; exact ih (min x v)

theorem runMax_updates (l : List T) : ∀ x, runMax x (l.map .update) = l.foldl max x := by
  induction l with
  | nil => intro x; rfl
  | cons v l ih => intro x; exact ih (max x v)

theorem foldl_min_least (l : List T) : ∀ a, IsLeast (l.foldl min a) a l := by
  induction l with
  | nil => intro a; exact ⟨List.mem_cons_self .., fun y hy => by simp at hy; exact hy.symm.le⟩
  | cons v l ih =>
    intro a
    obtain ⟨h1, h2⟩ := ih (min a v)
    rw [List.foldl_cons]
    refine ⟨?_, ?_⟩
    · rcases List.mem_cons.mp h1 with h | h
      · rw [h]
        rcases min_choice a v with e | e <;> rw [e] <;> simp
      · exact List.mem_cons_of_mem _ (List.mem_cons_of_mem _ h)
    · intro y hy
      have hm := h2 _ (List.mem_cons_self ..)
      rcases List.mem_cons.mp hy with rfl | hy
      · exact hm.trans (min_le_left _ _)
      · rcases List.mem_cons.mp hy with rfl | hy
        · exact hm.trans (min_le_right _ _)
        · exact h2 y (List.mem_cons_of_mem _ hy)

theorem foldl_max_greatest (l : List T) : ∀ a, IsGreatest (l.foldl max a) a l := by
  induction l with
  | nil => intro a; exact ⟨List.mem_cons_self .., fun y hy => by simp at hy; exact hy.le⟩
  | cons v l ih =>
    intro a
    obtain ⟨h1, h2⟩ := ih (max a v)
    rw [List.foldl_cons]
    refine ⟨?_, ?_⟩
    · rcases List.mem_cons.mp h1 with h | h
      · rw [h]
        rcases max_choice a v with e | e <;> rw [e] <;> simp
      · exact List.mem_cons_of_mem _ (List.mem_cons_of_mem _ h)
    · intro y hy
      have hm := h2 _ (List.mem_cons_self ..)
      rcases List.mem_cons.mp hy with rfl | hy
      · exact (le_max_left _ _).trans hm
      · rcases List.mem_cons.mp hy with rfl | hy
        · exact (le_max_right _ _).trans hm
        · exact h2 y (List.mem_cons_of_mem _ hy)

theorem IsLeast.unique {x y a : T} {l : List T} (h : IsLeast x a l) (h' : IsLeast y a l) : x = y :=
  le_antisymm (h.2 y h'.1) (h'.2 x h.1)

theorem IsGreatest.unique {x y a : T} {l : List T} (h : IsGreatest x a l) (h' : IsGreatest y a l) : x = y :=
  le_antisymm (h'.2 x h.1) (h.2 y h'.1)

/-- `min` and `max` after an update by the main program with any calls of interrupts in its gaps. -/
theorem mainUpdate_eq (m : Meter T) (v : T) (g1 g2 g3 : List (Op T)) :
    mainUpdate m v g1 g2 g3 =
      ⟨if v < m.min then runMin v (g2 ++ g3) else runMin m.min (g1 ++ (g2 ++ g3)),
       if runMax m.max (g1 ++ g2) < v then v else runMax m.max (g1 ++ g2 ++ g3)⟩ := by
  unfold mainUpdate
  simp only [calls_eq, runMin_append, runMax_append]
  by_cases h1 : v < m.min
  · simp only [h1, decide_true, if_true]
    by_cases h2 : runMax (runMax m.max g1) g2 < v
    · simp only [h2, decide_true, if_true]
    · simp only [h2, decide_false, Bool.false_eq_true, if_false]
  · simp only [h1, decide_false, Bool.false_eq_true, if_false]
    by_cases h2 : runMax (runMax m.max g1) g2 < v
    · simp only [h2, decide_true, if_true]
    · simp only [h2, decide_false, Bool.false_eq_true, if_false]

/-- Main program and interrupts add samples, the interrupts `l1`, `l2`, `l3` in the three gaps of the main program's
`update(v)`.  `min` is the least of all samples exactly if, where `v` was found to be a new minimum, every smaller sample
of the first gap is made good by a later one; `max` is the greatest exactly if, where `v` was found to be a new maximum, no sample of the third
gap is greater. -/
theorem C252_update_exact (m : Meter T) (v : T) (l1 l2 l3 : List T) :
    (IsLeast (mainUpdate m v (l1.map .update) (l2.map .update) (l3.map .update)).min m.min (v :: (l1 ++ l2 ++ l3))
      ↔ (v < m.min → ∀ y ∈ l1, y < v → ∃ z ∈ l2 ++ l3, z ≤ y))
    ∧ (IsGreatest (mainUpdate m v (l1.map .update) (l2.map .update) (l3.map .update)).max m.max (v :: (l1 ++ l2 ++ l3))
      ↔ ((∀ y ∈ m.max :: (l1 ++ l2), y < v) → ∀ y ∈ l3, y ≤ v)) := by
  rw [mainUpdate_eq]
  simp only [← List.map_append, runMin_updates, runMax_updates]
  constructor
  · by_cases h : v < m.min
    · rw [if_pos h]
      have hl := foldl_min_least (l2 ++ l3) v
      generalize (l2 ++ l3).foldl min v = x at hl
      constructor
      · intro hx _ y hy hyv
        have hxy : x ≤ y := hx.2 y (by simp [hy])
        rcases List.mem_cons.mp hl.1 with e | e
        · rw [e] at hxy
          exact absurd hxy (not_le.mpr hyv)
        · exact ⟨x, e, hxy⟩
      · intro hc
        refine ⟨?_, ?_⟩
        · rcases List.mem_cons.mp hl.1 with e | e
          · rw [e]; simp
          · simp only [List.mem_append] at e
            simp only [List.mem_cons, List.mem_append]
            rcases e with e | e
            · exact Or.inr (Or.inr (Or.inl (Or.inr e)))
            · exact Or.inr (Or.inr (Or.inr e))
        · intro y hy
          have hxv : x ≤ v := hl.2 v (List.mem_cons_self ..)
          rcases List.mem_cons.mp hy with rfl | hy
          · exact hxv.trans h.le
          · rcases List.mem_cons.mp hy with rfl | hy
            · exact hxv
            · rw [List.append_assoc] at hy
              rcases List.mem_append.mp hy with hy | hy
              · by_cases hyv : y < v
                · obtain ⟨z, hz, hzy⟩ := hc h y hy hyv
                  exact (hl.2 z (List.mem_cons_of_mem _ hz)).trans hzy
                · exact hxv.trans (not_lt.mp hyv)
              · exact hl.2 y (List.mem_cons_of_mem _ hy)
    · rw [if_neg h]
      have hl := foldl_min_least (l1 ++ (l2 ++ l3)) m.min
      generalize (l1 ++ (l2 ++ l3)).foldl min m.min = x at hl
      refine ⟨fun _ h' => absurd h' h, fun _ => ?_⟩
      rw [List.append_assoc]
      refine ⟨?_, ?_⟩
      · rcases List.mem_cons.mp hl.1 with e | e
        · rw [e]; exact List.mem_cons_self ..
        · exact List.mem_cons_of_mem _ (List.mem_cons_of_mem _ e)
      · intro y hy
        rcases List.mem_cons.mp hy with rfl | hy
        · exact hl.2 _ (List.mem_cons_self ..)
        · rcases List.mem_cons.mp hy with rfl | hy
          · exact (hl.2 _ (List.mem_cons_self ..)).trans (not_lt.mp h)
          · exact hl.2 y (List.mem_cons_of_mem _ hy)
  · have hg := foldl_max_greatest (l1 ++ l2) m.max
    by_cases h : (l1 ++ l2).foldl max m.max < v
    · rw [if_pos h]
      have hall : ∀ y ∈ m.max :: (l1 ++ l2), y < v := fun y hy => (hg.2 y hy).trans_lt h
      constructor
      · intro hx _ y hy
        exact hx.2 y (by simp [hy])
      · intro hc
        refine ⟨by simp, ?_⟩
        intro y hy
        rcases List.mem_cons.mp hy with rfl | hy
        · exact (hall _ (List.mem_cons_self ..)).le
        · rcases List.mem_cons.mp hy with rfl | hy
          · exact le_rfl
          · rcases List.mem_append.mp hy with hy | hy
            · exact (hall y (List.mem_cons_of_mem _ hy)).le
            · exact hc hall y hy
    · rw [if_neg h]
      have hl := foldl_max_greatest (l1 ++ l2 ++ l3) m.max
      refine ⟨fun _ h' => absurd (h' _ hg.1) h, fun _ => ?_⟩
      refine ⟨?_, ?_⟩
      · rcases List.mem_cons.mp hl.1 with e | e
        · rw [e]; exact List.mem_cons_self ..
        · exact List.mem_cons_of_mem _ (List.mem_cons_of_mem _ e)
      · intro y hy
        rcases List.mem_cons.mp hy with rfl | hy
        · exact hl.2 _ (List.mem_cons_self ..)
        · rcases List.mem_cons.mp hy with rfl | hy
          · have : (l1 ++ l2).foldl max m.max ≤ (l1 ++ l2 ++ l3).foldl max m.max := by
              rcases List.mem_cons.mp hg.1 with e | e
              · rw [e]; exact hl.2 _ (List.mem_cons_self ..)
              · exact hl.2 _ (List.mem_cons_of_mem _ (List.mem_append_left _ e))
            exact (not_lt.mp h).trans this
          · exact hl.2 y (List.mem_cons_of_mem _ hy)

example : mainUpdate (⟨10, 0⟩ : Meter Int) 5 [.update 7] [.update 3] [.update 4] = ⟨3, 7⟩ := by decide

/-- Interrupts with samples only between the two comparisons and stores, or that find nothing new: the outcome is that of
calls one after another. -/
theorem C252_update_partial (m : Meter T) (v : T) (l : List T) :
    OneAfterAnother m (.update v) (l.map .update) (mainUpdate m v [] (l.map .update) []) := by
  refine ⟨[], l.map .update, rfl, ?_⟩
  rw [mainUpdate_eq, calls_eq]
  simp only [List.nil_append, List.append_nil, runMin_updates, runMax_updates, calls, List.foldl_nil, call, update_eq]
  congr 1
  · by_cases h : v < m.min
    · rw [if_pos h, min_eq_right h.le]
    · rw [if_neg h, min_eq_left (not_lt.mp h)]
  · have e : l.foldl max (max m.max v) = max (l.foldl max m.max) v := by
      generalize m.max = a
      induction l generalizing a with
      | nil => rfl
      | cons b l ih => rw [List.foldl_cons, List.foldl_cons, ← ih, max_right_comm]
    rw [e]
    by_cases h : l.foldl max m.max < v
    · rw [if_pos h, max_eq_right h.le]
    · rw [if_neg h, max_eq_left (not_lt.mp h)]

/-- `reset()` by the main program with samples `l` in its gap: all of them count for `min`, none for `max`. Both show the
samples since the reset exactly if none of `l` exceeds the value that `max` is reset to. -/
theorem C252_reset_exact (m : Meter T) (hi lo : T) (l : List T) :
    IsLeast (mainReset m hi lo (l.map .update)).min hi l
    ∧ (mainReset m hi lo (l.map .update)).max = lo
    ∧ (IsGreatest (mainReset m hi lo (l.map .update)).max lo l ↔ ∀ y ∈ l, y ≤ lo) := by
  unfold mainReset
  simp only [calls_eq, runMin_updates]
  refine ⟨foldl_min_least l hi, trivial, ?_⟩
  constructor
  · intro h y hy
    exact h.2 y (List.mem_cons_of_mem _ hy)
  · intro h
    refine ⟨List.mem_cons_self .., ?_⟩
    intro y hy
    rcases List.mem_cons.mp hy with rfl | hy
    · exact le_rfl
    · exact h y hy

/-- The full claim fails: a new minimum lost in the first gap, a new maximum lost in the third, a sample that counts for
one end only during a reset (by either side). -/
theorem C252_violated :
    ¬ OneAfterAnother (⟨10, 0⟩ : Meter Int) (.update 5) [.update 3] (mainUpdate ⟨10, 0⟩ 5 [.update 3] [] [])
    ∧ ¬ OneAfterAnother (⟨10, 0⟩ : Meter Int) (.update 5) [.update 7] (mainUpdate ⟨10, 0⟩ 5 [] [] [.update 7])
    ∧ ¬ OneAfterAnother (⟨3, 7⟩ : Meter Int) (.reset 100 (-100)) [.update 5] (mainReset ⟨3, 7⟩ 100 (-100) [.update 5])
    ∧ ¬ OneAfterAnother (⟨10, 0⟩ : Meter Int) (.update 5) [.reset 100 (-100)]
        (mainUpdate ⟨10, 0⟩ 5 [] [.reset 100 (-100)] []) := by
  have two : ∀ (m : Meter Int) (main o : Op Int) (out : Meter Int),
      OneAfterAnother m main [o] out → out = call (call m main) o ∨ out = call (call m o) main := by
    rintro m main o out ⟨b, a, e, rfl⟩
    cases b with
    | nil => left; subst e; rfl
    | cons x b =>
      cases b with
      | nil =>
        right
        simp only [List.cons_append, List.nil_append, List.cons.injEq] at e
        obtain ⟨rfl, rfl⟩ := e
        rfl
      | cons y b => simp at e
  refine ⟨?_, ?_, ?_, ?_⟩ <;>
  · intro h
    exact absurd (two _ _ _ _ h) (by decide)

end MeterIsr
