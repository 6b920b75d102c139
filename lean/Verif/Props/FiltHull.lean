import Verif.Model.Params
import Verif.Spec.FiltHull
import Mathlib.Tactic.Linarith
import Mathlib.Tactic.NormNum
import Mathlib.Tactic.FieldSimp
import Mathlib.Tactic.Ring
import Mathlib.Tactic.Positivity

/-! C237: the outputs of a FilteredInterpArray never leave the range of 0 and the filtered readings. -/

namespace FilteredInterp
open FiltHull

variable {N : Nat} {φ : Type}

/-- The effect of a call on the array. -/
def does (addVal : φ → ℚ → φ × ℚ) (s : FilteredInterp N φ) : Ev N → FilteredInterp N φ
  | .mark => s.mark
  | .add r => s.add addVal r
  | .get => s.get
  | .setNum n => s.setNum n

/-- The invariant of channel `i`: the output and its target are in range, and the steps still to be made lead to the target or stop short of it. -/
structure HullInv (lo hi : ℚ) (i : Fin N) (c : Seen) (s : FilteredInterp N φ) : Prop where
  ready : s.ready = c.ready
  count : s.count = c.gets
  num : s.num = c.spread
  lc : lo ≤ (s.interps i).cur
  hc : (s.interps i).cur ≤ hi
  lt : lo ≤ (s.interps i).target
  ht : (s.interps i).target ≤ hi
  fresh : c.started = false → (s.interps i).step = 0
  ramp : c.started = true → c.gets < c.spread → ∃ r : Nat, c.spread ≤ r ∧ (s.interps i).cur + ((r - c.gets : Nat) : ℚ) * (s.interps i).step = (s.interps i).target

theorem between {lo hi a t d : ℚ} {k : Nat} (hk : 1 ≤ k) (he : a + (k : ℚ) * d = t) (h1 : lo ≤ a) (h2 : a ≤ hi) (h3 : lo ≤ t) (h4 : t ≤ hi) : lo ≤ a + d ∧ a + d ≤ hi := by
  have hk' : (1 : ℚ) ≤ k := by exact_mod_cast hk
  have hp : (0 : ℚ) < k := by linarith
  constructor
  · by_contra hn
    have h5 : d < 0 := by linarith [not_le.1 hn]
    have : (k : ℚ) * d ≤ 1 * d := mul_le_mul_of_nonpos_right hk' h5.le
    linarith [not_le.1 hn]
  · by_contra hn
    have h5 : 0 < d := by linarith [not_le.1 hn]
    have : 1 * d ≤ (k : ℚ) * d := mul_le_mul_of_nonneg_right hk' h5.le
    linarith [not_le.1 hn]

theorem hull_get (lo hi : ℚ) (i : Fin N) (c : Seen) (s : FilteredInterp N φ) (hb : c.gets + 1 < 2 ^ 32) (h : HullInv lo hi i c s) : HullInv lo hi i { c with gets := c.gets + 1 } s.get := by
  have hcnt : (s.count + 1) % 2 ^ 32 = c.gets + 1 := by rw [h.count]; exact Nat.mod_eq_of_lt hb
  have hi' : s.get.interps i = if c.gets + 1 ≥ c.spread then (s.interps i).snap else (s.interps i).next := by
    show (if (s.count + 1) % 2 ^ 32 ≥ s.num then _ else _) = _
    rw [hcnt, h.num]
  by_cases hs : c.gets + 1 ≥ c.spread
  · rw [if_pos hs] at hi'
    refine ⟨h.ready, hcnt, h.num, ?_, ?_, ?_, ?_, ?_, ?_⟩
    · rw [hi']; exact h.lt
    · rw [hi']; exact h.ht
    · rw [hi']; exact h.lt
    · rw [hi']; exact h.ht
    · rw [hi']; exact h.fresh
    · intro _ hlt
      exact absurd hlt (by simp only; omega)
  · rw [if_neg hs] at hi'
    have hin : lo ≤ (s.interps i).cur + (s.interps i).step ∧ (s.interps i).cur + (s.interps i).step ≤ hi := by
      cases hst : c.started with
      | false => rw [h.fresh hst, add_zero]; exact ⟨h.lc, h.hc⟩
      | true =>
        obtain ⟨r, hr, he⟩ := h.ramp hst (by omega)
        exact between (k := r - c.gets) (by omega) he h.lc h.hc h.lt h.ht
    refine ⟨h.ready, hcnt, h.num, ?_, ?_, ?_, ?_, ?_, ?_⟩
    · rw [hi']; exact hin.1
    · rw [hi']; exact hin.2
    · rw [hi']; exact h.lt
    · rw [hi']; exact h.ht
    · rw [hi']; exact h.fresh
    · intro hst _
      obtain ⟨r, hr, he⟩ := h.ramp hst (by omega)
      refine ⟨r, hr, ?_⟩
      rw [hi']
      show (s.interps i).cur + (s.interps i).step + ((r - (c.gets + 1) : Nat) : ℚ) * (s.interps i).step = (s.interps i).target
      rw [← he, show r - c.gets = (r - (c.gets + 1)) + 1 by omega]
      push_cast; ring

theorem hull_add (addVal : φ → ℚ → φ × ℚ) (lo hi : ℚ) (i : Fin N) (c : Seen) (s : FilteredInterp N φ) (r : Fin N → ℚ) (hr : c.ready = true) (hl : lo ≤ (addVal (s.filters i) (r i)).2) (hh : (addVal (s.filters i) (r i)).2 ≤ hi)
    (h : HullInv lo hi i c s) : HullInv lo hi i ⟨false, 0, if c.gets > 0 then c.gets else c.spread, true⟩ (s.add addVal r) := by
  obtain ⟨n, hn⟩ : ∃ n, n = (if c.gets > 0 then c.gets else c.spread) := ⟨_, rfl⟩
  have he : s.add addVal r = { interps := fun i => (s.interps i).setNew (addVal (s.filters i) (r i)).2 n
                               filters := fun i => (addVal (s.filters i) (r i)).1
                               ready := false, count := 0, num := n } := by
    unfold add; rw [h.ready, hr, hn, h.count, h.num]; rfl
  have hcur : ((s.interps i).setNew (addVal (s.filters i) (r i)).2 n).cur = (s.interps i).cur := by
    unfold InterpParamVar.setNew; simp only; split <;> rfl
  have htar : ((s.interps i).setNew (addVal (s.filters i) (r i)).2 n).target = (addVal (s.filters i) (r i)).2 := by
    unfold InterpParamVar.setNew; simp only; split <;> rfl
  rw [he, ← hn]
  refine ⟨rfl, rfl, rfl, ?_, ?_, ?_, ?_, ?_, ?_⟩
  · show lo ≤ ((s.interps i).setNew _ _).cur; rw [hcur]; exact h.lc
  · show ((s.interps i).setNew _ _).cur ≤ hi; rw [hcur]; exact h.hc
  · show lo ≤ ((s.interps i).setNew _ _).target; rw [htar]; exact hl
  · show ((s.interps i).setNew _ _).target ≤ hi; rw [htar]; exact hh
  · intro hf; exact absurd hf (by simp)
  · intro _ hlt
    have hpos : 0 < n := hlt
    refine ⟨n, le_refl _, ?_⟩
    show ((s.interps i).setNew _ _).cur + ((n - 0 : Nat) : ℚ) * ((s.interps i).setNew _ _).step = ((s.interps i).setNew _ _).target
    rw [hcur, htar]
    have hst : ((s.interps i).setNew (addVal (s.filters i) (r i)).2 n).step = ((addVal (s.filters i) (r i)).2 - (s.interps i).cur) / n := by
      unfold InterpParamVar.setNew; simp only; rw [if_pos hpos]
    rw [hst, Nat.sub_zero]
    have : (n : ℚ) ≠ 0 := by exact_mod_cast hpos.ne'
    field_simp
    ring

theorem hull_run (addVal : φ → ℚ → φ × ℚ) (lo hi : ℚ) (i : Fin N) (es : List (Ev N)) : ∀ (c : Seen) (s : FilteredInterp N φ), Calm c es → HullInv lo hi i c s →
    (∀ v ∈ filtered addVal (s.filters i) (taken i c.ready es), lo ≤ v ∧ v ≤ hi) → lo ≤ (es.foldl (does addVal) s).out i ∧ (es.foldl (does addVal) s).out i ≤ hi := by
  induction es with
  | nil => intro c s _ h _; exact ⟨h.lc, h.hc⟩
  | cons e es ih =>
    intro c s hcalm h hv
    obtain ⟨h1, h2⟩ := hcalm
    rw [List.foldl_cons]
    cases e with
    | mark =>
      refine ih _ _ h2 ⟨rfl, h.count, h.num, h.lc, h.hc, h.lt, h.ht, h.fresh, h.ramp⟩ ?_
      simpa [taken, Seen.after, does, FilteredInterp.mark] using hv
    | get =>
      refine ih _ _ h2 (hull_get lo hi i c s h1 h) ?_
      have ht : taken i c.ready (Ev.get :: es) = taken i c.ready es := by cases c.ready <;> rfl
      rw [ht] at hv
      exact hv
    | setNum n =>
      have ht : taken i c.ready (Ev.setNum n :: es) = taken i c.ready es := by cases c.ready <;> rfl
      rw [ht] at hv
      refine ih _ _ h2 ⟨h.ready, h.count, rfl, h.lc, h.hc, h.lt, h.ht, h.fresh, ?_⟩ hv
      intro hst hlt
      have hle := h1 hst
      have hlt' : c.gets < n := hlt
      obtain ⟨r, hr, he⟩ := h.ramp hst (by omega)
      exact ⟨r, by show n ≤ r; omega, he⟩
    | add r =>
      cases hr : c.ready with
      | false =>
        have hs : does addVal s (.add r) = s := by
          show s.add addVal r = s
          unfold add; rw [h.ready, hr]; rfl
        have hc : c.after (.add r : Ev N) = c := by simp [Seen.after, hr]
        rw [hs]
        rw [hc] at h2
        refine ih c s h2 h ?_
        rw [hr] at hv ⊢
        exact hv
      | true =>
        have hc : c.after (.add r : Ev N) = ⟨false, 0, if c.gets > 0 then c.gets else c.spread, true⟩ := by simp [Seen.after, hr]
        rw [hr] at hv
        rw [hc] at h2
        have hv0 := hv (addVal (s.filters i) (r i)).2 (by simp [taken, filtered])
        refine ih _ _ h2 (hull_add addVal lo hi i c s r hr hv0.1 hv0.2 h) ?_
        intro v hmem
        refine hv v ?_
        have hf : (does addVal s (.add r)).filters i = (addVal (s.filters i) (r i)).1 := by
          show (s.add addVal r).filters i = _
          unfold add; rw [h.ready, hr]; rfl
        rw [hf] at hmem
        simp only [taken, filtered]
        exact List.mem_cons_of_mem _ hmem

/-- **C237** (partial: calm histories). Whatever the filter, however irregularly data is announced, read and fetched: every output lies in every interval that contains 0 (the output before any readings) and the filtered values of the readings taken so far. -/
theorem C237_hull_partial (addVal : φ → ℚ → φ × ℚ) (f : φ) (es : List (Ev N)) (hcalm : Calm {} es) (i : Fin N) (lo hi : ℚ) (hlo : lo ≤ 0) (hhi : 0 ≤ hi)
    (hv : ∀ v ∈ filtered addVal f (taken i false es), lo ≤ v ∧ v ≤ hi) :
    lo ≤ (es.foldl (does addVal) (init f)).out i ∧ (es.foldl (does addVal) (init f)).out i ≤ hi :=
  hull_run addVal lo hi i es {} (init f) hcalm ⟨rfl, rfl, rfl, hlo, hhi, hlo, hhi, fun _ => rfl, fun h => absurd h (by decide)⟩ hv

/-- **C237** for filters that keep to the range of what they are fed (an average, a first-order low-pass): the outputs keep to the range of 0 and the raw readings. `ok` is the range kept by the filter's memory. -/
theorem C237_readings_partial (addVal : φ → ℚ → φ × ℚ) (f : φ) (es : List (Ev N)) (hcalm : Calm {} es) (i : Fin N) (lo hi : ℚ) (hlo : lo ≤ 0) (hhi : 0 ≤ hi) (ok : φ → Prop) (hf : ok f)
    (hok : ∀ g x, ok g → lo ≤ x → x ≤ hi → ok (addVal g x).1 ∧ lo ≤ (addVal g x).2 ∧ (addVal g x).2 ≤ hi) (hv : ∀ v ∈ taken i false es, lo ≤ v ∧ v ≤ hi) :
    lo ≤ (es.foldl (does addVal) (init f)).out i ∧ (es.foldl (does addVal) (init f)).out i ≤ hi := by
  refine C237_hull_partial addVal f es hcalm i lo hi hlo hhi ?_
  generalize taken i false es = xs at hv
  induction xs generalizing f with
  | nil => intro v h; simp [filtered] at h
  | cons x xs ih =>
    intro v h
    have h0 := hok f x hf (hv x List.mem_cons_self).1 (hv x List.mem_cons_self).2
    simp only [filtered, List.mem_cons] at h
    rcases h with h | h
    · rw [h]; exact h0.2
    · exact ih (addVal f x).1 h0.1 (fun v hm => hv v (List.mem_cons_of_mem _ hm)) v h

/-- **C237** violated by raising the number of updates while readings are being approached: the one reading is 1 and the output 3/2, although the history is calm up to the set_num_updates call. -/
theorem C237_raise_violated : ∃ es : List (Ev 1), taken 0 false es = [1] ∧ es.length = 7 ∧ Calm {} (es.take 4) ∧ (es.foldl (does fun (_ : Unit) x => ((), x)) (init ())).out 0 = 3 / 2 :=
  ⟨[.setNum 2, .mark, .add (fun _ => 1), .get, .setNum 4, .get, .get], rfl, rfl, by simp [Calm, Seen.after], by
    norm_num [does, add, mark, get, setNum, init, out, InterpParamVar.setNew, InterpParamVar.init, InterpParamVar.next, InterpParamVar.snap]⟩

/-- **C237** violated by lowering the number and raising it again, even to where it was: the reading has been reached, and the output goes past it. -/
theorem C237_lower_raise_violated : ∃ es : List (Ev 1), taken 0 false es = [1] ∧ Calm {} (es.take 5) ∧ es.drop 5 = [.setNum 4, .get] ∧ (es.foldl (does fun (_ : Unit) x => ((), x)) (init ())).out 0 = 5 / 4 :=
  ⟨[.setNum 4, .mark, .add (fun _ => 1), .setNum 1, .get, .setNum 4, .get], rfl, by simp [Calm, Seen.after], rfl, by
    norm_num [does, add, mark, get, setNum, init, out, InterpParamVar.setNew, InterpParamVar.init, InterpParamVar.next, InterpParamVar.snap]⟩

/-- The hypotheses can be met: two readings, 8 and then 2, spread over 4 and then over the 2 updates seen, with a lowered number. -/
example : 0 ≤ (([.setNum 4, .mark, .add (fun _ => 8), .get, .get, .mark, .add (fun _ => 2), .get, .setNum 1, .get] : List (Ev 1)).foldl (does fun (_ : Unit) x => ((), x)) (init ())).out 0 ∧
    (([.setNum 4, .mark, .add (fun _ => 8), .get, .get, .mark, .add (fun _ => 2), .get, .setNum 1, .get] : List (Ev 1)).foldl (does fun (_ : Unit) x => ((), x)) (init ())).out 0 ≤ 8 :=
  C237_hull_partial _ () _ (by simp [Calm, Seen.after]) 0 0 8 (by norm_num) (by norm_num) (by norm_num [taken, filtered])

/-- An averaging filter (half the old value, half the new) meets the hypotheses of `C237_readings_partial`. -/
example : 0 ≤ (([.setNum 4, .mark, .add (fun _ => 8), .get, .get] : List (Ev 1)).foldl (does fun (g : ℚ) x => ((g + x) / 2, (g + x) / 2)) (init 0)).out 0 ∧
    (([.setNum 4, .mark, .add (fun _ => 8), .get, .get] : List (Ev 1)).foldl (does fun (g : ℚ) x => ((g + x) / 2, (g + x) / 2)) (init 0)).out 0 ≤ 8 :=
  C237_readings_partial _ 0 _ (by simp [Calm, Seen.after]) 0 0 8 (by norm_num) (by norm_num) (fun g => 0 ≤ g ∧ g ≤ 8) (by norm_num)
    (by intro g x hg h1 h2; simp only; refine ⟨⟨?_, ?_⟩, ?_, ?_⟩ <;> linarith [hg.1, hg.2]) (by simp [taken])

end FilteredInterp
