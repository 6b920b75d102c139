import Verif.Model.Params
import Verif.Spec.Params
import Mathlib.Tactic.Linarith
import Mathlib.Tactic.Ring
import Mathlib.Tactic.FieldSimp
import Mathlib.Tactic.NormNum
import Mathlib.Algebra.Order.Group.Abs
import Mathlib.Data.List.Induction
/-! # Properties C105, C106, C107: interpolated parameters, change detection, meters -/

open Params.Spec

namespace InterpParam

theorem iter (p : InterpParam) (k : Nat) : (next^[k] p).cur = p.cur + k * p.step ∧ (next^[k] p).step = p.step := by
  induction k with
  | zero => simp
  | succ k ih =>
    rw [Function.iterate_succ_apply']
    obtain ⟨x, hx⟩ : ∃ x, next^[k] p = x := ⟨_, rfl⟩
    rw [hx] at ih ⊢
    unfold next
    simp only
    rw [ih.1, ih.2]
    push_cast
    exact ⟨by ring, rfl⟩

/-- **C105** (InterpParam): after set_new_value(v) the k-th next() returns the start value plus k equal steps; the n-th returns exactly v. -/
theorem C105_param (n : Nat) (hn : 0 < n) (p : InterpParam) (v : ℚ) :
    (∀ k : Nat, (next^[k] (p.setNew n v)).cur = p.cur + k * ((v - p.cur) / n)) ∧ (next^[n] (p.setNew n v)).cur = v := by
  have h : ∀ k : Nat, (next^[k] (p.setNew n v)).cur = p.cur + k * ((v - p.cur) / n) := by
    intro k; rw [(iter _ k).1]; rfl
  refine ⟨h, ?_⟩
  rw [h]
  have : (n : ℚ) ≠ 0 := by positivity
  field_simp
  ring

example : (next^[4] ((init.setNew 4 8))).cur = 8 := (C105_param 4 (by decide) init 8).2

end InterpParam

namespace InterpParamInt

theorem iter (p : InterpParamInt) (k : Nat) : (next^[k] p).cur = p.cur + k * p.step ∧ (next^[k] p).step = p.step := by
  induction k with
  | zero => simp
  | succ k ih =>
    rw [Function.iterate_succ_apply']
    obtain ⟨x, hx⟩ : ∃ x, next^[k] p = x := ⟨_, rfl⟩
    rw [hx] at ih ⊢
    unfold next
    simp only
    rw [ih.1, ih.2]
    push_cast
    exact ⟨by ring, rfl⟩

/-- **C105** for integers (partial): the value after n steps is the target exactly when n divides the distance, and otherwise stops short of it by less than n. -/
theorem C105_int_partial (n : Nat) (hn : 0 < n) (p : InterpParamInt) (v : Int) :
    ((next^[n] (p.setNew n v)).cur = v ↔ (n : Int) ∣ v - p.cur) ∧ |v - (next^[n] (p.setNew n v)).cur| < n ∧
    |(next^[n] (p.setNew n v)).cur - p.cur| ≤ |v - p.cur| := by
  rw [(iter _ n).1]
  unfold setNew
  simp only
  have hdm := Int.mul_tdiv_add_tmod (v - p.cur) n
  have hlt : |(v - p.cur).tmod n| < n := by
    have := Int.tmod_lt_of_pos (v - p.cur) (b := n) (by exact_mod_cast hn)
    have h2 : -(n : Int) < (v - p.cur).tmod n := by
      have := Int.tmod_lt_of_pos (-(v - p.cur)) (b := n) (by exact_mod_cast hn)
      rw [Int.neg_tmod] at this
      omega
    rw [abs_lt]; exact ⟨h2, this⟩
  refine ⟨?_, ?_, ?_⟩
  · rw [Int.dvd_iff_tmod_eq_zero]
    constructor <;> intro h <;> linarith
  · have : v - (p.cur + n * (v - p.cur).tdiv n) = (v - p.cur).tmod n := by linarith
    rw [this]; exact hlt
  · have e : p.cur + n * (v - p.cur).tdiv n - p.cur = (v - p.cur) - (v - p.cur).tmod n := by linarith
    rw [e]
    rcases le_total 0 (v - p.cur) with h | h
    · have h1 := Int.tmod_nonneg (n : Int) h
      have h2 : (v - p.cur).tmod n ≤ v - p.cur := by
        have := Int.tdiv_nonneg h (by positivity : (0 : Int) ≤ n)
        have h3 : (0 : Int) ≤ n * (v - p.cur).tdiv n := by positivity
        linarith
      rw [abs_of_nonneg (by linarith), abs_of_nonneg h]; linarith
    · have h1 : (v - p.cur).tmod n ≤ 0 := by
        have := Int.tmod_nonneg (n : Int) (by linarith : 0 ≤ -(v - p.cur))
        rw [Int.neg_tmod] at this; linarith
      have h2 : v - p.cur ≤ (v - p.cur).tmod n := by
        have h4 := Int.tdiv_nonneg (by linarith : 0 ≤ -(v - p.cur)) (by positivity : (0 : Int) ≤ n)
        rw [Int.neg_tdiv] at h4
        have h3 : (n : Int) * (v - p.cur).tdiv n ≤ 0 := mul_nonpos_of_nonneg_of_nonpos (by positivity) (by linarith)
        linarith
      rw [abs_of_nonpos (by linarith), abs_of_nonpos h]; linarith

example := C105_int_partial 4 (by norm_num) ⟨3, 0⟩ 20

/-- **C105** violated for integers: going from 0 to 3 in 4 steps the parameter never leaves 0. -/
theorem C105_int_violated : ∀ k, (next^[k] ((⟨0, 0⟩ : InterpParamInt).setNew 4 3)).cur = 0 := by
  intro k
  rw [(iter _ k).1]
  simp [setNew]

end InterpParamInt

namespace InterpParamVar

theorem iter (p : InterpParamVar) (k : Nat) : (next^[k] p).cur = p.cur + k * p.step ∧ (next^[k] p).step = p.step ∧ (next^[k] p).target = p.target := by
  induction k with
  | zero => simp
  | succ k ih =>
    rw [Function.iterate_succ_apply']
    obtain ⟨x, hx⟩ : ∃ x, next^[k] p = x := ⟨_, rfl⟩
    rw [hx] at ih ⊢
    unfold next
    simp only
    rw [ih.1, ih.2.1]
    push_cast
    exact ⟨by ring, rfl, ih.2.2⟩

/-- **C105** (InterpParamVar): as for InterpParam, with the number of steps given with the value; snap_to_target jumps to the value at any time. -/
theorem C105_var (n : Nat) (hn : 0 < n) (p : InterpParamVar) (v : ℚ) :
    (∀ k : Nat, (next^[k] (p.setNew v n)).cur = p.cur + k * ((v - p.cur) / n) ∧ (next^[k] (p.setNew v n)).snap.cur = v) ∧ (next^[n] (p.setNew v n)).cur = v := by
  have e : p.setNew v n = ⟨p.cur, v, (v - p.cur) / n⟩ := by unfold setNew; simp only; rw [if_pos hn]
  have h : ∀ k : Nat, (next^[k] (p.setNew v n)).cur = p.cur + k * ((v - p.cur) / n) := by
    intro k; rw [(iter _ k).1, e]
  refine ⟨fun k => ⟨h k, ?_⟩, ?_⟩
  · show (next^[k] (p.setNew v n)).target = v
    rw [(iter _ k).2.2, e]
  · rw [h]
    have : (n : ℚ) ≠ 0 := by positivity
    field_simp
    ring

example (p : InterpParamVar) := C105_var 4 (by norm_num) p (1 / 3)

/-- With 0 updates only the target is set: snap_to_target still reaches it. -/
theorem C105_var_zero (p : InterpParamVar) (v : ℚ) : (p.setNew v 0).snap.cur = v ∧ (p.setNew v 0).cur = p.cur ∧ (p.setNew v 0).step = p.step := ⟨rfl, rfl, rfl⟩

end InterpParamVar

namespace InterpParamVariable

theorem iter (p : InterpParamVariable) (k : Nat) : (next^[k] p).cur = p.cur + k * p.step ∧ (next^[k] p).step = p.step ∧ (next^[k] p).target = p.target ∧ (next^[k] p).num = p.num := by
  induction k with
  | zero => simp
  | succ k ih =>
    rw [Function.iterate_succ_apply']
    obtain ⟨x, hx⟩ : ∃ x, next^[k] p = x := ⟨_, rfl⟩
    rw [hx] at ih ⊢
    unfold next
    simp only
    rw [ih.1, ih.2.1]
    push_cast
    exact ⟨by ring, rfl, ih.2.2⟩

/-- **C105** (InterpParamVariable): with `n` updates set before, set_new_value(v) is followed by n equal steps ending exactly at v; the default is 256. -/
theorem C105_variable (n : Nat) (hn : 0 < n) (p : InterpParamVariable) (v : ℚ) :
    ∃ q, (p.setNum n).setNew v = .ok q ∧ q.target = v ∧ q.num = n ∧ (∀ k : Nat, (next^[k] q).cur = p.cur + k * ((v - p.cur) / n)) ∧ (next^[n] q).cur = v := by
  refine ⟨{ p with num := n, target := v, step := (v - p.cur) / n }, ?_, rfl, rfl, ?_, ?_⟩
  · unfold setNum setNew
    simp only
    rw [if_neg (by omega)]
  · intro k; rw [(iter _ k).1]
  · rw [(iter _ n).1]
    have : (n : ℚ) ≠ 0 := by positivity
    simp only
    field_simp
    ring

example (p : InterpParamVariable) := C105_variable 4 (by norm_num) p (1 / 3)

theorem C105_variable_default (v : ℚ) : ∃ q, init.setNew v = .ok q ∧ (next^[256] q).cur = v := by
  obtain ⟨q, h1, _, _, _, h2⟩ := C105_variable 256 (by decide) init v
  exact ⟨q, h1, h2⟩

end InterpParamVariable

namespace FilteredInterp

variable {N : Nat} {φ : Type}

/-- One call. -/
def step (addVal : φ → ℚ → φ × ℚ) (s : FilteredInterp N φ) : Call N → FilteredInterp N φ
  | .mark => s.mark
  | .add r => s.add addVal r
  | .get => s.get

/-- The number of get_interp_values calls in a list of calls. -/
def gets (cs : List (Call N)) : Nat := (cs.filter fun | .get => true | _ => false).length

/-- A state reached by `k` gets from a state just after new readings with values `v`, from outputs `c0`, in `n` steps. -/
structure After (n : Nat) (c0 v : Fin N → ℚ) (fs : Fin N → φ) (k : Nat) (s : FilteredInterp N φ) : Prop where
  ready : s.ready = false
  count : s.count = k
  num : s.num = n
  filters : s.filters = fs
  target : ∀ i, (s.interps i).target = v i
  step : 0 < n → ∀ i, (s.interps i).step = (v i - c0 i) / n
  before : k < n → ∀ i, s.out i = c0 i + k * ((v i - c0 i) / n)
  after : n ≤ k → 0 < k → ∀ i, s.out i = v i

theorem after_get (n : Nat) (c0 v : Fin N → ℚ) (fs : Fin N → φ) (k : Nat) (hk : k + 1 < 4294967296) (s : FilteredInterp N φ) (h : After n c0 v fs k s) : After n c0 v fs (k + 1) s.get := by
  have hc : (s.count + 1) % 2 ^ 32 = k + 1 := by rw [h.count]; exact Nat.mod_eq_of_lt (by norm_num; omega)
  constructor
  · exact h.ready
  · exact hc
  · exact h.num
  · exact h.filters
  · intro i
    show (if (s.count + 1) % 2 ^ 32 ≥ s.num then (s.interps i).snap else (s.interps i).next).target = v i
    split <;> exact h.target i
  · intro hn i
    show (if (s.count + 1) % 2 ^ 32 ≥ s.num then (s.interps i).snap else (s.interps i).next).step = _
    split <;> exact h.step hn i
  · intro hlt i
    show (if (s.count + 1) % 2 ^ 32 ≥ s.num then (s.interps i).snap else (s.interps i).next).cur = _
    rw [hc, h.num, if_neg (by omega)]
    show (s.interps i).cur + (s.interps i).step = _
    rw [h.step (by omega) i]
    have := h.before (by omega) i
    unfold out at this
    rw [this]; push_cast; ring
  · intro hge _ i
    show (if (s.count + 1) % 2 ^ 32 ≥ s.num then (s.interps i).snap else (s.interps i).next).cur = _
    rw [hc, h.num, if_pos (by omega)]
    exact h.target i

theorem after_calls (addVal : φ → ℚ → φ × ℚ) (n : Nat) (c0 v : Fin N → ℚ) (fs : Fin N → φ) (cs : List (Call N)) (hno : Call.mark ∉ cs) :
    ∀ (k : Nat) (s : FilteredInterp N φ), k + gets cs < 4294967296 → After n c0 v fs k s → After n c0 v fs (k + gets cs) (cs.foldl (step addVal) s) := by
  induction cs with
  | nil => intro k s _ h; simpa [gets] using h
  | cons c cs ih =>
    intro k s hb h
    rw [List.foldl_cons]
    have hno' : Call.mark ∉ cs := fun hc => hno (List.mem_cons_of_mem _ hc)
    cases c with
    | mark => exact absurd List.mem_cons_self hno
    | add r =>
      have : step addVal s (.add r) = s := by
        show s.add addVal r = s
        unfold add; rw [h.ready]; rfl
      rw [this]
      have hg : gets (Call.add r :: cs) = gets cs := by simp [gets]
      rw [hg] at hb ⊢
      exact ih hno' k s hb h
    | get =>
      have hg : gets (Call.get :: cs) = gets cs + 1 := by simp [gets]
      rw [hg] at hb ⊢
      have := ih hno' (k + 1) s.get (by omega) (after_get n c0 v fs k (by omega) s h)
      rwa [show k + 1 + gets cs = k + (gets cs + 1) by omega] at this

/-- **C105** (FilteredInterpArray, partial). In any state whose data is marked ready, add_new_readings filters the readings; let n be the number of updates since the previous readings (or the configured number if
there was none). Then, with calls of add_new_readings that have no new data in between ignored, the j-th update outputs start + j/n of the way, exactly the filtered reading from the n-th on, as long as there are fewer
than 2^32 updates. -/
theorem C105_array_partial (addVal : φ → ℚ → φ × ℚ) (s : FilteredInterp N φ) (hr : s.ready = true) (read : Fin N → ℚ) (cs : List (Call N)) (hno : Call.mark ∉ cs) (hb : gets cs < 2 ^ 32)
    (n : Nat) (hn : n = if s.count > 0 then s.count else s.num) (t : FilteredInterp N φ) (ht : t = cs.foldl (step addVal) (s.add addVal read)) (i : Fin N) :
    (gets cs < n → t.out i = s.out i + gets cs * (((addVal (s.filters i) (read i)).2 - s.out i) / n)) ∧
    (n ≤ gets cs → 0 < gets cs → t.out i = (addVal (s.filters i) (read i)).2) ∧
    t.filters i = (addVal (s.filters i) (read i)).1 ∧ t.count = gets cs ∧ t.ready = false := by
  have h0 : After n s.out (fun i => (addVal (s.filters i) (read i)).2) (fun i => (addVal (s.filters i) (read i)).1) 0 (s.add addVal read) := by
    unfold add
    rw [hr]
    simp only [if_true]
    constructor
    · rfl
    · rfl
    · exact hn.symm
    · rfl
    · intro i
      show ((s.interps i).setNew _ _).target = _
      rw [← hn]
      unfold InterpParamVar.setNew; simp only; split <;> rfl
    · intro hpos i
      show ((s.interps i).setNew _ _).step = _
      rw [← hn]
      unfold InterpParamVar.setNew; simp only; rw [if_pos hpos]; rfl
    · intro _ i
      show ((s.interps i).setNew _ _).cur = _
      rw [← hn]
      unfold InterpParamVar.setNew out; simp only; split <;> simp
    · intro _ h; omega
  have h := after_calls addVal n _ _ _ cs hno 0 _ (by norm_num at hb ⊢; omega) h0
  rw [Nat.zero_add, ← ht] at h
  exact ⟨fun hlt => h.before hlt i, fun hge hp => h.after hge hp i, by rw [h.filters], h.count, h.ready⟩

/-- **C105**: the number of steps is the number of updates between the last two readings. -/
theorem C105_array_steps (addVal : φ → ℚ → φ × ℚ) (s : FilteredInterp N φ) (hr : s.ready = true) (read read' : Fin N → ℚ) (cs : List (Call N)) (hno : Call.mark ∉ cs) (hb : gets cs < 2 ^ 32) (hp : 0 < gets cs) :
    ((((cs.foldl (step addVal) (s.add addVal read)).mark).add addVal read')).num = gets cs := by
  by_cases hN : ∃ i : Fin N, True
  · obtain ⟨i, _⟩ := hN
    have h := C105_array_partial addVal s hr read cs hno hb _ rfl _ rfl i
    unfold mark add
    simp only [if_true]
    simp only [add] at h
    rw [h.2.2.2.1, if_pos hp]
  · -- no channels: the counters alone
    have h0 : After (N := N) (if s.count > 0 then s.count else s.num) s.out (fun i => (addVal (s.filters i) (read i)).2) (fun i => (addVal (s.filters i) (read i)).1) 0 (s.add addVal read) := by
      unfold add
      rw [hr]
      simp only [if_true]
      constructor <;> first | rfl | (intros; rename_i i; exact absurd ⟨i, trivial⟩ hN)
    have h := after_calls addVal _ _ _ _ cs hno 0 _ (by norm_num at hb ⊢; omega) h0
    rw [Nat.zero_add] at h
    unfold mark
    rw [add]
    simp only [if_true]
    rw [h.count, if_pos hp]

/-- The number of gets that is enough to wrap the counter. -/
theorem get_iter_count (s : FilteredInterp N φ) (k : Nat) : (get^[k] s).count = (s.count + k) % 2 ^ 32 ∨ k = 0 := by
  induction k with
  | zero => right; rfl
  | succ k ih =>
    left
    rw [Function.iterate_succ_apply']
    show ((get^[k] s).count + 1) % 2 ^ 32 = _
    rcases ih with h | h
    · rw [h, Nat.mod_add_mod, Nat.add_assoc]
    · subst h; simp

/-- **C105** violated: the output does not stay at the reading for ever. One channel, no filtering, a reading of 1 with one step: the 2^32-th update moves the output on to 2. -/
theorem C105_array_violated : ∃ s : FilteredInterp 1 Unit, (s = ((((init () : FilteredInterp 1 Unit).setNum 1).mark).add (fun _ x => ((), x)) fun _ => 1)) ∧
    (∀ k, 1 ≤ k → k < 2 ^ 32 → (get^[k] s).out 0 = 1) ∧ (get^[2 ^ 32] s).out 0 = 2 := by
  refine ⟨_, rfl, ?_⟩
  obtain ⟨s, hs⟩ : ∃ s, s = ((((init () : FilteredInterp 1 Unit).setNum 1).mark).add (fun _ x => ((), x)) fun _ => 1) := ⟨_, rfl⟩
  rw [← hs]
  have h0 : After 1 (fun _ => 0) (fun _ => 1) (fun _ => ()) 0 s := by
    rw [hs]
    constructor <;> simp [add, mark, setNum, init, InterpParamVar.setNew, InterpParamVar.init, out]
  have hall : ∀ k, k < 4294967296 → After 1 (fun _ => 0) (fun _ => 1) (fun _ => ()) k (get^[k] s) := by
    intro k
    induction k with
    | zero => intro _; exact h0
    | succ k ih =>
      intro hk
      rw [Function.iterate_succ_apply']
      exact after_get 1 _ _ _ k hk _ (ih (by omega))
  constructor
  · intro k h1 h2
    exact (hall k (by norm_num at h2 ⊢; omega)).after h1 (by omega) 0
  · have hl := hall 4294967295 (by decide)
    obtain ⟨x, hx⟩ : ∃ x, get^[4294967295] s = x := ⟨_, rfl⟩
    have e : get^[2 ^ 32] s = x.get := by
      rw [show (2 : Nat) ^ 32 = 4294967295 + 1 by norm_num, Function.iterate_succ_apply', hx]
    rw [hx] at hl
    rw [e]
    show (if (x.count + 1) % 2 ^ 32 ≥ x.num then (x.interps 0).snap else (x.interps 0).next).cur = 2
    rw [hl.count, hl.num, if_neg (by norm_num)]
    show (x.interps 0).cur + (x.interps 0).step = 2
    have h1 := hl.after (by decide) (by decide) 0
    unfold out at h1
    rw [h1, hl.step (by decide) 0]
    norm_num

example : ((((init () : FilteredInterp 1 Unit).setNum 4).mark).add (fun _ x => ((), x)) fun _ => 8).get.get.out 0 = 4 := by
  have h := C105_array_partial (fun _ x => ((), x)) (((init () : FilteredInterp 1 Unit).setNum 4).mark) rfl (fun _ => 8) [.get, .get] (by simp) (by decide) 4 rfl _ rfl 0
  have e := h.1 (by decide)
  simp only [List.foldl, step] at e
  rw [e]
  simp [gets, out, mark, setNum, init, InterpParamVar.init]
  norm_num

end FilteredInterp

namespace Latched

variable {α : Type} [AddCommGroup α] [LinearOrder α] [IsOrderedAddMonoid α]

/-- **C106** (LatchedParam): store_changed(x) accepts x exactly if it differs from the value by at least the threshold; afterwards the value is x or closer to x than the threshold. -/
theorem C106_store (fits : α → Bool) (m : α) (p : Latched α) (x : α) (hf : fits |x - p.val| = true) :
    ∃ q b, p.store fits m x = .ok (q, b) ∧ (b = true ↔ m ≤ |x - p.val|) ∧ (b = true → q.val = x ∧ q.changed = true) ∧ (b = false → q = p) ∧ (q.val = x ∨ |x - q.val| < m) := by
  have hd : (if x ≥ p.val then x - p.val else p.val - x) = |x - p.val| := by
    split
    · next h => rw [abs_of_nonneg (sub_nonneg.mpr h)]
    · next h => rw [abs_of_nonpos (sub_nonpos.mpr (le_of_not_ge h)), neg_sub]
  unfold store
  simp only
  rw [hd, hf]
  simp only [if_true]
  by_cases hm : m ≤ |x - p.val|
  · refine ⟨⟨x, true⟩, true, by rw [if_pos hm], by simp [hm], fun _ => ⟨rfl, rfl⟩, fun h => (by cases h), .inl rfl⟩
  · refine ⟨p, false, by rw [if_neg hm], by simp [hm], fun h => by (cases h), fun _ => rfl, .inr (lt_of_not_ge hm)⟩

example := C106_store (fun _ => true) 3 (⟨10, false⟩ : Latched Int) 12 rfl

/-- Calls on a LatchedParam. -/
inductive Call (α : Type) where
  | store (x : α)
  | didChange
  | assign (x : α)

/-- Run a history; the booleans are the results of the `store_changed` and `did_change` calls, `false` for assignments. -/
def run (fits : α → Bool) (m : α) : List (Call α) → Latched α → R (Latched α × List Bool)
  | [], p => .ok (p, [])
  | .store x :: cs, p => do let (q, b) ← p.store fits m x; let (r, bs) ← run fits m cs q; .ok (r, b :: bs)
  | .didChange :: cs, p => do let (r, bs) ← run fits m cs p.didChange.1; .ok (r, p.didChange.2 :: bs)
  | .assign x :: cs, p => do let (r, bs) ← run fits m cs (p.assign x); .ok (r, false :: bs)

/-- Is there an accepted store after the last did_change? (`b0`: was one pending before.) -/
def acceptedSince (b0 : Bool) : List (Call α) → List Bool → Bool
  | .store _ :: cs, b :: bs => acceptedSince (b0 || b) cs bs
  | .didChange :: cs, _ :: bs => acceptedSince false cs bs
  | .assign _ :: cs, _ :: bs => acceptedSince b0 cs bs
  | _, _ => b0

/-- **C106** (LatchedParam): over every history, did_change() is true exactly if a store_changed call was accepted since the last did_change() (plain assignments are not reported). -/
theorem C106_did_change (fits : α → Bool) (m : α) (cs : List (Call α)) (p q : Latched α) (bs : List Bool) (h : run fits m cs p = .ok (q, bs)) :
    q.didChange.2 = acceptedSince p.changed cs bs ∧ q.didChange.1.val = q.val ∧ q.didChange.1.changed = false := by
  have key : q.changed = acceptedSince p.changed cs bs := by
    induction cs generalizing p bs with
    | nil =>
      unfold run at h; cases h; rfl
    | cons c cs ih =>
      cases c with
      | store x =>
        unfold run at h
        have hq : ∀ q' b, p.store fits m x = .ok (q', b) → q'.changed = (p.changed || b) := by
          intro q' b hs
          unfold store at hs
          obtain ⟨d, hd⟩ : ∃ d, (if x ≥ p.val then x - p.val else p.val - x) = d := ⟨_, rfl⟩
          simp only [hd] at hs
          by_cases hf : fits d = true
          · rw [if_pos hf] at hs
            by_cases hm : d ≥ m
            · rw [if_pos hm] at hs; cases hs; simp
            · rw [if_neg hm] at hs; cases hs; simp
          · rw [if_neg hf] at hs; cases hs
        cases hs : p.store fits m x with
        | ub => rw [hs] at h; simp at h
        | ok r =>
          obtain ⟨q', b⟩ := r
          rw [hs] at h
          simp only [R.bind_ok] at h
          cases hr : run fits m cs q' with
          | ub => rw [hr] at h; simp at h
          | ok r =>
            obtain ⟨q'', bs'⟩ := r
            rw [hr] at h
            simp only [R.bind_ok] at h
            cases h
            rw [ih q' bs' hr, acceptedSince, hq q' b hs]
      | didChange =>
        unfold run at h
        cases hr : run fits m cs p.didChange.1 with
        | ub => rw [hr] at h; simp at h
        | ok r =>
          obtain ⟨q'', bs'⟩ := r
          rw [hr] at h
          simp only [R.bind_ok] at h
          cases h
          rw [ih _ bs' hr, acceptedSince]
          have : p.didChange.1.changed = false := by unfold didChange; cases hc : p.changed <;> simp [hc]
          rw [this]
      | assign x =>
        unfold run at h
        cases hr : run fits m cs (p.assign x) with
        | ub => rw [hr] at h; simp at h
        | ok r =>
          obtain ⟨q'', bs'⟩ := r
          rw [hr] at h
          simp only [R.bind_ok] at h
          cases h
          rw [ih _ bs' hr, acceptedSince]; rfl
  refine ⟨?_, ?_, ?_⟩
  · rw [← key]; unfold didChange; cases hc : q.changed <;> simp
  · unfold didChange; split <;> rfl
  · unfold didChange; cases hc : q.changed <;> simp [hc]

/-- **C106**: a store of the current value is accepted only with threshold ≤ 0; assignment sets the value, copying copies value and pending change; the initial value is 0 with no change pending. -/
theorem C106_assign (p x : Latched α) (v : α) : (p.assign v).val = v ∧ (p.assign v).changed = p.changed ∧ p.copyFrom x = x ∧ (init : Latched α).val = 0 ∧ (init : Latched α).changed = false :=
  ⟨rfl, rfl, rfl, rfl, rfl⟩

/-- The thresholds of the two kinds of type: the quotient, rounded down for integers (so 1/2 is 0, and every store is accepted). -/
theorem C106_threshold (num den : Nat) (hd : 0 < den) : minChangeF num den * den = num ∧ minChangeI num den * den ≤ num ∧ (num : Int) < (minChangeI num den + 1) * den := by
  refine ⟨?_, ?_, ?_⟩
  · unfold minChangeF
    have : (den : ℚ) ≠ 0 := by positivity
    field_simp
  · unfold minChangeI
    exact_mod_cast Nat.div_mul_le_self num den
  · unfold minChangeI
    have h2 := Nat.div_add_mod num den
    have h3 := Nat.mod_lt num hd
    have h4 : num < (num / den + 1) * den := by rw [Nat.add_mul, Nat.one_mul, Nat.mul_comm]; omega
    exact_mod_cast h4

/-- The representability hypothesis is needed for signed integers. -/
theorem C106_overflow : store (fun d : Int => decide (d ≤ 2147483647)) 1 ⟨-2147483648, false⟩ 0 = .ub := by decide

example : store (fun _ : Int => true) 3 ⟨10, false⟩ 13 = .ok (⟨13, true⟩, true) ∧ store (fun _ : Int => true) 3 ⟨10, false⟩ 8 = .ok (⟨10, false⟩, false) := by decide

end Latched

namespace Param

variable {α : Type} [DecidableEq α]

/-- One operation. -/
def step (p : Param α) : Op α → Param α
  | .set v => p.set v
  | .check => p.isChanged.1

theorem value_append (i : α) (a b : List (Op α)) : value i (a ++ b) = value (value i a) b := by
  induction a generalizing i with
  | nil => rfl
  | cons o a ih => cases o <;> exact ih _

/-- **C106** (Parameter): after every history, the value is the last one set, and isChanged() is true exactly if it has never been called before, or a value different from the value at the time was set since. -/
theorem C106_parameter (i : α) (ops : List (Op α)) :
    (ops.foldl step (init i)).cur = value i ops ∧ ((ops.foldl step (init i)).isChanged.2 = true ↔ Op.check ∉ ops ∨ ChangedSinceCheck i ops) := by
  induction ops using List.reverseRecOn with
  | nil => simp [value, init, isChanged]
  | append_singleton ops o ih =>
    rw [List.foldl_append, List.foldl_cons, List.foldl_nil]
    obtain ⟨p, hp⟩ : ∃ p, ops.foldl step (init i) = p := ⟨_, rfl⟩
    rw [hp] at ih ⊢
    obtain ⟨ihv, ihc⟩ := ih
    rw [value_append]
    cases o with
    | check =>
      refine ⟨ihv, ?_⟩
      show (false = true) ↔ _
      simp only [Bool.false_eq_true, false_iff, not_or, not_not]
      refine ⟨by simp, ?_⟩
      rintro ⟨pre, v, post, he, hn, _⟩
      have hl : (ops ++ [Op.check]).getLast (by simp) = (pre ++ Op.set v :: post).getLast (by simp) := by simp only [he]
      simp only [List.getLast_append_of_ne_nil _ (List.cons_ne_nil _ _), List.getLast_singleton] at hl
      cases hpost : post with
      | nil => rw [hpost] at hl; simp at hl
      | cons a l =>
        rw [hpost] at hl hn
        rw [List.getLast_cons (List.cons_ne_nil _ _)] at hl
        exact hn (hl ▸ List.getLast_mem _)
    | set v =>
      have hstep : step p (.set v) = if v ≠ p.cur then ⟨v, true⟩ else p := rfl
      rw [hstep]
      by_cases hv : v = p.cur
      · rw [if_neg (not_not.mpr hv)]
        refine ⟨by rw [hv]; rfl, ?_⟩
        rw [ihc]
        constructor
        · rintro (h | ⟨pre, w, post, he, hn, hw⟩)
          · left; simp [h]
          · right; exact ⟨pre, w, post ++ [.set v], by rw [he]; simp, by simp [hn], hw⟩
        · rintro (h | ⟨pre, w, post, he, hn, hw⟩)
          · left; simp at h; exact h
          · rcases List.eq_nil_or_concat post with hpost | ⟨l, a, hpost⟩
            · subst hpost
              have := List.append_inj' he rfl
              simp at this
              exfalso; apply hw
              rw [← this.1, ← ihv, ← this.2, hv]
            · rw [List.concat_eq_append] at hpost
              subst hpost
              rw [show pre ++ Op.set w :: (l ++ [a]) = (pre ++ Op.set w :: l) ++ [a] by simp] at he
              have := List.append_inj' he rfl
              exact .inr ⟨pre, w, l, this.1, fun hc => hn (List.mem_append_left _ hc), hw⟩
      · rw [if_pos hv]
        refine ⟨rfl, ?_⟩
        simp only [isChanged, true_iff]
        exact .inr ⟨ops, v, [], rfl, by simp, by rw [← ihv]; exact hv⟩

example : ([.check, .set 1, .set 0] : List (Op Nat)).foldl step (init 0) = ⟨0, true⟩ ∧ ([.check, .set 0] : List (Op Nat)).foldl step (init 0) = ⟨0, false⟩ := ⟨rfl, rfl⟩

end Param

namespace RefParam

variable {α : Type} [DecidableEq α] [Zero α]

/-- One operation. -/
def step (p : RefParam α) : Op α → RefParam α
  | .set v => p.set v
  | .check => p.isChanged.1

theorem isChanged_last (p : RefParam α) : p.isChanged.1 = ⟨p.ref, p.ref⟩ := by
  unfold isChanged
  split
  · next h => cases p; simp_all
  · rfl

/-- **C106** (RefParameter): after every history, isChanged() is true exactly if the value differs from that at the last isChanged() call (0 if there was none). -/
theorem C106_ref (i : α) (ops : List (Op α)) :
    (ops.foldl step (init i)).ref = value i ops ∧ ((ops.foldl step (init i)).isChanged.2 = true ↔ value i ops ≠ valueAtLastCheck 0 i ops) := by
  have gen : ∀ (ops : List (Op α)) (p : RefParam α), (ops.foldl step p).ref = value p.ref ops ∧ (ops.foldl step p).last = valueAtLastCheck p.last p.ref ops := by
    intro ops
    induction ops with
    | nil => intro p; exact ⟨rfl, rfl⟩
    | cons o ops ih =>
      intro p
      rw [List.foldl_cons]
      cases o with
      | set v => exact ih (p.set v)
      | check =>
        have : step p .check = ⟨p.ref, p.ref⟩ := isChanged_last p
        rw [this]; exact ih ⟨p.ref, p.ref⟩
  obtain ⟨h1, h2⟩ := gen ops (init i)
  refine ⟨h1, ?_⟩
  rw [← show (ops.foldl step (init i)).ref = value i ops from h1, ← show (ops.foldl step (init i)).last = valueAtLastCheck 0 i ops from h2]
  unfold isChanged
  split
  · next h => simp [h]
  · next h => simp [h]

example : (init 5 : RefParam Nat).isChanged.2 = true ∧ (([.check, .set 1, .set 5] : List (Op Nat)).foldl step (init 5)).isChanged.2 = false := by decide

end RefParam

namespace Peak

variable {α : Type} [LinearOrder α]

theorem update_eq (p : Peak α) (v : α) : p.update v = ⟨Min.min p.min v, Max.max p.max v⟩ := by
  unfold update
  obtain ⟨a, b⟩ := p
  simp only
  by_cases h1 : v < a <;> by_cases h2 : v > b <;> simp [h1, h2]
  · exact ⟨h1.le, h2.le⟩
  · exact ⟨h1.le, (not_lt.mp h2)⟩
  · exact ⟨(not_lt.mp h1), h2.le⟩
  · exact ⟨not_lt.mp h1, not_lt.mp h2⟩

theorem foldl_eq (xs : List α) (p : Peak α) : xs.foldl update p = ⟨xs.foldl Min.min p.min, xs.foldl Max.max p.max⟩ := by
  induction xs generalizing p with
  | nil => rfl
  | cons x xs ih => rw [List.foldl_cons, update_eq, ih]; rfl

theorem foldl_min (xs : List α) (a : α) : (xs.foldl Min.min a = a ∨ xs.foldl Min.min a ∈ xs) ∧ xs.foldl Min.min a ≤ a ∧ ∀ x ∈ xs, xs.foldl Min.min a ≤ x := by
  induction xs generalizing a with
  | nil => simp
  | cons x xs ih =>
    rw [List.foldl_cons]
    obtain ⟨h1, h2, h3⟩ := ih (Min.min a x)
    refine ⟨?_, le_trans h2 (min_le_left _ _), ?_⟩
    · rcases h1 with h | h
      · rw [h]
        rcases min_choice a x with e | e
        · left; exact e
        · right; rw [e]; exact List.mem_cons_self
      · right; exact List.mem_cons_of_mem _ h
    · intro y hy
      rcases List.mem_cons.mp hy with rfl | hy
      · exact le_trans h2 (min_le_right _ _)
      · exact h3 y hy

theorem foldl_max (xs : List α) (a : α) : (xs.foldl Max.max a = a ∨ xs.foldl Max.max a ∈ xs) ∧ a ≤ xs.foldl Max.max a ∧ ∀ x ∈ xs, x ≤ xs.foldl Max.max a := by
  induction xs generalizing a with
  | nil => simp
  | cons x xs ih =>
    rw [List.foldl_cons]
    obtain ⟨h1, h2, h3⟩ := ih (Max.max a x)
    refine ⟨?_, le_trans (le_max_left _ _) h2, ?_⟩
    · rcases h1 with h | h
      · rw [h]
        rcases max_choice a x with e | e
        · left; exact e
        · right; rw [e]; exact List.mem_cons_self
      · right; exact List.mem_cons_of_mem _ h
    · intro y hy
      rcases List.mem_cons.mp hy with rfl | hy
      · exact le_trans (le_max_right _ _) h2
      · exact h3 y hy

/-- **C107** (partial): after a non-empty sequence of updates since construction or reset, min and max are the least and the greatest value, provided some value is at most `numeric_limits<T>::max()` and some
value is at least `numeric_limits<T>::min()`. -/
theorem C107_extremes_partial (limMin limMax : α) (xs : List α) (hlo : ∃ x ∈ xs, limMin ≤ x) (hhi : ∃ x ∈ xs, x ≤ limMax) (p : Peak α) (hp : p = xs.foldl update (init limMin limMax)) :
    Extremes p.min p.max xs := by
  rw [hp, foldl_eq]
  unfold init
  simp only
  obtain ⟨a1, a2, a3⟩ := foldl_min xs limMax
  obtain ⟨b1, b2, b3⟩ := foldl_max xs limMin
  refine ⟨⟨?_, a3⟩, ?_, b3⟩
  · rcases a1 with h | h
    · obtain ⟨x, hx, hle⟩ := hhi
      have := le_antisymm (a3 x hx) (by rw [h]; exact hle)
      rw [this]; exact hx
    · exact h
  · rcases b1 with h | h
    · obtain ⟨x, hx, hle⟩ := hlo
      have := le_antisymm (by rw [h]; exact hle) (b3 x hx)
      rw [this]; exact hx
    · exact h

/-- **C107** for every integer type: all values lie between the limits, so the condition always holds. -/
theorem C107_integers (lo hi : Int) (xs : List Int) (hne : xs ≠ []) (hr : ∀ x ∈ xs, lo ≤ x ∧ x ≤ hi) (p : Peak Int) (hp : p = xs.foldl update (init lo hi)) : Extremes p.min p.max xs := by
  obtain ⟨x, hx⟩ := List.exists_mem_of_ne_nil xs hne
  exact C107_extremes_partial lo hi xs ⟨x, hx, (hr x hx).1⟩ ⟨x, hx, (hr x hx).2⟩ p hp

/-- **C107** violated for floating point: for a signal that is always below 2^-126, for example negative, max is not one of its values. -/
theorem C107_float_violated (xs : List ℚ) (h : ∀ x ∈ xs, x < fltMin) : (xs.foldl update (init fltMin fltMax)).max = fltMin ∧ (xs.foldl update (init fltMin fltMax)).max ∉ xs := by
  have e : (xs.foldl update (init fltMin fltMax)).max = fltMin := by
    rw [foldl_eq]
    rcases (foldl_max xs fltMin).1 with h' | h'
    · exact h'
    · exact absurd (foldl_max xs fltMin).2.1 (not_le.mpr (h _ h'))
  exact ⟨e, by rw [e]; exact fun hm => lt_irrefl _ (h _ hm)⟩

example : ([-1, -3] : List ℚ).foldl update (init fltMin fltMax) = ⟨-3, fltMin⟩ := by
  rw [foldl_eq]; unfold init fltMin fltMax; norm_num [List.foldl]

example : ([3, -2, 7] : List Int).foldl update (init (-128) 127) = ⟨-2, 7⟩ := by decide

end Peak

namespace Analyzed

theorem update_eq (s : Analyzed) (v : ℚ) : s.update v = ⟨Min.min s.min v, Max.max s.max v, s.iir + s.coef * (v - s.iir), s.iir + s.coef * (v - s.iir), s.coef⟩ := by
  unfold update
  obtain ⟨a, b, c, d, e⟩ := s
  simp only
  by_cases h1 : v < a <;> by_cases h2 : v > b <;> simp [h1, h2]
  · exact ⟨h1.le, h2.le⟩
  · exact ⟨h1.le, (not_lt.mp h2)⟩
  · exact ⟨(not_lt.mp h1), h2.le⟩
  · exact ⟨not_lt.mp h1, not_lt.mp h2⟩

theorem foldl_peak (xs : List ℚ) (s : Analyzed) : (xs.foldl update s).min = (xs.foldl Peak.update ⟨s.min, s.max⟩).min ∧ (xs.foldl update s).max = (xs.foldl Peak.update ⟨s.min, s.max⟩).max ∧ (xs.foldl update s).coef = s.coef := by
  induction xs generalizing s with
  | nil => exact ⟨rfl, rfl, rfl⟩
  | cons x xs ih =>
    rw [List.foldl_cons, List.foldl_cons]
    have := ih (s.update x)
    rw [update_eq] at this ⊢
    rw [Peak.update_eq]
    exact this

/-- **C107** (AnalyzedSig after reset_to): min and max are the extremes of the reset value and everything since. -/
theorem C107_after_reset (s : Analyzed) (v : ℚ) (xs : List ℚ) : Extremes (xs.foldl update (s.resetTo v)).min (xs.foldl update (s.resetTo v)).max (v :: xs) := by
  obtain ⟨h1, h2, _⟩ := foldl_peak xs (s.resetTo v)
  rw [h1, h2]
  refine Peak.C107_extremes_partial v v (v :: xs) ⟨v, List.mem_cons_self, le_refl _⟩ ⟨v, List.mem_cons_self, le_refl _⟩ _ ?_
  rw [List.foldl_cons, Peak.update_eq]
  simp [Peak.init, resetTo]

/-- **C107** (AnalyzedSig after construction): as for PeakMeter<float>. -/
theorem C107_analyzed_partial (c : ℚ) (xs : List ℚ) (hlo : ∃ x ∈ xs, fltMin ≤ x) (hhi : ∃ x ∈ xs, x ≤ fltMax) : Extremes (xs.foldl update (init c)).min (xs.foldl update (init c)).max xs := by
  obtain ⟨h1, h2, _⟩ := foldl_peak xs (init c)
  rw [h1, h2]
  exact Peak.C107_extremes_partial fltMin fltMax xs hlo hhi _ rfl

example := C107_analyzed_partial (1 / 4) [1 / 2, -3] ⟨1 / 2, by simp, by unfold fltMin; norm_num⟩ ⟨1 / 2, by simp, by unfold fltMax; norm_num⟩

theorem iir_step (s : Analyzed) (v : ℚ) : (s.update v).iir = (1 - s.coef) * s.iir + s.coef * v ∧ (s.update v).avg = (s.update v).iir ∧ (s.update v).coef = s.coef := by
  rw [update_eq]; refine ⟨?_, rfl, rfl⟩; simp only; ring

/-- **C107**: for a coefficient between 0 and 1 the average stays within the extremes since reset_to. -/
theorem C107_avg_within (s : Analyzed) (h0 : 0 ≤ s.coef) (h1 : s.coef ≤ 1) (v : ℚ) (xs : List ℚ) (t : Analyzed) (ht : t = xs.foldl update (s.resetTo v)) : t.min ≤ t.avg ∧ t.avg ≤ t.max := by
  have key : (t.avg = t.iir ∧ t.coef = s.coef) ∧ t.min ≤ t.iir ∧ t.iir ≤ t.max := by
    rw [ht]
    clear ht
    induction xs using List.reverseRecOn with
    | nil => exact ⟨⟨rfl, rfl⟩, le_refl _, le_refl _⟩
    | append_singleton xs x ih =>
      rw [List.foldl_append, List.foldl_cons, List.foldl_nil]
      obtain ⟨u, hu⟩ : ∃ u, xs.foldl update (s.resetTo v) = u := ⟨_, rfl⟩
      rw [hu] at ih ⊢
      obtain ⟨⟨_, hc⟩, hlo, hhi⟩ := ih
      obtain ⟨e1, e2, e3⟩ := iir_step u x
      refine ⟨⟨e2, by rw [e3, hc]⟩, ?_, ?_⟩
      · rw [e1, hc, update_eq]
        simp only
        have a := min_le_left u.min x
        have b := min_le_right u.min x
        nlinarith [mul_le_mul_of_nonneg_left (le_trans a hlo) (sub_nonneg.mpr h1), mul_le_mul_of_nonneg_left b h0]
      · rw [e1, hc, update_eq]
        simp only
        have a := le_max_left u.max x
        have b := le_max_right u.max x
        nlinarith [mul_le_mul_of_nonneg_left (le_trans hhi a) (sub_nonneg.mpr h1), mul_le_mul_of_nonneg_left b h0]
  rw [key.1.1]; exact key.2

example (s : Analyzed) (h : s.coef = 1 / 4) := C107_avg_within s (by rw [h]; norm_num) (by rw [h]; norm_num) (1 / 2) [1, -3] _ rfl

/-- **C107**: for a constant signal the distance of the average from it shrinks by the factor 1 - coefficient per update (AnalyzedSignal<k>: coefficient 1/k). -/
theorem C107_avg_converges (s : Analyzed) (x : ℚ) (n : Nat) : (((fun s => update s x)^[n + 1]) s).avg - x = (1 - s.coef) ^ (n + 1) * (s.iir - x) ∧ ∀ k, (initInt k).coef = 1 / k := by
  have key : ∀ n, (((fun s => update s x)^[n]) s).iir - x = (1 - s.coef) ^ n * (s.iir - x) ∧ (((fun s => update s x)^[n]) s).coef = s.coef := by
    intro n
    induction n with
    | zero => simp
    | succ n ih =>
      rw [Function.iterate_succ_apply']
      obtain ⟨u, hu⟩ : ∃ u, ((fun s => update s x)^[n]) s = u := ⟨_, rfl⟩
      rw [hu] at ih ⊢
      obtain ⟨e1, _, e3⟩ := iir_step u x
      rw [e1, e3, ih.2, pow_succ]
      refine ⟨?_, rfl⟩
      have : u.iir = x + (1 - s.coef) ^ n * (s.iir - x) := by linarith [ih.1]
      rw [this]; ring
  refine ⟨?_, fun k => rfl⟩
  rw [← (key (n + 1)).1, Function.iterate_succ_apply']
  rw [(iir_step _ x).2.1]

end Analyzed
