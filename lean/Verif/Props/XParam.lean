import Verif.Model.XParam
import Verif.Model.ParamsFloat
import Verif.Props.XMath
/-! # Property C195: parameters set to any float, including infinities and NaN -/
namespace XParam
open XFlt Flt

/-! ## Parameter, RefParameter -/

theorem eq_iff (a b : XF) : eq a b = true ↔ a = b ∧ a ≠ .nan := by
  cases a <;> cases b <;> simp [eq]

/-- **C195**: a Parameter takes every value given to it, and is changed by a value that differs. -/
theorem C195_param (p : Param) (v : XF) : (p.set v).cur = v ∧ (v ≠ p.cur → (p.set v).changed = true) ∧ (v = p.cur → v ≠ .nan → p.set v = p) ∧ (p.isChanged = (⟨p.cur, false⟩, p.changed)) := by
  unfold Param.set
  by_cases h : eq v p.cur = true
  · have := (eq_iff _ _).mp h
    refine ⟨by rw [if_neg (by simp [h])]; exact this.1.symm, fun hn => absurd this.1 hn, fun _ _ => by simp [h], rfl⟩
  · refine ⟨by simp [h], fun _ => by simp [h], fun h1 h2 => absurd ((eq_iff _ _).mpr ⟨h1, h2⟩) h, rfl⟩

example := (C195_param ⟨.fin 1, false⟩ (.inf true)).2.1 (by simp)

/-- **C195, violated**: a Parameter set to NaN again and again reports a change every time. -/
theorem C195_param_violated (p : Param) : p.isChanged.1.set .nan = ⟨.nan, true⟩ ∧ ((p.isChanged.1.set .nan).isChanged.1.set .nan).isChanged.2 = true := by
  have : ∀ p : Param, p.set .nan = ⟨.nan, true⟩ := by intro p; unfold Param.set; cases p with | mk c ch => cases c <;> rfl
  rw [this, this]; exact ⟨rfl, rfl⟩

/-- The answers of `n` calls of isChanged. -/
def asks : Nat → RefParam → List Bool
  | 0, _ => []
  | n + 1, p => p.isChanged.2 :: asks n p.isChanged.1

/-- **C195**: a RefParameter whose variable is not NaN answers once for a change, then no more. -/
theorem C195_ref (p : RefParam) (h : p.ref ≠ .nan) (n : Nat) : asks (n + 1) p = decide (p.ref ≠ p.last) :: List.replicate n false := by
  have hs : ∀ n (v : XF), v ≠ .nan → asks n ⟨v, v⟩ = List.replicate n false := by
    intro n v hv
    induction n with
    | zero => rfl
    | succ n ih =>
      have e : RefParam.isChanged ⟨v, v⟩ = (⟨v, v⟩, false) := by unfold RefParam.isChanged; rw [if_pos ((eq_iff _ _).mpr ⟨rfl, hv⟩)]
      rw [asks, e, List.replicate_succ]
      exact congrArg _ ih
  rw [asks]
  unfold RefParam.isChanged
  by_cases hc : p.ref = p.last
  · rw [if_pos ((eq_iff _ _).mpr ⟨hc, h⟩)]
    have : p = ⟨p.ref, p.ref⟩ := by cases p; simp at hc ⊢; exact hc.symm
    rw [this, hs n _ h]
    simp [hc]
  · rw [if_neg (fun he => hc ((eq_iff _ _).mp he).1)]
    simp only
    rw [hs n _ h]
    simp [hc]

example := C195_ref ⟨.inf false, .fin 0⟩ (by simp) 3

/-- **C195, violated**: one whose variable holds NaN reports a change at every call, for ever. -/
theorem C195_ref_violated (last : XF) (n : Nat) : asks n ⟨.nan, last⟩ = List.replicate n true := by
  induction n generalizing last with
  | zero => rfl
  | succ n ih =>
    have e : RefParam.isChanged ⟨.nan, last⟩ = (⟨.nan, .nan⟩, true) := by unfold RefParam.isChanged; cases last <;> rfl
    rw [asks, e, List.replicate_succ, ih]

/-! ## LatchedParam -/

theorem min_fin {rnd : ℚ → ℚ} (hr : Nearest rnd) (num den : Nat) (hn : num < 2 ^ 32) (h1 : 1 ≤ den) (h2 : den < 2 ^ 32) :
    minChange rnd num den = .fin (ParamsFloat.latchMin rnd num den) := by
  obtain ⟨e, c⟩ := fin_of_le hr 32 (by norm_num) (q := (den : ℚ)) (by rw [abs_of_nonneg (Nat.cast_nonneg _)]; exact_mod_cast h2.le)
  obtain ⟨e', c'⟩ := fin_of_le hr 32 (by norm_num) (q := (num : ℚ)) (by rw [abs_of_nonneg (Nat.cast_nonneg _)]; exact_mod_cast hn.le)
  have d1 : 1 ≤ rnd den := hr.ge f32_one (by exact_mod_cast h1)
  have hq : |rnd num / rnd den| ≤ 2 ^ 32 := by
    rw [abs_div, abs_of_pos (show 0 < rnd (den : ℚ) by linarith), div_le_iff₀ (by linarith)]
    nlinarith [abs_nonneg (rnd (num : ℚ))]
  unfold minChange ParamsFloat.latchMin
  rw [e, e']
  simp only [div, if_neg (show ¬ rnd (den : ℚ) = 0 by linarith)]
  exact (fin_of_le hr 32 (by norm_num) hq).1

/-- **C195**: a LatchedParam never takes NaN: any samples do to it what they do with the NaN left out. From a finite value an infinity is taken. For
values of magnitude at most 2^126 it does what the finite model (C72, C145) does. -/
theorem C195_latch (rnd : ℚ → ℚ) (hr : Nearest rnd) (num den : Nat) (hn : num < 2 ^ 32) (h1 : 1 ≤ den) (h2 : den < 2 ^ 32) (p : Latched) :
    (∀ xs : List XF, xs.foldl (fun s x => (s.store rnd num den x).1) p = (xs.filter (· ≠ .nan)).foldl (fun s x => (s.store rnd num den x).1) p) ∧
    (∀ v b, p.val = .fin v → p.store rnd num den (.inf b) = (⟨.inf b, true⟩, true)) ∧
    (∀ v x : ℚ, p.val = .fin v → |v| ≤ 2 ^ 126 → |x| ≤ 2 ^ 126 → ∀ q : _root_.Latched ℚ, q = ⟨v, p.changed⟩ →
      p.store rnd num den (.fin x) = (⟨.fin (ParamsFloat.latchStore rnd num den q x).1.val, (ParamsFloat.latchStore rnd num den q x).1.changed⟩, (ParamsFloat.latchStore rnd num den q x).2)) := by
  have em := min_fin hr num den hn h1 h2
  have hnan : ∀ p : Latched, p.store rnd num den .nan = (p, false) := by
    intro p; unfold Latched.store
    rw [(XMath.C194_diff rnd .nan p.val).2.2.2.2 (Or.inl rfl), le_nan]; rfl
  refine ⟨?_, ?_, ?_⟩
  · intro xs
    induction xs generalizing p with
    | nil => rfl
    | cons v l ih =>
      by_cases h : v = .nan
      · subst h; simp only [List.foldl_cons, hnan]; rw [ih]; simp
      · rw [List.filter_cons_of_pos (by simpa using h), List.foldl_cons, List.foldl_cons, ih]
  · intro v b hv
    unfold Latched.store
    rw [hv, (XMath.C194_diff rnd (.inf b) (.fin v)).2.2.2.1 b rfl _ rfl (by simp) (by simp), em]; rfl
  · rintro v x hv hv1 hx1 q rfl
    unfold Latched.store ParamsFloat.latchStore
    have hs : ∀ a b : ℚ, |a| ≤ 2 ^ 126 → |b| ≤ 2 ^ 126 → ofQ rnd (a - b) = .fin (rnd (a - b)) := by
      intro a b ha hb
      refine (fin_of_le hr 127 (by norm_num) ?_).1
      have := abs_sub a b
      have : (2 : ℚ) ^ 126 + 2 ^ 126 ≤ 2 ^ 127 := by norm_num
      linarith
    rw [hv, em]
    unfold XMath.absDiff
    simp only [le, decide_eq_true_eq, ge_iff_le, sub_fin, hs x v hx1 hv1, hs v x hv1 hx1]
    by_cases hc : v ≤ x
    · simp only [if_pos hc]
      simp only [decide_eq_true_eq]
      split <;> simp [← hv]
    · simp only [if_neg hc]
      simp only [decide_eq_true_eq]
      split <;> simp [← hv]

example (rnd : ℚ → ℚ) (hr : Nearest rnd) := (C195_latch rnd hr 1 100 (by norm_num) (by norm_num) (by norm_num) ⟨.fin 0, false⟩).2.1 0 true rfl

/-- **C195, violated**: once it holds NaN (assigned, or copied) it takes no value any more; and one that holds an infinity never registers the same infinity, not even with a least change of 0. -/
theorem C195_latch_violated (rnd : ℚ → ℚ) (num den : Nat) (c : Bool) (xs : List XF) :
    xs.foldl (fun s x => (s.store rnd num den x).1) (Latched.assign ⟨.fin 0, c⟩ .nan) = ⟨.nan, c⟩ ∧ (∀ b, Latched.store rnd num den ⟨.inf b, c⟩ (.inf b) = (⟨.inf b, c⟩, false)) := by
  refine ⟨?_, fun b => by unfold Latched.store; rw [(XMath.C194_diff_violated rnd b).1, le_nan]; rfl⟩
  have h : ∀ x, (Latched.store rnd num den ⟨.nan, c⟩ x).1 = ⟨.nan, c⟩ := by
    intro x; unfold Latched.store
    rw [(XMath.C194_diff rnd x .nan).2.2.2.2 (Or.inr rfl), le_nan]; rfl
  show xs.foldl _ (⟨.nan, c⟩ : Latched) = _
  induction xs with
  | nil => rfl
  | cons x l ih => rw [List.foldl_cons, h, ih]

/-! ## Interpolated parameters -/

/-- A call on an interpolated parameter. -/
inductive Op where
  | set (v : XF)
  | next

/-- One call. -/
def run (rnd : ℚ → ℚ) (n : Nat) (p : Interp) : Op → Interp
  | .set v => p.set rnd n v
  | .next => p.next rnd

theorem add_special (rnd : ℚ → ℚ) (a b : XF) (h : ¬ Fin a ∨ ¬ Fin b) : ¬ Fin (add rnd a b) := by
  cases a with
  | nan => rw [nan_add]; exact fun h => h
  | inf c => cases b with
    | nan => rw [add_nan]; exact fun h => h
    | inf d => simp only [add]; split <;> exact fun h => h
    | fin y => exact fun h => h
  | fin x => cases b with
    | nan => rw [add_nan]; exact fun h => h
    | inf d => exact fun h => h
    | fin y => rcases h with h | h <;> exact absurd trivial h

/-- **C195, violated**: an interpolated parameter given an infinity or NaN is lost: from the next step on its value is never finite again, whatever new values it is given. -/
theorem C195_interp_violated (rnd : ℚ → ℚ) (hr : Nearest rnd) (n : Nat) (hn : n < 2 ^ 32) (p : Interp) (c : ℚ) (hc : p.cur = .fin c) (v : XF) (hv : ¬ Fin v) (ops : List Op) :
    ¬ Fin (ops.foldl (run rnd n) ((p.set rnd n v).next rnd)).cur := by
  have hstep : ¬ Fin (p.set rnd n v).step := by
    unfold Interp.set
    rw [hc]
    have hf : Fin (ofQ rnd n) := by
      rw [(fin_of_le hr 32 (by norm_num) (q := (n : ℚ)) (by rw [abs_of_nonneg (Nat.cast_nonneg _)]; exact_mod_cast hn.le)).1]; trivial
    cases v with
    | fin q => exact absurd trivial hv
    | nan =>
      simp only [nan_sub]
      cases ofQ rnd (n : ℚ) <;> exact fun h => h
    | inf b =>
      show ¬ Fin (div rnd (.inf b) (ofQ rnd n))
      generalize ofQ rnd (n : ℚ) = d at hf
      cases d with
      | fin q => exact fun h => h
      | nan => exact fun h => h
      | inf e => exact fun h => h
  have h0 : ¬ Fin ((p.set rnd n v).next rnd).cur := add_special rnd _ _ (Or.inr hstep)
  have key : ∀ (ops : List Op) (p : Interp), ¬ Fin p.cur → ¬ Fin (ops.foldl (run rnd n) p).cur := by
    intro ops
    induction ops with
    | nil => intro p h; exact h
    | cons o ops ih =>
      intro p h
      refine ih _ ?_
      cases o with
      | set v => exact h
      | next => exact add_special rnd _ _ (Or.inl h)
  exact key ops _ h0

example (rnd : ℚ → ℚ) (hr : Nearest rnd) := C195_interp_violated rnd hr 4 (by norm_num) ⟨.fin 0, .fin 0⟩ 0 rfl .nan (fun h => h) [.set (.fin 1), .next]

/-- The value of the finite model after `k` steps stays within `(k + 2) * 2^101`. -/
theorem walk_bound {rnd : ℚ → ℚ} (hr : Nearest rnd) (st : ℚ) (hst : |st| ≤ 2 ^ 101) (k : Nat) (hk : k + 2 < 2 ^ 24) (c : ℚ) (hc : |c| ≤ ((k + 1 : ℕ) : ℚ) * 2 ^ 101) :
    ofQ rnd (c + st) = .fin (rnd (c + st)) ∧ |rnd (c + st)| ≤ ((k + 2 : ℕ) : ℚ) * 2 ^ 101 := by
  have f : F32 (((k + 2 : ℕ) : ℚ) * 2 ^ 101) := ⟨(k + 2 : ℕ), 101, by rw [abs_of_nonneg (by positivity)]; exact_mod_cast hk, by norm_num, by push_cast; norm_num⟩
  have h : |c + st| ≤ ((k + 2 : ℕ) : ℚ) * 2 ^ 101 := by
    refine (abs_add_le _ _).trans ?_
    push_cast at *; linarith
  have hm : ((k + 2 : ℕ) : ℚ) * 2 ^ 101 ≤ maxF := by
    have : ((k + 2 : ℕ) : ℚ) ≤ 2 ^ 24 := by exact_mod_cast hk.le
    calc ((k + 2 : ℕ) : ℚ) * 2 ^ 101 ≤ 2 ^ 24 * 2 ^ 101 := by gcongr
      _ ≤ maxF := by norm_num [maxF]
  refine ⟨ofQ_le hr (h.trans hm), ?_⟩
  obtain ⟨a, b⟩ := abs_le.mp h
  exact abs_le.mpr ⟨hr.ge (f32_neg f) a, hr.le f b⟩

/-- **C195**: with values of magnitude at most 2^100 and fewer than 2^24 - 2 steps nothing overflows: the interpolated parameters do what C144 describes. -/
theorem C195_interp (rnd : ℚ → ℚ) (hr : Nearest rnd) (n : Nat) (hn1 : 1 ≤ n) (hn2 : n < 2 ^ 32) (p : InterpParam) (v : ℚ) (hc : |p.cur| ≤ 2 ^ 100) (hv : |v| ≤ 2 ^ 100) (s : XF) (k : Nat) (hk : k + 2 < 2 ^ 24) :
    (((Interp.next rnd)^[k] (Interp.set rnd n ⟨.fin p.cur, s⟩ (.fin v))).cur = .fin ((ParamsFloat.paramNext rnd)^[k] (ParamsFloat.paramSet rnd n p v)).cur) ∧
    (∀ t s' : XF, ((Variable.next rnd)^[k] (Variable.set rnd ⟨.fin p.cur, t, s', n⟩ (.fin v))).cur = .fin ((ParamsFloat.paramNext rnd)^[k] (ParamsFloat.paramSet rnd n p v)).cur) ∧
    (∀ t s' : XF, ((Var.next rnd)^[k] (Var.set rnd ⟨.fin p.cur, t, s'⟩ (.fin v) n)).cur = .fin ((ParamsFloat.paramNext rnd)^[k] (ParamsFloat.paramSet rnd n p v)).cur) := by
  obtain ⟨e, c⟩ := fin_of_le hr 32 (by norm_num) (q := (n : ℚ)) (by rw [abs_of_nonneg (Nat.cast_nonneg _)]; exact_mod_cast hn2.le)
  have d1 : 1 ≤ rnd n := hr.ge f32_one (by exact_mod_cast hn1)
  obtain ⟨e1, c1⟩ := fin_of_le hr 101 (by norm_num) (q := v - p.cur) (by
    have := abs_sub v p.cur
    have : (2 : ℚ) ^ 100 + 2 ^ 100 ≤ 2 ^ 101 := by norm_num
    linarith)
  obtain ⟨e2, c2⟩ := fin_of_le hr 101 (by norm_num) (q := rnd (v - p.cur) / rnd n) (by
    rw [abs_div, abs_of_pos (show 0 < rnd (n : ℚ) by linarith), div_le_iff₀ (by linarith)]
    nlinarith [abs_nonneg (rnd (v - p.cur))])
  have est : div rnd (sub rnd (.fin v) (.fin p.cur)) (ofQ rnd n) = .fin (rnd (rnd (v - p.cur) / rnd n)) := by
    rw [sub_fin, e, e1]
    simp only [div, if_neg (show ¬ rnd (n : ℚ) = 0 by linarith)]
    exact e2
  have model : ∀ k, k + 2 < 2 ^ 24 → ((ParamsFloat.paramNext rnd)^[k] (ParamsFloat.paramSet rnd n p v)).step = rnd (rnd (v - p.cur) / rnd n) ∧
      |((ParamsFloat.paramNext rnd)^[k] (ParamsFloat.paramSet rnd n p v)).cur| ≤ ((k + 1 : ℕ) : ℚ) * 2 ^ 101 := by
    intro k
    induction k with
    | zero =>
      intro _
      refine ⟨rfl, ?_⟩
      show |p.cur| ≤ _
      push_cast; norm_num at *; linarith
    | succ k ih =>
      intro hk
      obtain ⟨a, b⟩ := ih (by omega)
      rw [Function.iterate_succ_apply']
      unfold ParamsFloat.paramNext at a b ⊢
      simp only at a b ⊢
      rw [a]
      exact ⟨rfl, (walk_bound hr _ c2 k (by omega) _ b).2⟩
  have gen : ∀ (α : Type) (nx : α → α) (st : α → XF) (cur : α → XF), (∀ a, cur (nx a) = add rnd (cur a) (st a) ∧ st (nx a) = st a) → ∀ a0, cur a0 = .fin p.cur → st a0 = .fin (rnd (rnd (v - p.cur) / rnd n)) →
      cur (nx^[k] a0) = .fin ((ParamsFloat.paramNext rnd)^[k] (ParamsFloat.paramSet rnd n p v)).cur := by
    intro α nx st cur hnx a0 h0 h1
    have both : ∀ k, k + 2 < 2 ^ 24 → cur (nx^[k] a0) = .fin ((ParamsFloat.paramNext rnd)^[k] (ParamsFloat.paramSet rnd n p v)).cur ∧ st (nx^[k] a0) = .fin (rnd (rnd (v - p.cur) / rnd n)) := by
      intro k
      induction k with
      | zero => intro _; exact ⟨h0, h1⟩
      | succ k ih =>
        intro hk
        obtain ⟨a, b⟩ := ih (by omega)
        obtain ⟨ms, mb⟩ := model k (by omega)
        rw [Function.iterate_succ_apply', Function.iterate_succ_apply', (hnx _).1, (hnx _).2, a, b]
        refine ⟨?_, rfl⟩
        rw [XMath.add_fin, (walk_bound hr _ c2 k (by omega) _ mb).1]
        generalize (ParamsFloat.paramNext rnd)^[k] (ParamsFloat.paramSet rnd n p v) = z at ms
        unfold ParamsFloat.paramNext
        simp only [ms]
    exact (both k hk).1
  refine ⟨?_, ?_, ?_⟩
  · exact gen Interp (Interp.next rnd) (·.step) (·.cur) (fun a => ⟨rfl, rfl⟩) _ rfl (by unfold Interp.set; exact est)
  · intro t s'
    exact gen Variable (Variable.next rnd) (·.step) (·.cur) (fun a => ⟨rfl, rfl⟩) _ rfl (by unfold Variable.set; exact est)
  · intro t s'
    have hset : Var.set rnd ⟨.fin p.cur, t, s'⟩ (.fin v) n = ⟨.fin p.cur, .fin v, .fin (rnd (rnd (v - p.cur) / rnd n))⟩ := by
      unfold Var.set
      rw [if_pos (by omega)]
      simp only [est]
    rw [hset]
    exact gen Var (Var.next rnd) (·.step) (·.cur) (fun a => ⟨rfl, rfl⟩) _ rfl rfl

example (rnd : ℚ → ℚ) (hr : Nearest rnd) := C195_interp rnd hr 256 (by norm_num) (by norm_num) ⟨0, 0⟩ 1 (by norm_num) (by norm_num) .nan 256 (by norm_num)

/-- **C195**: InterpParamVar recovers: after snap_to_target() its value is the target whatever happened before, and the next set_new_value() (with at
least one update) leaves nothing of the history. With 0 updates the old step is kept. -/
theorem C195_snap (rnd : ℚ → ℚ) (p : Var) (v w : XF) (n m : Nat) (k : Nat) :
    ((Var.next rnd)^[k] (p.set rnd v n)).snap.cur = v ∧
    (0 < m → (((Var.next rnd)^[k] (p.set rnd v n)).snap).set rnd w m = ⟨v, w, div rnd (sub rnd w v) (ofQ rnd m)⟩) ∧
    (p.set rnd v 0 = ⟨p.cur, v, p.step⟩) := by
  have ht : ∀ k, ((Var.next rnd)^[k] (p.set rnd v n)).target = v := by
    intro k
    induction k with
    | zero => unfold Var.set; simp only [Function.iterate_zero, id]; split <;> rfl
    | succ k ih => rw [Function.iterate_succ_apply']; exact ih
  refine ⟨ht k, ?_, rfl⟩
  intro hm
  unfold Var.snap Var.set
  rw [if_pos hm]
  have := ht k
  unfold Var.set at this
  simp only [this]

/-- a target of infinity in four updates, then one of 3 in two -/
example (rnd : ℚ → ℚ) := (C195_snap rnd ⟨.fin 0, .fin 0, .fin 0⟩ (.inf false) (.fin 3) 4 2 5).2.1 (by decide)

/-- **C195, violated**: an InterpParamVariable with 0 updates loses its value too: the step is a division by zero, and from then on the value is never finite. -/
theorem C195_zero_updates_violated (rnd : ℚ → ℚ) (hr : Nearest rnd) (p : Variable) (v : XF) (k : Nat) :
    ¬ Fin ((Variable.next rnd)^[k + 1] ((p.setNum 0).set rnd v)).cur := by
  have hz : ofQ rnd ((0 : ℕ) : ℚ) = .fin 0 := by rw [Nat.cast_zero]; exact ofQ_exact hr f32_zero (by norm_num [big])
  have hs : ¬ Fin ((p.setNum 0).set rnd v).step := by
    unfold Variable.set Variable.setNum
    simp only [hz]
    generalize sub rnd v p.cur = d
    cases d with
    | nan => exact fun h => h
    | inf b => exact fun h => h
    | fin q => simp only [div, if_true]; split <;> exact fun h => h
  have hst : ∀ k, ((Variable.next rnd)^[k] ((p.setNum 0).set rnd v)).step = ((p.setNum 0).set rnd v).step := by
    intro k
    induction k with
    | zero => rfl
    | succ k ih => rw [Function.iterate_succ_apply']; exact ih
  rw [Function.iterate_succ_apply']
  exact add_special rnd _ _ (Or.inr (by rw [hst]; exact hs))

end XParam
