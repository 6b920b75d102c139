import Verif.Spec.PoolSize
import Mathlib.Algebra.BigOperators.Group.Finset.Basic
import Mathlib.Algebra.Order.BigOperators.Group.Finset
/-! # Property C235: how large a thread-safe pool must be -/
namespace TsPool.Size
open Finset

/-- Flags from `h` on that are set. -/
def A (f : List Bool) (h : Nat) : Nat := ∑ j ∈ range f.length, if h ≤ j ∧ f[j]? = some true then 1 else 0

/-- Counts a thread that is in `create()` at entry `h` or beyond. -/
def ind (h : Nat) : Local → Nat
  | .idle => 0
  | .creating i => if h ≤ i then 1 else 0

/-- The threads below `N` in `create()` at entry `h` or beyond. -/
def B (N : Nat) (loc : Nat → Local) (h : Nat) : Nat := ∑ t ∈ range N, ind h (loc t)

theorem sum_change {S : Finset Nat} {a : Nat} (ha : a ∈ S) (f g : Nat → Nat) (h : ∀ x ∈ S, x ≠ a → f x = g x) : (∑ x ∈ S, g x) + f a = (∑ x ∈ S, f x) + g a := by
  have e1 := Finset.add_sum_erase S f ha
  have e2 := Finset.add_sum_erase S g ha
  have e3 : ∑ x ∈ S.erase a, f x = ∑ x ∈ S.erase a, g x := Finset.sum_congr rfl (fun x hx => h x (Finset.mem_of_mem_erase hx) (Finset.ne_of_mem_erase hx))
  omega

theorem B_set {N t : Nat} (ht : t < N) (loc : Nat → Local) (l : Local) (h : Nat) : B N (setLoc loc t l) h + ind h (loc t) = B N loc h + ind h l := by
  have := sum_change (S := range N) (a := t) (by simpa using ht) (fun x => ind h (loc x)) (fun x => ind h (setLoc loc t l x)) (fun x _ hx => by simp [setLoc, hx])
  simpa [B, setLoc] using this

theorem A_set {f : List Bool} {i : Nat} (hi : i < f.length) (b : Bool) (h : Nat) :
    A (f.set i b) h + (if h ≤ i ∧ f[i]? = some true then 1 else 0) = A f h + (if h ≤ i ∧ b = true then 1 else 0) := by
  have := sum_change (S := range f.length) (a := i) (by simpa using hi) (fun x => if h ≤ x ∧ f[x]? = some true then 1 else 0) (fun x => if h ≤ x ∧ (f.set i b)[x]? = some true then 1 else 0)
    (fun x _ hx => by simp [List.getElem?_set_ne (Ne.symm hx)])
  simp only [List.getElem?_set_self hi, Option.some.injEq] at this
  simpa [A] using this

theorem A_step {f : List Bool} {i : Nat} (hi : f[i]? = some true) : A f (i + 1) + 1 ≤ A f i := by
  have hl := (List.getElem?_eq_some_iff.mp hi).1
  have := sum_change (S := range f.length) (a := i) (by simpa using hl) (fun x => if i ≤ x ∧ f[x]? = some true then 1 else 0) (fun x => if i + 1 ≤ x ∧ f[x]? = some true then 1 else 0)
    (fun x _ hx => by
      by_cases c : i ≤ x
      · simp [c, show i + 1 ≤ x by omega]
      · simp [c, show ¬ i + 1 ≤ x by omega])
  simp [hi] at this
  simp only [A]
  omega

theorem B_step {N t i : Nat} (ht : t < N) {loc : Nat → Local} (hl : loc t = .creating i) : B N loc (i + 1) + 1 ≤ B N loc i := by
  have h1 : ∑ x ∈ (range N).erase t, ind (i + 1) (loc x) ≤ ∑ x ∈ (range N).erase t, ind i (loc x) := Finset.sum_le_sum fun x _ => by
    cases loc x with
    | idle => exact le_refl _
    | creating k =>
      simp only [ind]
      by_cases c : i ≤ k
      · simp only [c, if_true]; split <;> omega
      · simp [c, show ¬ i + 1 ≤ k by omega]
  have e1 := Finset.add_sum_erase (range N) (fun x => ind (i + 1) (loc x)) (a := t) (by simpa using ht)
  have e2 := Finset.add_sum_erase (range N) (fun x => ind i (loc x)) (a := t) (by simpa using ht)
  have e3 : ind (i + 1) (loc t) = 0 := by simp [hl, ind]
  have e4 : ind i (loc t) = 1 := by simp [hl, ind]
  simp only [B]
  omega

theorem B_pos {N t i : Nat} (ht : t < N) {loc : Nat → Local} (hl : loc t = .creating i) : 1 ≤ B N loc i := by
  have := B_step ht hl; omega

/-- The invariant: entry `h` and those beyond are wanted or held by at most `K - h`. -/
structure Inv (N K : Nat) (c : Cfg) (d : Int) : Prop where
  le : ∀ h, A c.flags h + B N c.loc h ≤ K - h
  eq : d = A c.flags 0 + B N c.loc 0

theorem inv_step {N K : Nat} {c c' : Cfg} {t : Nat} {a : Act} {es : List Event} {d : Int} (h : Inv N K c d) (ht : t < N) (hs : step c t a = some (c', es)) (hd : demand d a es ≤ K) :
    Inv N K c' (demand d a es) ∧ (c'.flags.length = c.flags.length) ∧ (∀ u i, .created u i ∈ es → i < K) ∧ (∀ u, .failed u ∈ es → c.flags.length < K) := by
  have hd0 := h.eq
  cases a with
  | startCreate =>
    simp only [step] at hs
    split at hs
    · next hi =>
      cases hs
      simp only [demand, List.foldl_nil, if_true] at hd ⊢
      have e0 := B_set ht c.loc (.creating 0) 0
      simp only [hi, ind] at e0
      simp at e0
      refine ⟨⟨fun m => ?_, by simp only; omega⟩, by simp, by simp, by simp⟩
      have e := B_set ht c.loc (.creating 0) m
      simp only [hi, ind] at e
      have := h.le m
      by_cases hm : m = 0
      · subst hm; simp only; omega
      · simp only [show ¬ m ≤ 0 by omega, if_false] at e; simp only; omega
    · cases hs
  | cas =>
    simp only [step] at hs
    split at hs
    · next i hi =>
      have hb := B_pos ht hi
      have hik := h.le i
      split at hs
      · next hf =>
        have hl := (List.getElem?_eq_some_iff.mp hf).1
        cases hs
        simp only [demand, List.foldl_cons, List.foldl_nil] at hd ⊢
        have key : ∀ m, A (c.flags.set i true) m + B N (setLoc c.loc t .idle) m = A c.flags m + B N c.loc m := by
          intro m
          have e1 := A_set hl true m
          have e2 := B_set ht c.loc .idle m
          simp only [hi, ind, hf] at e1 e2
          simp at e1 e2
          split at e1 <;> simp_all <;> omega
        refine ⟨⟨fun m => by simp only [key m]; exact h.le m, by simp only; rw [← Int.natCast_add, key 0]; simpa using hd0⟩, by simp, fun u j hu => ?_, by simp⟩
        simp at hu
        omega
      · next hf =>
        cases hs
        simp only [demand, List.foldl_nil] at hd ⊢
        refine ⟨⟨fun m => ?_, ?_⟩, by simp, by simp, by simp⟩
        · have e := B_set ht c.loc (.creating (i + 1)) m
          simp only [hi, ind] at e
          have hm := h.le m
          by_cases c1 : m = i + 1
          · subst c1
            simp at e
            have := A_step hf
            have := B_step ht hi
            simp only
            omega
          · by_cases c2 : m ≤ i
            · simp only [c2, show m ≤ i + 1 by omega, if_true] at e; simp only; omega
            · simp only [c2, show ¬ m ≤ i + 1 by omega, if_false] at e; simp only; omega
        · have e := B_set ht c.loc (.creating (i + 1)) 0
          simp only [hi, ind, Nat.zero_le, if_true] at e
          simp only
          simp
          omega
      · cases hs
    · cases hs
  | endCreate =>
    simp only [step] at hs
    split at hs
    · next i hi =>
      have hb := B_pos ht hi
      have hik := h.le i
      split at hs
      · cases hs
      · next hl =>
        cases hs
        simp only [demand, List.foldl_cons, List.foldl_nil] at hd ⊢
        refine ⟨⟨fun m => ?_, ?_⟩, by simp, by simp, fun u _ => by omega⟩
        · have e := B_set ht c.loc .idle m
          have := h.le m
          simp only [ind] at e
          simp only
          omega
        · have e := B_set ht c.loc .idle 0
          simp only [hi, ind, Nat.zero_le, if_true] at e
          simp
          omega
    · cases hs
  | destroy i =>
    simp only [step] at hs
    split at hs
    · split at hs
      · next hl =>
        split at hs
        · next hf =>
          cases hs
          simp only [demand, List.foldl_cons, List.foldl_nil] at hd ⊢
          refine ⟨⟨fun m => ?_, ?_⟩, by simp, by simp, by simp⟩
          · have e := A_set hl false m
            have := h.le m
            simp at e
            simp only
            split at e <;> omega
          · have e := A_set hl false 0
            simp [hf] at e
            simp
            omega
        · cases hs; exact ⟨by simpa [demand] using h, rfl, by simp, by simp⟩
      · cases hs; exact ⟨by simpa [demand] using h, rfl, by simp, by simp⟩
    · cases hs
  | isUsed i =>
    simp only [step] at hs
    split at hs
    · split at hs <;> cases hs <;> exact ⟨by simpa [demand] using h, rfl, by simp, by simp⟩
    · cases hs

theorem demand_head {m d : Int} {l : List (Nat × Act × List Event)} (h : DemandAtMost m d l) : d ≤ m := by
  cases l with
  | nil => exact h
  | cons x l => exact h.1

theorem inv_run {N K : Nat} : ∀ (sched : List (Nat × Act)) (c c' : Cfg) (es : List Event) (d : Int), Inv N K c d → (∀ p ∈ sched, p.1 < N) → run c sched = some (c', es) →
    DemandAtMost K d (TsPool.Spec.trace c sched) → (∀ u i, .created u i ∈ es → i < K) ∧ (∀ u, .failed u ∈ es → c.flags.length < K) := by
  intro sched
  induction sched with
  | nil => intro c c' es d _ _ hr _; simp only [run, Option.some.injEq, Prod.mk.injEq] at hr; obtain ⟨_, rfl⟩ := hr; simp
  | cons p l ih =>
    obtain ⟨t, a⟩ := p
    intro c c' es d hi hN hr hd
    simp only [run] at hr
    split at hr
    · cases hr
    · next c1 e1 h1 =>
      split at hr
      · cases hr
      · next c2 e2 h2 =>
        cases hr
        simp only [TsPool.Spec.trace, h1] at hd
        obtain ⟨i1, i2, i3, i4⟩ := inv_step hi (hN _ (List.mem_cons_self ..)) h1 (demand_head hd.2)
        obtain ⟨k1, k2⟩ := ih c1 _ e2 _ i1 (fun p hp => hN p (List.mem_cons_of_mem _ hp)) h2 hd.2
        rw [i2] at k2
        simp only [List.mem_append]
        exact ⟨fun u i h => h.elim (i3 u i) (k1 u i), fun u h => h.elim (i4 u) (k2 u)⟩

theorem bound (l : List (Nat × Act)) : ∃ N, ∀ p ∈ l, p.1 < N := by
  induction l with
  | nil => exact ⟨0, by simp⟩
  | cons p l ih =>
    obtain ⟨N, h⟩ := ih
    refine ⟨max N (p.1 + 1), fun q hq => ?_⟩
    rcases List.mem_cons.1 hq with rfl | hq
    · omega
    · have := h q hq; omega

theorem inv_init (N K n : Nat) : Inv N K (init n) 0 := by
  have hA : ∀ h, A (init n).flags h = 0 := fun h => by
    refine Finset.sum_eq_zero fun j _ => if_neg ?_
    simp [init, List.getElem?_replicate]
  have hB : ∀ h, B N (init n).loc h = 0 := fun h => by simp [B, init, ind]
  exact ⟨fun h => by rw [hA, hB]; omega, by rw [hA, hB]; rfl⟩

/-- **C235**: any number of threads, any schedule: if the entries in use and the running calls of `create()` together are never more than `K`, every index that `create()` returns is below `K`, however large the pool is; and if the pool
has at least `K` entries, `create()` never fails. -/
theorem C235_demand (n K : Nat) (sched : List (Nat × Act)) (c : Cfg) (es : List Event) (hr : run (init n) sched = some (c, es)) (hd : DemandAtMost K 0 (TsPool.Spec.trace (init n) sched)) :
    (∀ t i, .created t i ∈ es → i < K) ∧ (K ≤ n → ∀ t, .failed t ∉ es) := by
  obtain ⟨N, hN⟩ := bound sched
  obtain ⟨h1, h2⟩ := inv_run sched (init n) c es 0 (inv_init N K n) hN hr hd
  refine ⟨h1, fun hK t ht => ?_⟩
  have := h2 t ht
  simp [init] at this
  omega

/-- Three threads and three entries; thread 2 sees entries 0 and 1 in use and gets entry 2. -/
example : (run (init 3) [(0, .startCreate), (1, .startCreate), (2, .startCreate), (0, .cas), (2, .cas), (1, .cas), (0, .destroy 0), (1, .cas), (2, .cas), (2, .cas)]).map (·.2) =
      some [.created 0 0, .destroyed 0 0 true, .created 1 1, .created 2 2] ∧
    DemandAtMost 3 0 (TsPool.Spec.trace (init 3) [(0, .startCreate), (1, .startCreate), (2, .startCreate), (0, .cas), (2, .cas), (1, .cas), (0, .destroy 0), (1, .cas), (2, .cas), (2, .cas)]) := by
  refine ⟨by decide, ?_⟩
  have e : TsPool.Spec.trace (init 3) [(0, .startCreate), (1, .startCreate), (2, .startCreate), (0, .cas), (2, .cas), (1, .cas), (0, .destroy 0), (1, .cas), (2, .cas), (2, .cas)] =
      [(0, .startCreate, []), (1, .startCreate, []), (2, .startCreate, []), (0, .cas, [.created 0 0]), (2, .cas, []), (1, .cas, []), (0, .destroy 0, [.destroyed 0 0 true]), (1, .cas, [.created 1 1]), (2, .cas, []), (2, .cas, [.created 2 2])] := by decide
  rw [e]
  simp [DemandAtMost, demand]

/-- Steps during which at most one entry is in use. -/
inductive Path : Cfg → Int → Cfg → Int → Prop
  | refl (c : Cfg) (u : Int) : Path c u c u
  | step {c c1 c2 : Cfg} {u u2 : Int} (t : Nat) (a : Act) (es : List Event) (hs : step c t a = some (c1, es)) (hu : es.foldl use u ≤ 1) (h : Path c1 (es.foldl use u) c2 u2) : Path c u c2 u2

theorem Path.trans {c1 c2 c3 : Cfg} {u1 u2 u3 : Int} (h : Path c1 u1 c2 u2) (k : Path c2 u2 c3 u3) : Path c1 u1 c3 u3 := by
  induction h with
  | refl => exact k
  | step t a es hs hu _ ih => exact .step t a es hs hu (ih k)

theorem Path.one {c c' : Cfg} {u u' : Int} {t : Nat} {a : Act} {es : List Event} (hs : TsPool.step c t a = some (c', es)) (hu : es.foldl use u = u') (h1 : u' ≤ 1) : Path c u c' u' := by
  subst hu; exact .step t a es hs h1 (.refl _ _)

theorem path_fail {c c2 c3 : Cfg} {u u2 : Int} {t : Nat} (h : Path c u c2 u2) (hu : u ≤ 1) (hf : step c2 t .endCreate = some (c3, [.failed t])) :
    ∃ sched c' es, run c sched = some (c', es) ∧ UseAtMost 1 u (TsPool.Spec.trace c sched) ∧ .failed t ∈ es := by
  induction h with
  | refl c u => exact ⟨[(t, .endCreate)], c3, [.failed t], by simp [run, hf], by simp [TsPool.Spec.trace, hf, UseAtMost, use, hu], by simp⟩
  | step s a es hs hu1 _ ih =>
    obtain ⟨l, c', es', k1, k2, k3⟩ := ih hu1 hf
    exact ⟨(s, a) :: l, c', es ++ es', by simp [run, hs, k1], by simp only [TsPool.Spec.trace, hs]; exact ⟨hu, k2⟩, by simp [k3]⟩

theorem path_start (n k : Nat) : ∃ c, Path (init n) 0 c 0 ∧ c.flags = List.replicate n false ∧ (∀ t, t < k → c.loc t = .creating 0) ∧ ∀ t, k ≤ t → c.loc t = .idle := by
  induction k with
  | zero => exact ⟨init n, .refl _ _, rfl, by simp, fun _ _ => rfl⟩
  | succ k ih =>
    obtain ⟨c, p, f, h1, h2⟩ := ih
    refine ⟨{ c with loc := setLoc c.loc k (.creating 0) }, p.trans (Path.one (t := k) (a := .startCreate) (es := []) (by simp [step, h2 k (Nat.le_refl _)]) rfl (by decide)), f, fun t ht => ?_, fun t ht => ?_⟩
    · simp only [setLoc]; split
      · rfl
      · exact h1 t (by omega)
    · simp only [setLoc]; rw [if_neg (by omega)]; exact h2 t (by omega)

theorem path_pass {n r : Nat} {c1 : Cfg} (hr : r < n) (f1 : c1.flags = (List.replicate n false).set r true) (i1 : c1.loc r = .idle) (l1 : ∀ t, r < t → t ≤ n → c1.loc t = .creating r) (k : Nat) (hk : r + k ≤ n) :
    ∃ c, Path c1 1 c 1 ∧ c.flags = c1.flags ∧ c.loc r = .idle ∧ (∀ t, r < t → t ≤ r + k → c.loc t = .creating (r + 1)) ∧ ∀ t, r + k < t → t ≤ n → c.loc t = .creating r := by
  induction k with
  | zero => exact ⟨c1, .refl _ _, rfl, i1, fun t _ _ => by omega, fun t h h' => l1 t (by omega) h'⟩
  | succ k ih =>
    obtain ⟨c, p, f, i, h1, h2⟩ := ih (by omega)
    have hc := h2 (r + k + 1) (by omega) (by omega)
    have hf : c.flags[r]? = some true := by rw [f, f1]; exact List.getElem?_set_self (by simpa using hr)
    refine ⟨{ c with loc := setLoc c.loc (r + k + 1) (.creating (r + 1)) }, p.trans (Path.one (t := r + k + 1) (a := .cas) (es := []) (by simp [step, hc, hf]) rfl (by decide)), f, ?_, fun t h h' => ?_, fun t h h' => ?_⟩
    · simp only [setLoc]; rw [if_neg (by omega)]; exact i
    · simp only [setLoc]; split
      · rfl
      · exact h1 t h (by omega)
    · simp only [setLoc]; rw [if_neg (by omega)]; exact h2 t (by omega) h'

theorem path_round {n r : Nat} {c : Cfg} (hr : r < n) (f : c.flags = List.replicate n false) (h : ∀ t, r ≤ t → t ≤ n → c.loc t = .creating r) :
    ∃ c', Path c 0 c' 0 ∧ c'.flags = List.replicate n false ∧ ∀ t, r + 1 ≤ t → t ≤ n → c'.loc t = .creating (r + 1) := by
  have hc := h r (Nat.le_refl _) (by omega)
  have hf : c.flags[r]? = some false := by rw [f]; simp [hr]
  have p1 : Path c 0 ⟨c.flags.set r true, setLoc c.loc r .idle⟩ 1 := Path.one (t := r) (a := .cas) (es := [.created r r]) (by simp [step, hc, hf]) rfl (by decide)
  obtain ⟨c2, p2, f2, i2, h2, _⟩ := path_pass (c1 := ⟨c.flags.set r true, setLoc c.loc r .idle⟩) hr (by rw [f]) (by simp [setLoc]) (fun t a b => by simp only [setLoc]; rw [if_neg (by omega)]; exact h t (by omega) b) (n - r) (by omega)
  have hl : r < c2.flags.length := by rw [f2, f]; simpa using hr
  have ht : c2.flags[r]? = some true := by rw [f2, f]; exact List.getElem?_set_self (by simpa using hr)
  have e : c2.flags.set r false = List.replicate n false := by
    rw [f2, f, List.set_set]
    exact List.ext_getElem? fun j => by rw [List.getElem?_set]; split <;> simp_all [List.getElem?_replicate]
  exact ⟨{ c2 with flags := c2.flags.set r false }, (p1.trans p2).trans (Path.one (t := r) (a := .destroy r) (es := [.destroyed r r true]) (by simp [step, i2, hl, (List.getElem?_eq_some_iff.mp ht).2]) rfl (by decide)), e, fun t a b => h2 t (by omega) (by omega)⟩

theorem path_rounds (n r : Nat) (hr : r ≤ n) : ∃ c, Path (init n) 0 c 0 ∧ c.flags = List.replicate n false ∧ ∀ t, r ≤ t → t ≤ n → c.loc t = .creating r := by
  induction r with
  | zero =>
    obtain ⟨c, p, f, h, _⟩ := path_start n (n + 1)
    exact ⟨c, p, f, fun t _ ht => h t (by omega)⟩
  | succ r ih =>
    obtain ⟨c, p, f, h⟩ := ih (by omega)
    obtain ⟨c', p', f', h'⟩ := path_round (by omega) f h
    exact ⟨c', p.trans p', f', h'⟩

/-- **C235**, the entries in use alone do not decide it: however large the pool is, there is a schedule of it in which a call of `create()` fails although at no time more than one entry is in use. -/
theorem C235_in_use_alone_violated (n : Nat) : ∃ sched c es t, run (init n) sched = some (c, es) ∧ UseAtMost 1 0 (TsPool.Spec.trace (init n) sched) ∧ .failed t ∈ es := by
  obtain ⟨c, p, f, h⟩ := path_rounds n n (Nat.le_refl _)
  have hc := h n (Nat.le_refl _) (Nat.le_refl _)
  obtain ⟨l, c', es, h1, h2, h3⟩ := path_fail (t := n) (c3 := { c with loc := setLoc c.loc n .idle }) p (by decide) (by simp [step, hc, f])
  exact ⟨l, c', es, n, h1, h2, h3⟩

/-- Two entries, three threads: thread 2 sees entry 0 in use by thread 0, and then entry 1 in use by thread 1. -/
example : (run (init 2) [(0, .startCreate), (1, .startCreate), (2, .startCreate), (0, .cas), (2, .cas), (1, .cas), (0, .destroy 0), (1, .cas), (2, .cas), (2, .endCreate)]).map (·.2) =
      some [.created 0 0, .destroyed 0 0 true, .created 1 1, .failed 2] := by decide

end TsPool.Size
