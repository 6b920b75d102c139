import Verif.Spec.XNeon
/-! # C245: the portable vector operations in place of the processor's -/
namespace XNeon
open XFlt XNeon.Spec

theorem max_nan_right (x : XF) : XMath.max x .nan = .nan := by cases x <;> rfl

theorem max_nan_left (x : XF) : XMath.max .nan x = x := by cases x <;> rfl

theorem max_eq_larger {x y : XF} (hx : x ≠ .nan) (hy : y ≠ .nan) : XMath.max x y = larger x y := by
  unfold larger
  rw [if_neg (by simp [hx, hy])]
  cases x with
  | nan => exact absurd rfl hx
  | inf s =>
    cases y with
    | nan => exact absurd rfl hy
    | inf t => cases s <;> cases t <;> rfl
    | fin y => cases s <;> rfl
  | fin x =>
    cases y with
    | nan => exact absurd rfl hy
    | inf t => cases t <;> rfl
    | fin y =>
      unfold XMath.max
      by_cases h : x ≤ y
      · rw [if_neg (by simpa [lt] using h), if_pos (by simpa [le] using h)]
      · rw [if_pos (by simpa [lt] using h), if_neg (by simpa [le] using h)]

/-- **C245, exactly when** the maximum of two floats is the processor's: unless the first is NaN and the second is not. -/
theorem C245_max_exact (x y : XF) : XMath.max x y = larger x y ↔ (x = .nan → y = .nan) := by
  by_cases hx : x = .nan
  · subst hx
    rw [max_nan_left]
    unfold larger
    simp
  · by_cases hy : y = .nan
    · subst hy
      rw [max_nan_right]
      simp [larger]
    · simp [max_eq_larger hx hy, hx]

example : XMath.max .nan (.fin 1) = .fin 1 ∧ larger .nan (.fin 1) = .nan ∧ XMath.max (.fin 1) .nan = .nan := by decide +kernel

theorem vmax_eq {x y : X4} (ha : x.a = .nan → y.a = .nan) (hb : x.b = .nan → y.b = .nan) (hc : x.c = .nan → y.c = .nan)
    (hd : x.d = .nan → y.d = .nan) : vmax x y = hmax x y := by
  unfold vmax hmax
  rw [(C245_max_exact _ _).2 ha, (C245_max_exact _ _).2 hb, (C245_max_exact _ _).2 hc, (C245_max_exact _ _).2 hd]

theorem set_agree {s t : Nat → X4} {u : Nat → Prop} (h : ∀ v, ¬ u v → s v = t v) (i : Nat) {a b : X4} (e : a = b) :
    ∀ v, ¬ (v ≠ i ∧ u v) → set s i a v = set t i b v := by
  intro v hv
  unfold set
  by_cases hi : v = i
  · rw [if_pos hi, if_pos hi, e]
  · rw [if_neg hi, if_neg hi]
    exact h v fun hu => hv ⟨hi, hu⟩

theorem step_agree (rnd : ℚ → ℚ) (ma : XF → XF → XF → XF) {s t : Nat → X4} {u : Nat → Prop} (h : ∀ v, ¬ u v → s v = t v) (p : Stmt)
    (hr : ∀ v ∈ reads p, ¬ u v) (hm : MaxFine t p) : ∀ v, ¬ used u p v → step rnd ma s p v = hstep rnd ma t p v := by
  cases p with
  | dup i x => exact set_agree h i rfl
  | load i x => exact set_agree h i rfl
  | mul i x y =>
    have hx := h x (hr x (by simp [reads]))
    have hy := h y (hr y (by simp [reads]))
    exact set_agree h i (by rw [hx, hy])
  | sub i x y =>
    have hx := h x (hr x (by simp [reads]))
    have hy := h y (hr y (by simp [reads]))
    exact set_agree h i (by rw [hx, hy])
  | max i x y =>
    have hx := h x (hr x (by simp [reads]))
    have hy := h y (hr y (by simp [reads]))
    exact set_agree h i (by rw [hx, hy]; exact vmax_eq hm.1 hm.2.1 hm.2.2.1 hm.2.2.2)
  | mla i acc x y =>
    have ha := h acc (hr acc (by simp [reads]))
    have hx := h x (hr x (by simp [reads]))
    have hy := h y (hr y (by simp [reads]))
    intro v hv
    show set (set s acc _) i _ v = set t i _ v
    rw [ha, hx, hy]
    unfold set
    by_cases hi : v = i
    · rw [if_pos hi, if_pos hi]
    · rw [if_neg hi, if_neg hi]
      have hv2 : ¬ (u v ∨ v = acc) := fun hu => hv ⟨hi, hu⟩
      rw [if_neg fun e => hv2 (.inr e)]
      exact h v fun hu => hv2 (.inl hu)

theorem run_agree (rnd : ℚ → ℚ) (ma : XF → XF → XF → XF) (out : Nat) (l : List Stmt) : ∀ (s t : Nat → X4) (u : Nat → Prop),
    (∀ v, ¬ u v → s v = t v) → Fine rnd ma out u t l → run rnd ma s l out = hrun rnd ma t l out := by
  induction l with
  | nil => intro s t u h hf; exact h out hf
  | cons p l ih =>
    intro s t u h hf
    exact ih _ _ _ (step_agree rnd ma h p hf.1 hf.2.1) hf.2.2

/-- **C245 (partial)**: every program over vector variables computes with the portable operations what it computes on the processor, with
every rounding, fused or not, and with NaN and infinities, if it never reads a variable after handing it to `vmlaq_f32` as the accumulator
(unless it was assigned since) and takes no maximum of NaN and a number in this order. Missing: those programs (see below). -/
theorem C245_programs_partial (rnd : ℚ → ℚ) (ma : XF → XF → XF → XF) (out : Nat) (l : List Stmt) (s : Nat → X4)
    (h : Fine rnd ma out (fun _ => False) s l) : run rnd ma s l out = hrun rnd ma s l out :=
  run_agree rnd ma out l s s _ (fun _ _ => rfl) h

/-- `acc = vmlaq_f32(acc, x, y); y = vmaxq_f32(x, acc); r = vmlaq_f32(y, x, acc); y = vsubq_f32(r, acc)` -/
example (s : Nat → X4) (hn : (s 1).a ≠ .nan ∧ (s 1).b ≠ .nan ∧ (s 1).c ≠ .nan ∧ (s 1).d ≠ .nan) (rnd : ℚ → ℚ) (ma : XF → XF → XF → XF) :
    Fine rnd ma 2 (fun _ => False) s [.mla 0 0 1 2, .max 2 1 0, .mla 3 2 1 0, .sub 2 3 0] := by
  simp [Fine, reads, MaxFine, used, dest, hstep, set, hn]

/-- **C245**: in particular every program, without maxima, that stores the result of each `vmlaq_f32` in its accumulator. -/
theorem C245_in_place (rnd : ℚ → ℚ) (ma : XF → XF → XF → XF) (l : List Stmt) (s : Nat → X4)
    (h1 : ∀ i acc x y, Stmt.mla i acc x y ∈ l → i = acc) (h2 : ∀ i x y, Stmt.max i x y ∉ l) :
    run rnd ma s l = hrun rnd ma s l := by
  have key : ∀ (l : List Stmt) (u : Nat → Prop) (t : Nat → X4) (out : Nat), (∀ v, ¬ u v) →
      (∀ i acc x y, Stmt.mla i acc x y ∈ l → i = acc) → (∀ i x y, Stmt.max i x y ∉ l) → Fine rnd ma out u t l := by
    intro l
    induction l with
    | nil => intro u t out hu _ _; exact hu out
    | cons p l ih =>
      intro u t out hu h1 h2
      refine ⟨fun v _ => hu v, ?_, ih _ _ _ ?_ (fun i acc x y h => h1 i acc x y (List.mem_cons_of_mem _ h))
        (fun i x y h => h2 i x y (List.mem_cons_of_mem _ h))⟩
      · cases p with
        | max i x y => exact absurd (List.mem_cons_self ..) (h2 i x y)
        | _ => trivial
      · intro v hv
        cases p with
        | mla i acc x y =>
          have e := h1 i acc x y (List.mem_cons_self ..)
          rcases hv with ⟨hv1, hv2 | hv2⟩
          · exact hu v hv2
          · exact hv1 (hv2.trans e.symm)
        | _ => exact hu v hv.2
  funext out
  exact C245_programs_partial rnd ma out l s (key l _ s out (fun _ h => h) h1 h2)

example : (∀ i acc x y, Stmt.mla i acc x y ∈ [Stmt.mla 0 0 1 2, .sub 1 0 2] → i = acc) ∧
    (∀ i x y, Stmt.max i x y ∉ [Stmt.mla 0 0 1 2, .sub 1 0 2]) := by
  constructor
  · intro i acc x y h; simp at h; omega
  · intro i x y h; simp at h

/-- **C245 is violated**: `vmlaq_f32` changes the variable it is given: whatever the values, after `r = vmlaq_f32(acc, x, y)` the variable
`acc` holds the result with the portable operations, and its own value on the processor; with `acc = 1`, `x = y = 2`, `acc` becomes 5. -/
theorem C245_accumulator_violated :
    (∀ (rnd : ℚ → ℚ) (ma : XF → XF → XF → XF) (s : Nat → X4), run rnd ma s [.mla 3 0 1 2] 0 = vmla ma (s 0) (s 1) (s 2) ∧
      hrun rnd ma s [.mla 3 0 1 2] 0 = s 0) ∧
    run id (fun d x y => add id d (XFlt.mul id x y)) (fun v => vdup (if v = 0 then .fin 1 else .fin 2)) [.mla 3 0 1 2] 0 = vdup (.fin 5) := by
  refine ⟨fun rnd ma s => ⟨by simp [run, step, set], by simp [hrun, hstep, set]⟩, by decide +kernel⟩

theorem peak_nan (l : List X4) (f : X4 → XF) (hf : ∀ x y, f (vmax x y) = XMath.max (f x) (f y)) : ∀ m, (∀ x ∈ l, f x ≠ .nan) → f m ≠ .nan →
    f (peak m l) ≠ .nan ∧ (f (peak m l) = f m ∨ ∃ x ∈ l, f (peak m l) = f x) ∧ lt (f (peak m l)) (f m) = false ∧
      ∀ x ∈ l, lt (f (peak m l)) (f x) = false := by
  have irr : ∀ a : XF, lt a a = false := by intro a; cases a with
    | nan => rfl
    | inf b => cases b <;> rfl
    | fin q => simp [lt]
  have tr : ∀ a b c : XF, b ≠ .nan → lt a b = false → lt b c = false → lt a c = false := by
    intro a b c hb h1 h2
    cases a with
    | nan => rfl
    | inf s => cases b with
      | nan => exact absurd rfl hb
      | inf t => cases c with
        | nan => rfl
        | inf r => cases s <;> cases t <;> cases r <;> simp_all [lt]
        | fin q => cases s <;> cases t <;> simp_all [lt]
      | fin b => cases c with
        | nan => rfl
        | inf r => cases s <;> cases r <;> simp_all [lt]
        | fin q => cases s <;> simp_all [lt]
    | fin a => cases b with
      | nan => exact absurd rfl hb
      | inf t => cases c with
        | nan => rfl
        | inf r => cases t <;> cases r <;> simp_all [lt]
        | fin q => cases t <;> simp_all [lt]
      | fin b => cases c with
        | nan => rfl
        | inf r => cases r <;> simp_all [lt]
        | fin q =>
          simp only [lt, decide_eq_false_iff_not, not_lt] at h1 h2 ⊢
          exact h2.trans h1
  induction l with
  | nil =>
    intro m _ hm
    exact ⟨hm, .inl rfl, irr _, by simp⟩
  | cons x l ih =>
    intro m h hm
    have hx : f x ≠ .nan := h x (List.mem_cons_self ..)
    have hmx : f (vmax m x) ≠ .nan ∧ (f (vmax m x) = f m ∨ f (vmax m x) = f x) ∧ lt (f (vmax m x)) (f m) = false ∧
        lt (f (vmax m x)) (f x) = false := by
      rw [hf]
      unfold XMath.max
      by_cases hl : lt (f x) (f m) = true
      · rw [if_pos hl]
        refine ⟨hm, .inl rfl, irr _, ?_⟩
        by_contra hc
        have hc' : lt (f m) (f x) = true := by simpa using hc
        revert hl hc'
        cases f x with
        | nan => simp [lt]
        | inf s => cases f m with
          | nan => simp [lt]
          | inf t => cases s <;> cases t <;> simp [lt]
          | fin q => cases s <;> simp [lt]
        | fin p => cases f m with
          | nan => simp [lt]
          | inf t => cases t <;> simp [lt]
          | fin q => simp only [lt, decide_eq_true_eq]; intro a b; exact absurd (a.trans b) (lt_irrefl _)
      · rw [if_neg hl]
        exact ⟨hx, .inr rfl, by simpa using hl, irr _⟩
    obtain ⟨h1, h2, h3, h4⟩ := ih (vmax m x) (fun y hy => h y (List.mem_cons_of_mem _ hy)) hmx.1
    refine ⟨h1, ?_, tr _ _ _ hmx.1 h3 hmx.2.2.1, ?_⟩
    · rcases h2 with h2 | ⟨y, hy, h2⟩
      · rcases hmx.2.1 with e | e
        · exact .inl (h2.trans e)
        · exact .inr ⟨x, List.mem_cons_self .., h2.trans e⟩
      · exact .inr ⟨y, List.mem_cons_of_mem _ hy, h2⟩
    · intro y hy
      rcases List.mem_cons.1 hy with rfl | hy
      · exact tr _ _ _ hmx.1 h3 hmx.2.2.2
      · exact h4 y hy

theorem peak_append (l l' : List X4) : ∀ m, peak m (l ++ l') = peak (peak m l) l' := by
  induction l with
  | nil => intro m; rfl
  | cons x l ih => intro m; exact ih _

/-- **C245 (partial)**: the running maximum `peak = vmaxq_f32(peak, x)` over a stream without NaN is, in each lane, one of the values that
lane has had, and none of them is larger. -/
theorem C245_peak_partial (m : X4) (l : List X4) (f : X4 → XF) (hf : f ∈ [X4.a, X4.b, X4.c, X4.d]) (hn : ∀ x ∈ m :: l, f x ≠ .nan) :
    (∃ x ∈ m :: l, f (peak m l) = f x) ∧ ∀ x ∈ m :: l, lt (f (peak m l)) (f x) = false := by
  have hf' : ∀ x y, f (vmax x y) = XMath.max (f x) (f y) := by
    intro x y
    simp only [List.mem_cons, List.not_mem_nil, or_false] at hf
    rcases hf with rfl | rfl | rfl | rfl <;> rfl
  obtain ⟨_, h2, h3, h4⟩ := peak_nan l f hf' m (fun x hx => hn x (List.mem_cons_of_mem _ hx)) (hn m (List.mem_cons_self ..))
  constructor
  · rcases h2 with h2 | ⟨x, hx, h2⟩
    · exact ⟨m, List.mem_cons_self .., h2⟩
    · exact ⟨x, List.mem_cons_of_mem _ hx, h2⟩
  · intro x hx
    rcases List.mem_cons.1 hx with rfl | hx
    · exact h3
    · exact h4 x hx

example : X4.b ∈ [X4.a, X4.b, X4.c, X4.d] ∧
    X4.b (peak (vdup (.fin 0)) [⟨.fin 1, .fin 3, .nan, .inf true⟩, ⟨.fin 2, .fin 2, .fin 1, .inf false⟩]) = .fin 3 := by
  refine ⟨by simp, by decide +kernel⟩

/-- **C245 is violated**: one NaN in the stream erases the maximum: whatever came before, the running maximum is that of the samples after
the last NaN. (On the processor it stays NaN, so the fault is seen.) -/
theorem C245_peak_violated (m n x : X4) (l l' : List X4) (f : X4 → XF) (hf : f ∈ [X4.a, X4.b, X4.c, X4.d]) (hn : f n = .nan) :
    f (peak m (l ++ n :: x :: l')) = f (peak x l') := by
  have hf' : ∀ x y, f (vmax x y) = XMath.max (f x) (f y) := by
    intro x y
    simp only [List.mem_cons, List.not_mem_nil, or_false] at hf
    rcases hf with rfl | rfl | rfl | rfl <;> rfl
  have cong : ∀ (l : List X4) (a b : X4), f a = f b → f (peak a l) = f (peak b l) := by
    intro l
    induction l with
    | nil => intro a b e; exact e
    | cons y l ih => intro a b e; exact ih _ _ (by rw [hf', hf', e])
  rw [peak_append]
  show f (peak (vmax (vmax (peak m l) n) x) l') = _
  apply cong
  rw [hf', hf', hn, max_nan_right, max_nan_left]

example : X4.a (peak (vdup (.fin 9)) [vdup (.fin 100), vdup .nan, vdup (.fin 1), vdup (.fin 2)]) = .fin 2 := by decide +kernel

end XNeon
