import Verif.Spec.FVMove
import Verif.Props.FixedVector
/-! # Property C202: moved-from and removed elements of FixedVector -/
namespace FixedVector
variable {T : Type}

theorem moveFwd_spec (mv : T → T) (n : Nat) : ∀ (data : List T) (f d : Nat), d < f → f + n ≤ data.length →
    ∃ out, moveFwd mv n data f d = .ok out ∧ out.length = data.length ∧
      ∀ i : Nat, out[i]? = if d ≤ i ∧ i < d + n then data[i + (f - d)]? else if f ≤ i ∧ i < f + n then data[i]?.map mv else data[i]? := by
  induction n with
  | zero => intro data f d _ _; exact ⟨data, rfl, rfl, fun i => by rw [if_neg (by omega), if_neg (by omega)]⟩
  | succ n ih =>
    intro data f d hd hl
    have hf : f < data.length := by omega
    obtain ⟨out, h1, h2, h3⟩ := ih ((data.set f (mv data[f])).set d data[f]) (f + 1) (d + 1) (by omega) (by simp; omega)
    refine ⟨out, ?_, by simpa using h2, ?_⟩
    · simp only [moveFwd, arrGet_lt hf, R.bind_ok, arrSet_lt hf]
      rw [arrSet_lt (by simp; omega), R.bind_ok]
      exact h1
    · intro i
      rw [h3 i]
      by_cases hi : i = d
      · subst hi
        rw [if_neg (by omega), if_neg (by omega), if_pos (by omega), List.getElem?_set_self (by simp; omega),
          show i + (f - i) = f by omega, List.getElem?_eq_getElem hf]
      · by_cases hif : i = f
        · subst hif
          by_cases hc : i < d + (n + 1)
          · rw [if_pos (by omega), if_pos (by omega), show i + (i + 1 - (d + 1)) = i + (i - d) by omega,
              List.getElem?_set_ne (by omega), List.getElem?_set_ne (by omega)]
          · rw [if_neg (by omega), if_neg (by omega), if_neg (by omega), if_pos (by omega), List.getElem?_set_ne (by omega),
              List.getElem?_set_self hf, List.getElem?_eq_getElem hf]; rfl
        · rw [List.getElem?_set_ne (Ne.symm hi), List.getElem?_set_ne (Ne.symm hif)]
          by_cases hc : d ≤ i ∧ i < d + (n + 1)
          · rw [if_pos (by omega), if_pos hc, show i + (f + 1 - (d + 1)) = i + (f - d) by omega,
              List.getElem?_set_ne (by omega), List.getElem?_set_ne (by omega)]
          · rw [if_neg (by omega), if_neg hc]
            by_cases hg : f ≤ i ∧ i < f + (n + 1)
            · rw [if_pos (by omega), if_pos hg]
            · rw [if_neg (by omega), if_neg hg]

theorem moveBwd_spec (mv : T → T) (n : Nat) : ∀ (data : List T) (f d : Nat), f < d → d + n ≤ data.length →
    ∃ out, moveBwd mv n data f d = .ok out ∧ out.length = data.length ∧
      ∀ i : Nat, out[i]? = if d ≤ i ∧ i < d + n then data[i - (d - f)]? else if f ≤ i ∧ i < f + n then data[i]?.map mv else data[i]? := by
  induction n with
  | zero => intro data f d _ _; exact ⟨data, rfl, rfl, fun i => by rw [if_neg (by omega), if_neg (by omega)]⟩
  | succ n ih =>
    intro data f d hd hl
    have hf : f + n < data.length := by omega
    obtain ⟨out, h1, h2, h3⟩ := ih ((data.set (f + n) (mv data[f + n])).set (d + n) data[f + n]) f d hd (by simp; omega)
    refine ⟨out, ?_, by simpa using h2, ?_⟩
    · simp only [moveBwd, arrGet_lt hf, R.bind_ok, arrSet_lt hf]
      rw [arrSet_lt (by simp; omega), R.bind_ok]
      exact h1
    · intro i
      rw [h3 i]
      by_cases hi : i = d + n
      · subst hi
        rw [if_neg (by omega), if_neg (by omega), if_pos (by omega), List.getElem?_set_self (by simp; omega),
          show d + n - (d - f) = f + n by omega, List.getElem?_eq_getElem hf]
      · by_cases hif : i = f + n
        · subst hif
          by_cases hc : d ≤ f + n
          · rw [if_pos (by omega), if_pos (by omega), List.getElem?_set_ne (by omega), List.getElem?_set_ne (by omega)]
          · rw [if_neg (by omega), if_neg (by omega), if_neg (by omega), if_pos (by omega), List.getElem?_set_ne (by omega),
              List.getElem?_set_self hf, List.getElem?_eq_getElem hf]; rfl
        · rw [List.getElem?_set_ne (Ne.symm hi), List.getElem?_set_ne (Ne.symm hif)]
          by_cases hc : d ≤ i ∧ i < d + (n + 1)
          · rw [if_pos (by omega), if_pos hc, List.getElem?_set_ne (by omega), List.getElem?_set_ne (by omega)]
          · rw [if_neg (by omega), if_neg hc]
            by_cases hg : f ≤ i ∧ i < f + (n + 1)
            · rw [if_pos (by omega), if_pos hg]
            · rw [if_neg (by omega), if_neg hg]

/-- The array holds exactly the elements followed by the objects behind them. -/
structure Holds (M : Nat) (s : St T) (q t : List T) : Prop where
  data : s.data = q ++ t
  back : s.back = q.length
  len : q.length + t.length = M

theorem Holds.rel {M : Nat} {s : St T} {q t : List T} (h : Holds M s q t) : Rel M s q :=
  ⟨by rw [h.data, List.length_append, h.len], h.back, by have := h.len; omega, fun i hi => by rw [h.data, List.getElem?_append_left hi]⟩

theorem Holds.push {M : Nat} {s : St T} {q t : List T} (h : Holds M s q t) (x : T) :
    ∃ s', pushBack s x = .ok (s', decide (q.length < M)) ∧
      Holds M s' (if q.length < M then q ++ [x] else q) (if q.length < M then t.drop 1 else t) := by
  obtain ⟨hd, hb, hl⟩ := h
  have hsl : s.data.length = M := by rw [hd, List.length_append, hl]
  unfold pushBack
  by_cases hc : q.length < M
  · rw [if_neg (by omega), arrSet_lt (by omega), if_pos hc, if_pos hc]
    refine ⟨_, by simp [hc]; rfl, ?_, by simp [hb], by simp; omega⟩
    simp only [hd, hb]
    cases t with
    | nil => simp at hl; omega
    | cons y t => simp
  · rw [if_pos (by omega), if_neg hc, if_neg hc]
    exact ⟨s, by simp [hc], ⟨hd, hb, hl⟩⟩

theorem Holds.step {mv : T → T} {M : Nat} {s : St T} {q t : List T} {o : List (Out T)} (dflt : T) (h : Holds M s q t) (op : OpM T)
    (ho : Spec.outM M dflt q op = some o) :
    ∃ s', stepM mv dflt s op = .ok (s', o) ∧ Holds M s' (Spec.objects mv M q t op).1 (Spec.objects mv M q t op).2 := by
  have hr := h.rel
  obtain ⟨hd, hb, hl⟩ := h
  have hsl : s.data.length = M := hr.len
  have hidx : ∀ i : Nat, s.data[i]? = if i < q.length then q[i]? else t[i - q.length]? := by
    intro i; rw [hd, List.getElem?_append]
  cases op with
  | pushOver =>
    simp only [Spec.outM, Option.some.injEq] at ho
    subst ho
    simp only [stepM, pushBackForOverwrite, Spec.objects]
    by_cases hc : q.length < M
    · rw [if_neg (by omega), if_pos hc]
      refine ⟨⟨s.data, q.length + 1⟩, by simp only [R.pure_eq, hb], ?_, ?_, ?_⟩
      · simp only [hd, List.append_assoc, List.take_append_drop]
      · simp [hb]; omega
      · simp; omega
    · rw [if_pos (by omega), if_neg hc]
      have ht : t = [] := by cases t with | nil => rfl | cons _ _ => simp at hl; omega
      subst ht
      exact ⟨s, by simp [hsl], by simpa using hd, by simpa using hb, by simpa using hl⟩
  | resizeOver n =>
    simp only [Spec.outM, Option.some.injEq] at ho
    subst ho
    refine ⟨⟨s.data, min n M⟩, ?_, ?_, ?_, ?_⟩
    · simp only [stepM, resizeForOverwrite, R.pure_eq, hsl]
      congr 4
      apply decide_eq_decide.mpr; omega
    · simp only [Spec.objects, List.take_append_drop, hd]
    · simp only [Spec.objects, List.length_take, List.length_append, hl]
    · simp only [Spec.objects, List.length_take, List.length_drop, List.length_append, hl]; omega
  | base op =>
    cases hs : Spec.step M dflt q op with
    | none => simp [Spec.outM, hs] at ho
    | some r =>
      obtain ⟨q', o'⟩ := r
      simp only [Spec.outM, hs, Option.map_some, Option.some.injEq] at ho
      subst ho
      cases op with
      | push x =>
        obtain ⟨s', h1, h2⟩ := Holds.push ⟨hd, hb, hl⟩ x
        simp only [Spec.step, Option.some.injEq, Prod.mk.injEq] at hs
        obtain ⟨rfl, rfl⟩ := hs
        refine ⟨s', by simp [stepM, FixedVector.step, h1], ?_⟩
        simp only [Spec.objects]
        by_cases hc : q.length < M
        · simpa [hc] using h2
        · simpa [hc] using h2
      | pop =>
        obtain ⟨s', h1, h2⟩ := hr.step dflt .pop hs
        refine ⟨s', h1, ?_⟩
        simp only [Spec.step, Option.some.injEq, Prod.mk.injEq] at hs
        obtain ⟨rfl, rfl⟩ := hs
        have hdat : s'.data = s.data := by
          simp only [FixedVector.step, popBack] at h1
          split at h1
          · simp at h1; rw [← h1.1]
          · cases e : arrGet s.data (s.back - 1) with
            | ub => rw [e] at h1; simp at h1
            | ok v => rw [e] at h1; simp at h1; rw [← h1.1]
        refine ⟨?_, h2.back, ?_⟩
        · simp only [Spec.objects]
          rw [hdat, hd, ← List.append_assoc]
          congr 1
          rw [List.dropLast_eq_take, List.take_append_drop]
        · simp only [Spec.objects, List.length_dropLast, List.length_append, List.length_drop]; omega
      | back =>
        obtain ⟨s', h1, h2⟩ := hr.step dflt .back hs
        refine ⟨s', h1, ?_⟩
        have : s' = s := by
          simp only [FixedVector.step] at h1
          cases e : FixedVector.back dflt s with
          | ub => rw [e] at h1; simp at h1
          | ok v => rw [e] at h1; simp at h1; exact h1.1.symm
        subst this; exact ⟨hd, hb, hl⟩
      | get i =>
        obtain ⟨s', h1, h2⟩ := hr.step dflt (.get i) hs
        refine ⟨s', h1, ?_⟩
        have : s' = s := by
          simp only [FixedVector.step] at h1
          cases e : FixedVector.at' s i with
          | ub => rw [e] at h1; simp at h1
          | ok v => rw [e] at h1; simp at h1; exact h1.1.symm
        subst this; exact ⟨hd, hb, hl⟩
      | size =>
        obtain ⟨s', h1, h2⟩ := hr.step dflt .size hs
        refine ⟨s', h1, ?_⟩
        simp [FixedVector.step] at h1
        rw [← h1.1]; exact ⟨hd, hb, hl⟩
      | available =>
        obtain ⟨s', h1, h2⟩ := hr.step dflt .available hs
        refine ⟨s', h1, ?_⟩
        simp [FixedVector.step] at h1
        rw [← h1.1]; exact ⟨hd, hb, hl⟩
      | iterate =>
        obtain ⟨s', h1, h2⟩ := hr.step dflt .iterate hs
        refine ⟨s', h1, ?_⟩
        simp [FixedVector.step] at h1
        rw [← h1.1]; exact ⟨hd, hb, hl⟩
      | clear =>
        simp only [Spec.step, Option.some.injEq, Prod.mk.injEq] at hs
        obtain ⟨rfl, rfl⟩ := hs
        exact ⟨_, rfl, by simp [Spec.objects, FixedVector.clear, hd], rfl, by simp [Spec.objects]; omega⟩
      | resize n x =>
        simp only [Spec.step, Option.some.injEq, Prod.mk.injEq] at hs
        obtain ⟨rfl, rfl⟩ := hs
        simp only [stepM, FixedVector.step, resize, Spec.objects, hsl, hb]
        have hbool : decide (n = min n M) = decide (n ≤ M) := by apply decide_eq_decide.mpr; omega
        by_cases hc : min n M > q.length
        · rw [if_pos hc]
          obtain ⟨out, g1, g2, g3⟩ := fillFrom_spec x (min n M - q.length) s.data q.length (by omega)
          rw [g1]
          refine ⟨⟨out, min n M⟩, by simp [hbool], ?_⟩
          refine ⟨?_, ?_, ?_⟩
          · apply List.ext_getElem?
            intro j
            rw [g3 j, List.take_of_length_le (show q.length ≤ n by omega), List.drop_of_length_le (show q.length ≤ n by omega), List.nil_append, hidx]
            by_cases h1 : j < q.length
            · rw [if_neg (by omega), if_pos h1, List.append_assoc, List.getElem?_append_left h1]
            · rw [List.append_assoc, List.getElem?_append_right (by omega)]
              by_cases h2 : j < min n M
              · rw [if_pos (by omega), List.getElem?_append_left (by rw [List.length_replicate]; omega), List.getElem?_replicate, if_pos (by omega)]
              · rw [if_neg (by omega), if_neg h1, List.getElem?_append_right (by rw [List.length_replicate]; omega), List.getElem?_drop]
                congr 1; rw [List.length_replicate]; omega
          · simp; omega
          · simp; omega
        · rw [if_neg hc]
          refine ⟨⟨s.data, min n M⟩, by simp [hbool], ?_⟩
          have hz : min n M - q.length = 0 := by omega
          refine ⟨?_, ?_, ?_⟩
          · rw [hz, List.replicate_zero, List.append_nil, List.drop_zero, ← List.append_assoc, List.take_append_drop]; exact hd
          · simp; omega
          · simp; omega
      | insert i x =>
        simp only [Spec.step, Option.some.injEq, Prod.mk.injEq] at hs
        obtain ⟨rfl, rfl⟩ := hs
        simp only [stepM, insertM, Spec.objects, maxSize, hsl]
        by_cases hc : q.length < M ∧ i ≤ q.length
        · rw [if_neg (by omega), if_pos hc]
          by_cases hi : i = q.length
          · rw [if_pos (by omega)]
            obtain ⟨s', g1, g2⟩ := Holds.push ⟨hd, hb, hl⟩ x
            refine ⟨s', by simp [g1], ?_⟩
            subst hi
            simpa [hc.1] using g2
          · rw [if_neg (by omega)]
            obtain ⟨out, g1, g2, g3⟩ := moveBwd_spec mv (s.back - i) s.data i (i + 1) (by omega) (by omega)
            rw [g1, R.bind_ok, arrSet_lt (by omega)]
            refine ⟨⟨out.set i x, s.back + 1⟩, rfl, ?_⟩
            refine ⟨?_, by simp; omega, by simp; omega⟩
            apply List.ext_getElem?
            intro j
            have e1 : (q.take i).length = i := by rw [List.length_take]; omega
            by_cases hj : j = i
            · subst hj
              rw [List.getElem?_set_self (by omega), List.append_assoc, List.getElem?_append_right (by omega), e1]; simp
            · rw [List.getElem?_set_ne (Ne.symm hj), g3 j, List.append_assoc]
              by_cases h1 : j < i
              · rw [if_neg (by omega), if_neg (by omega), List.getElem?_append_left (by omega), List.getElem?_take, if_pos h1, hidx, if_pos (by omega)]
              · rw [List.getElem?_append_right (by omega), e1]
                obtain ⟨m, hm⟩ : ∃ m, j - i = m + 1 := ⟨j - i - 1, by omega⟩
                rw [hm, List.cons_append, List.getElem?_cons_succ]
                by_cases h2 : j ≤ q.length
                · rw [if_pos (by omega), hidx, if_pos (by omega), List.getElem?_append_left (by rw [List.length_drop]; omega), List.getElem?_drop]
                  congr 1; omega
                · rw [if_neg (by omega), if_neg (by omega), hidx, if_neg (by omega), List.getElem?_append_right (by rw [List.length_drop]; omega), List.getElem?_drop]
                  congr 1; rw [List.length_drop]; omega
        · rw [if_pos (by omega), if_neg hc]
          exact ⟨s, rfl, hd, hb, hl⟩
      | erase i =>
        simp only [Spec.step, Option.some.injEq, Prod.mk.injEq] at hs
        obtain ⟨rfl, rfl⟩ := hs
        simp only [stepM, eraseM, Spec.objects]
        by_cases h0 : i + 1 < q.length
        · rw [if_neg (by omega), if_neg (by omega), if_pos h0]
          obtain ⟨out, g1, g2, g3⟩ := moveFwd_spec mv (s.back - (i + 1)) s.data (i + 1) i (by omega) (by omega)
          rw [g1, R.bind_ok]
          refine ⟨⟨out, s.back - 1⟩, rfl, ?_⟩
          refine ⟨?_, by simp; omega, by simp; omega⟩
          apply List.ext_getElem?
          intro j
          have e1 : (q.take i).length = i := by rw [List.length_take]; omega
          rw [g3 j, List.append_assoc]
          by_cases h1 : j < i
          · rw [if_neg (by omega), if_neg (by omega), List.getElem?_append_left (by omega), List.getElem?_take, if_pos h1, hidx, if_pos (by omega)]
          · rw [List.getElem?_append_right (by omega), e1]
            by_cases h2 : j + 1 < q.length
            · rw [if_pos (by omega), hidx, if_pos (by omega), List.getElem?_append_left (by rw [List.length_drop]; omega), List.getElem?_drop]
              congr 1; omega
            · rw [if_neg (by omega), List.getElem?_append_right (by rw [List.length_drop]; omega), List.length_drop]
              by_cases h3 : j + 1 = q.length
              · rw [if_pos (by omega), hidx, if_pos (by omega), List.getElem?_append_left (by rw [List.length_map, List.length_drop]; omega),
                  List.getElem?_map, List.getElem?_drop]
                congr 2; omega
              · rw [if_neg (by omega), hidx, if_neg (by omega), List.getElem?_append_right (by rw [List.length_map, List.length_drop]; omega)]
                congr 1; rw [List.length_map, List.length_drop]; omega
        · rw [if_neg h0]
          by_cases h1 : i + 1 = q.length
          · rw [if_neg (by omega), if_pos (by omega), if_pos h1]
            refine ⟨⟨s.data, s.back - 1⟩, rfl, ?_⟩
            exact ⟨by rw [← List.append_assoc, List.take_append_drop]; exact hd, by simp; omega, by simp; omega⟩
          · rw [if_pos (by omega), if_neg h1]
            exact ⟨s, rfl, hd, hb, hl⟩
      | eraseRange f l =>
        simp only [Spec.step] at hs
        split at hs
        · next hc =>
          simp only [Option.some.injEq, Prod.mk.injEq] at hs
          obtain ⟨rfl, rfl⟩ := hs
          simp only [stepM, eraseRangeM, Spec.objects]
          by_cases h0 : s.back = 0 ∨ l ≤ f
          · rw [if_pos h0]
            refine ⟨s, rfl, ?_, ?_, ?_⟩
            · rw [hd]
              have hfl : l = f := by omega
              subst hfl
              have e1 : q.length - (l - l) = q.length := by omega
              rw [e1, Nat.max_eq_right (by omega), List.drop_length, List.take_append_drop,
                List.drop_of_length_le (by rw [List.length_take]; omega)]
              simp
            · simp; omega
            · simp; omega
          · rw [if_neg h0, if_neg (by omega)]
            obtain ⟨out, g1, g2, g3⟩ := moveFwd_spec mv (s.back - l) s.data l f (by omega) (by omega)
            rw [g1, R.bind_ok]
            refine ⟨⟨out, s.back - (l - f)⟩, rfl, ?_⟩
            refine ⟨?_, by simp; omega, by simp; omega⟩
            apply List.ext_getElem?
            intro j
            have e1 : (q.take f).length = f := by rw [List.length_take]; omega
            rw [g3 j, List.append_assoc]
            by_cases h1 : j < f
            · rw [if_neg (by omega), if_neg (by omega), List.getElem?_append_left (by omega), List.getElem?_take, if_pos h1, hidx, if_pos (by omega)]
            · rw [List.getElem?_append_right (by omega), e1]
              by_cases h2 : j < q.length - (l - f)
              · rw [if_pos (by omega), hidx, if_pos (by omega), List.getElem?_append_left (by rw [List.length_drop]; omega), List.getElem?_drop]
                congr 1; omega
              · rw [if_neg (by omega), List.getElem?_append_right (by rw [List.length_drop]; omega), List.length_drop, List.append_assoc]
                by_cases h3 : j < l
                · rw [if_neg (by omega), hidx, if_pos (by omega),
                    List.getElem?_append_left (by rw [List.length_drop, List.length_take]; omega), List.getElem?_drop, List.getElem?_take, if_pos (by omega)]
                  congr 1; omega
                · rw [List.getElem?_append_right (by rw [List.length_drop, List.length_take]; omega), List.length_drop, List.length_take]
                  by_cases h4 : j < q.length
                  · rw [if_pos (by omega), hidx, if_pos h4, List.getElem?_append_left (by rw [List.length_map, List.length_drop]; omega),
                      List.getElem?_map, List.getElem?_drop]
                    congr 2; omega
                  · rw [if_neg (by omega), hidx, if_neg h4, List.getElem?_append_right (by rw [List.length_map, List.length_drop]; omega)]
                    congr 1; rw [List.length_map, List.length_drop]; omega
        · cases hs

/-- **C202 (exact)**: whatever moving does to an element, after every sequence of calls that keeps the contract the array holds exactly the
elements of the specification followed by the objects it says are still alive behind them, and all results are the
specification's. -/
theorem C202_objects_exact (mv : T → T) (M : Nat) (dflt : T) (ts : List T) (ht : ts.length ≤ M) (ops : List (OpM T)) (q t : List T)
    (os : List (Out T)) (h : Spec.runM mv M dflt ts (List.replicate (M - ts.length) dflt) ops = some ((q, t), os)) :
    ∃ s, runM mv dflt (ofValues M dflt ts) ops = .ok (s, os) ∧ s.data = q ++ t ∧ size s = q.length := by
  suffices H : ∀ (ops : List (OpM T)) (s : St T) (q0 t0 : List T) (os : List (Out T)), Holds M s q0 t0 →
      Spec.runM mv M dflt q0 t0 ops = some ((q, t), os) → ∃ s', runM mv dflt s ops = .ok (s', os) ∧ Holds M s' q t by
    obtain ⟨s, h1, h2⟩ := H ops (ofValues M dflt ts) ts _ os ⟨rfl, rfl, by simp; omega⟩ h
    exact ⟨s, h1, h2.data, h2.back⟩
  intro ops
  induction ops with
  | nil => intro s q0 t0 os hh hr; simp [Spec.runM] at hr; obtain ⟨⟨rfl, rfl⟩, rfl⟩ := hr; exact ⟨s, rfl, hh⟩
  | cons op ops ih =>
    intro s q0 t0 os hh hr
    simp only [Spec.runM] at hr
    split at hr
    · cases hr
    · next o ho =>
      split at hr
      · cases hr
      · next r os' hr' =>
        simp only [Option.some.injEq, Prod.mk.injEq] at hr
        obtain ⟨rfl, rfl⟩ := hr
        obtain ⟨s1, g1, g2⟩ := hh.step (mv := mv) dflt op ho
        obtain ⟨s2, g3, g4⟩ := ih s1 _ _ _ g2 hr'
        exact ⟨s2, by simp [runM, g1, g3], g4⟩

/-- `0` is the moved-from state. -/
example : Spec.runM (fun _ : Nat => 0) 5 0 [1, 2, 3, 4] [0] [.base (.erase 1), .pushOver, .base .iterate, .base (.insert 0 9), .base (.eraseRange 1 3), .resizeOver 5,
      .base .iterate]
    = some (([9, 4, 0, 0, 0], []), [.num 3, .list [1, 3, 4, 0], .bool true, .list [9, 4, 0, 0, 0]]) := by decide

/-- **C202**: without the two calls that uncover unassigned elements nothing of this shows: every result and the elements are those of the
list of C19, for every effect of moving. -/
theorem C202_live (mv : T → T) (M : Nat) (dflt : T) (ts : List T) (ht : ts.length ≤ M) (ops : List (Op T)) (q : List T) (os : List (Out T))
    (h : Spec.run M dflt ts ops = some (q, os)) :
    ∃ s, runM mv dflt (ofValues M dflt ts) (ops.map .base) = .ok (s, os) ∧ toList s = q := by
  suffices H : ∀ (ops : List (Op T)) (s : St T) (q0 t0 : List T) (os : List (Out T)), Holds M s q0 t0 → Spec.run M dflt q0 ops = some (q, os) →
      ∃ s' t, runM mv dflt s (ops.map .base) = .ok (s', os) ∧ Holds M s' q t by
    obtain ⟨s, t, h1, h2⟩ := H ops (ofValues M dflt ts) ts _ os ⟨rfl, rfl, by simp; omega⟩ h
    exact ⟨s, h1, h2.rel.toList⟩
  intro ops
  induction ops with
  | nil => intro s q0 t0 os hh hr; simp [Spec.run] at hr; obtain ⟨rfl, rfl⟩ := hr; exact ⟨s, t0, rfl, hh⟩
  | cons op ops ih =>
    intro s q0 t0 os hh hr
    simp only [Spec.run] at hr
    split at hr
    · cases hr
    · next q1 o hs =>
      split at hr
      · cases hr
      · next q2 os' hr' =>
        cases hr
        obtain ⟨s1, g1, g2⟩ := hh.step (mv := mv) (o := o) dflt (.base op) (by simp [Spec.outM, hs])
        have hq1 : (Spec.objects mv M q0 t0 (.base op)).1 = q1 := by
          cases op <;> simp only [Spec.step, Spec.objects] at hs ⊢
          case push x => simp only [Option.some.injEq, Prod.mk.injEq] at hs; rw [← hs.1]; split <;> rfl
          case pop => simp only [Option.some.injEq, Prod.mk.injEq] at hs; exact hs.1
          case back => simp only [Option.some.injEq, Prod.mk.injEq] at hs; exact hs.1
          case get i =>
            cases e : q0[i]? with
            | none => rw [e] at hs; cases hs
            | some x => rw [e] at hs; simp at hs; exact hs.1
          case insert i x => simp only [Option.some.injEq, Prod.mk.injEq] at hs; rw [← hs.1]; split <;> rfl
          case erase i =>
            simp only [Option.some.injEq, Prod.mk.injEq] at hs
            rw [← hs.1]
            split
            · rfl
            · split
              · next h2 => simp only; rw [List.drop_of_length_le (by omega), List.append_nil]
              · simp only; rw [List.take_of_length_le (by omega), List.drop_of_length_le (by omega), List.append_nil]
          case eraseRange f l =>
            split at hs
            · simp only [Option.some.injEq, Prod.mk.injEq] at hs; exact hs.1
            · cases hs
          case resize n x => simp only [Option.some.injEq, Prod.mk.injEq] at hs; exact hs.1
          case clear => simp only [Option.some.injEq, Prod.mk.injEq] at hs; exact hs.1
          case size => simp only [Option.some.injEq, Prod.mk.injEq] at hs; exact hs.1
          case available => simp only [Option.some.injEq, Prod.mk.injEq] at hs; exact hs.1
          case iterate => simp only [Option.some.injEq, Prod.mk.injEq] at hs; exact hs.1
        rw [hq1] at g2
        obtain ⟨s2, t2, g3, g4⟩ := ih s1 _ _ _ g2 hr'
        exact ⟨s2, t2, by simp [runM, g1, g3], g4⟩

example : Spec.run 4 0 [1, 2] [.insert 1 9, .push 3, .erase 0, .eraseRange 1 2, .iterate] = some ([9, 3], [.bool true, .list [9, 3]]) := by decide

/-- **C202 (violated)**: removed elements are not destroyed.  `clear()` destroys nothing: all elements come back with `resize_for_overwrite`;
an element taken by `pop_back` is held a second time by the vector and comes back with `push_back_for_overwrite`. -/
theorem C202_removed_violated (mv : T → T) (dflt : T) (s : St T) (h : s.back ≤ s.data.length) :
    (clear s).data = s.data ∧ (∃ b, stepM mv dflt (clear s) (.resizeOver s.back) = .ok (s, [.bool b])) ∧
    (0 < s.back → ∃ s' x, popBack dflt s = .ok (s', x) ∧ s'.data[size s']? = some x ∧ pushBackForOverwrite s' = (s, s.back - 1)) := by
  refine ⟨rfl, ⟨decide (s.back = min s.back s.data.length), ?_⟩, ?_⟩
  · simp only [stepM, resizeForOverwrite, FixedVector.clear, R.pure_eq, Nat.min_eq_left h]
  · intro hp
    have hlt : s.back - 1 < s.data.length := by omega
    refine ⟨⟨s.data, s.back - 1⟩, s.data[s.back - 1], ?_, List.getElem?_eq_getElem hlt, ?_⟩
    · simp only [popBack, show s.back ≠ 0 by omega, if_false, arrGet_lt hlt, R.bind_ok, R.pure_eq]
    · simp only [pushBackForOverwrite, show ¬ s.back - 1 ≥ s.data.length by omega, if_false, show s.back - 1 + 1 = s.back by omega]

example : (⟨[7, 8, 0], 2⟩ : St Nat).back ≤ (⟨[7, 8, 0], 2⟩ : St Nat).data.length ∧ 0 < (⟨[7, 8, 0], 2⟩ : St Nat).back := by decide

end FixedVector
