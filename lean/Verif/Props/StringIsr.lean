import Verif.Spec.StringIsr
import Verif.Model.StringIsr
/-!
# C250: `StaticString` read by an interrupt while the main program assigns to it
-/
namespace StringIsr
open StringIsrSpec

theorem cstr_reads : ∀ (l t : List Byte), StaticString.cstr l = .ok t ↔ Reads l t := by
  intro l
  induction l with
  | nil => intro t; constructor <;> intro h <;> cases h
  | cons c l ih =>
    intro t
    unfold StaticString.cstr
    by_cases hc : c = 0
    · subst hc
      rw [if_pos rfl]
      constructor
      · intro h; cases h; exact .nul l
      · intro h
        cases h with
        | nul => rfl
        | char _ _ _ h _ => exact absurd rfl h
    · rw [if_neg hc]
      constructor
      · intro h
        cases hl : StaticString.cstr l with
        | ub => rw [hl] at h; cases h
        | ok u =>
          rw [hl] at h
          cases h
          exact .char c l u hc ((ih u).mp hl)
      · intro h
        cases h with
        | nul => exact absurd rfl hc
        | char _ _ u _ hr =>
          rw [(ih u).mpr hr]
          rfl

theorem reads_append : ∀ (a l t : List Byte), (∀ c ∈ a, c ≠ 0) → Reads l t → Reads (a ++ l) (a ++ t) := by
  intro a
  induction a with
  | nil => intro l t _ h; exact h
  | cons c a ih =>
    intro l t ha h
    exact .char c _ _ (ha c (List.mem_cons_self ..)) (ih l t (fun d hd => ha d (List.mem_cons_of_mem _ hd)) h)

theorem reads_nul (a l : List Byte) (ha : ∀ c ∈ a, c ≠ 0) : Reads (a ++ 0 :: l) a := by
  have := reads_append a (0 :: l) [] ha (.nul l)
  simpa using this

theorem set_front (p data : List Byte) (c : Byte) (h : p.length < data.length) :
    (p ++ data.drop p.length).set p.length c = (p ++ [c]) ++ data.drop (p.length + 1) := by
  rw [List.set_append, if_neg (by omega), Nat.sub_self, List.append_assoc]
  congr 1
  obtain ⟨x, hx⟩ : ∃ x, data.drop p.length = x :: data.drop (p.length + 1) := ⟨_, List.drop_eq_getElem_cons h⟩
  rw [hx]
  rfl

theorem copySteps_eq (cap : Nat) (data : List Byte) (hd : data.length = cap + 1) (rest : List Byte) :
    ∀ (t p : List Byte), (∀ c ∈ t, c ≠ 0) → p.length ≤ cap →
      copySteps cap (p ++ data.drop p.length) p.length (t ++ 0 :: rest)
        = (List.range (t.take (cap - p.length)).length).map
            (fun j => p ++ t.take (j + 1) ++ data.drop (p.length + j + 1))
          ++ [p ++ t.take (cap - p.length) ++ 0 :: data.drop (p.length + (t.take (cap - p.length)).length + 1)] := by
  intro t
  induction t with
  | nil =>
    intro p _ hp
    simp only [List.nil_append, copySteps]
    rw [if_neg (by simp), set_front _ _ _ (by omega)]
    simp
  | cons c t ih =>
    intro p ht hp
    by_cases h : p.length < cap
    · rw [List.cons_append, copySteps, if_pos ⟨ht c (List.mem_cons_self ..), h⟩, set_front _ _ _ (by omega)]
      have e := ih (p ++ [c]) (fun d hd => ht d (List.mem_cons_of_mem _ hd)) (by simp; omega)
      simp only [List.length_append, List.length_singleton] at e
      rw [e]
      obtain ⟨n, hn⟩ : ∃ n, cap - p.length = n + 1 := ⟨cap - p.length - 1, by omega⟩
      have hn' : cap - (p.length + 1) = n := by omega
      rw [hn, hn', List.take_succ_cons, List.length_cons, List.range_succ_eq_map, List.map_cons, List.map_map]
      simp only [List.cons_append, List.append_assoc, List.singleton_append, Function.comp, List.take_succ_cons,
        List.take_zero, List.nil_append, Nat.add_zero]
      congr 1
      congr 1
      · apply List.map_congr_left
        intro j _
        rw [show p.length + 1 + j + 1 = p.length + (j + 1) + 1 by omega]
        rfl
      · rw [show p.length + 1 + (t.take n).length + 1 = p.length + ((t.take n).length + 1) + 1 by omega]
    · rw [List.cons_append, copySteps, if_neg (by omega), set_front _ _ _ (by omega)]
      simp [show cap - p.length = 0 by omega]

theorem copySvSteps_eq (cap : Nat) (data : List Byte) (hd : data.length = cap + 1) :
    ∀ (t p : List Byte), p.length < cap →
      copySvSteps cap (p ++ data.drop p.length) p.length t
        = (List.range (t.take (cap - p.length)).length).map
            (fun j => p ++ t.take (j + 1) ++ data.drop (p.length + j + 1))
          ++ [p ++ t.take (cap - p.length) ++ 0 :: data.drop (p.length + (t.take (cap - p.length)).length + 1)] := by
  intro t
  induction t with
  | nil =>
    intro p hp
    simp only [copySvSteps]
    rw [set_front _ _ _ (by omega)]
    simp
  | cons c t ih =>
    intro p hp
    rw [copySvSteps, set_front _ _ _ (by omega)]
    obtain ⟨n, hn⟩ : ∃ n, cap - p.length = n + 1 := ⟨cap - p.length - 1, by omega⟩
    by_cases h : p.length + 1 ≥ cap
    · have n0 : n = 0 := by omega
      subst n0
      have sf := set_front (p ++ [c]) data 0 (by simp; omega)
      simp only [List.length_append, List.length_singleton] at sf
      rw [if_pos h, sf, hn]
      simp
    · have e := ih (p ++ [c]) (by simp; omega)
      simp only [List.length_append, List.length_singleton] at e
      rw [if_neg h, e]
      have hn' : cap - (p.length + 1) = n := by omega
      rw [hn, hn', List.take_succ_cons, List.length_cons, List.range_succ_eq_map, List.map_cons, List.map_map]
      simp only [List.cons_append, List.append_assoc, List.singleton_append, Function.comp, List.take_succ_cons,
        List.take_zero, List.nil_append, Nat.add_zero]
      congr 1
      congr 1
      · apply List.map_congr_left
        intro j _
        rw [show p.length + 1 + j + 1 = p.length + (j + 1) + 1 by omega]
        rfl
      · rw [show p.length + 1 + (t.take n).length + 1 = p.length + ((t.take n).length + 1) + 1 by omega]

/-- What the array holds, after each store of `copy` (of either kind) of a text `t` that the string cuts to `cap`
characters. -/
theorem C250_copy_exact (cap : Nat) (data : List Byte) (hd : data.length = cap + 1) (t rest : List Byte)
    (ht : ∀ c ∈ t, c ≠ 0) :
    copySteps cap data 0 (t ++ 0 :: rest)
      = during (t.take cap) data ++ [t.take cap ++ 0 :: data.drop ((t.take cap).length + 1)]
    ∧ (0 < cap → copySvSteps cap data 0 t
      = during (t.take cap) data ++ [t.take cap ++ 0 :: data.drop ((t.take cap).length + 1)]) := by
  have key : (List.range (t.take cap).length).map (fun j => t.take (j + 1) ++ data.drop (j + 1))
      = during (t.take cap) data := by
    unfold during
    apply List.map_congr_left
    intro j hj
    rw [List.mem_range, List.length_take] at hj
    rw [List.take_take, show min (j + 1) cap = j + 1 by omega]
  constructor
  · have e := copySteps_eq cap data hd rest t [] ht (by simp)
    rw [List.length_take] at key
    simpa [key] using e
  · intro h
    have e := copySvSteps_eq cap data hd t [] h
    rw [List.length_take] at key
    simpa [key] using e

example : copySteps 3 [120, 0, 1, 2] 0 ([97, 98] ++ 0 :: []) = [[97, 0, 1, 2], [97, 98, 1, 2], [97, 98, 0, 2]] := by
  decide

theorem set_last_zero (data : List Byte) (n i : Nat) (c : Byte) (h : data[n]? = some 0) (hi : i < n ∨ c = 0) :
    (data.set i c)[n]? = some 0 := by
  rw [List.getElem?_set]
  by_cases e : i = n
  · have hc : c = 0 := by
      rcases hi with hi | hi
      · omega
      · exact hi
    subst e hc
    have : i < data.length := by
      by_cases h' : i < data.length
      · exact h'
      · rw [List.getElem?_eq_none (by omega)] at h; cases h
    rw [if_pos rfl, if_pos this]
  · rw [if_neg e]; exact h

theorem copySteps_last (cap : Nat) : ∀ (s data : List Byte) (i : Nat), data[cap]? = some 0 →
    ∀ d ∈ copySteps cap data i s, d[cap]? = some 0 := by
  intro s
  induction s with
  | nil => intro data i _ d hd; simp [copySteps] at hd
  | cons c s ih =>
    intro data i h d hd
    unfold copySteps at hd
    by_cases hc : c ≠ 0 ∧ i < cap
    · rw [if_pos hc] at hd
      have h' := set_last_zero data cap i c h (Or.inl hc.2)
      rcases List.mem_cons.mp hd with rfl | hd
      · exact h'
      · exact ih _ _ h' d hd
    · rw [if_neg hc, List.mem_singleton] at hd
      subst hd
      exact set_last_zero _ _ _ _ h (Or.inr rfl)

theorem copySvSteps_last (cap : Nat) : ∀ (s data : List Byte) (i : Nat), i < cap → data[cap]? = some 0 →
    ∀ d ∈ copySvSteps cap data i s, d[cap]? = some 0 := by
  intro s
  induction s with
  | nil =>
    intro data i hi h d hd
    rw [copySvSteps, List.mem_singleton] at hd
    subst hd
    exact set_last_zero _ _ _ _ h (Or.inr rfl)
  | cons c s ih =>
    intro data i hi h d hd
    rw [copySvSteps] at hd
    have h' := set_last_zero data cap i c h (Or.inl hi)
    rcases List.mem_cons.mp hd with rfl | hd
    · exact h'
    · by_cases hc : i + 1 ≥ cap
      · rw [if_pos hc, List.mem_singleton] at hd
        subst hd
        exact set_last_zero _ _ _ _ h' (Or.inr rfl)
      · rw [if_neg hc] at hd
        exact ih _ _ (by omega) h' d hd

theorem steps_last (cap : Nat) (hc : 0 < cap) (data : List Byte) (h : data[cap]? = some 0) (c : Call) :
    ∀ d ∈ steps cap data c, d[cap]? = some 0 := by
  intro d hd
  cases c with
  | copy s => exact copySteps_last cap s data 0 h d hd
  | copySv s => exact copySvSteps_last cap s data 0 hc h d hd
  | clear =>
    rw [steps, clearSteps, List.mem_singleton] at hd
    subst hd
    exact set_last_zero _ _ _ _ h (Or.inr rfl)

theorem reads_of_zero : ∀ (n : Nat) (data : List Byte), data[n]? = some 0 → ∃ t, Reads data t ∧ t.length ≤ n := by
  intro n
  induction n with
  | zero =>
    intro data h
    cases data with
    | nil => cases h
    | cons c l =>
      simp only [List.getElem?_cons_zero, Option.some.injEq] at h
      subst h
      exact ⟨[], .nul l, Nat.le_refl _⟩
  | succ n ih =>
    intro data h
    cases data with
    | nil => cases h
    | cons c l =>
      by_cases hc : c = 0
      · subst hc; exact ⟨[], .nul l, Nat.zero_le _⟩
      · obtain ⟨t, ht, hl⟩ := ih l (by simpa using h)
        exact ⟨c :: t, .char c l t hc ht, by simpa using hl⟩

/-- In a string whose last byte is NUL to begin with (one of static storage, or one that has held `cap` characters) an
interrupt reads, at every moment of every sequence of assignments, some text of at most `cap` characters: it never runs
past the array. -/
theorem C250_static_partial (cap : Nat) (hc : 0 < cap) (cs : List Call) : ∀ (data : List Byte),
    data[cap]? = some 0 → ∀ d ∈ allSteps cap data cs, ∃ t, StaticString.cstr d = .ok t ∧ t.length ≤ cap := by
  induction cs with
  | nil =>
    intro data h d hd
    rw [allSteps, List.mem_singleton] at hd
    subst hd
    obtain ⟨t, ht, hl⟩ := reads_of_zero cap d h
    exact ⟨t, (cstr_reads d t).mpr ht, hl⟩
  | cons c cs ih =>
    intro data h d hd
    rw [allSteps] at hd
    rcases List.mem_cons.mp hd with rfl | hd
    · obtain ⟨t, ht, hl⟩ := reads_of_zero cap d h
      exact ⟨t, (cstr_reads d t).mpr ht, hl⟩
    · rcases List.mem_append.mp hd with hd | hd
      · obtain ⟨t, ht, hl⟩ := reads_of_zero cap d (steps_last cap hc data h c d hd)
        exact ⟨t, (cstr_reads d t).mpr ht, hl⟩
      · refine ih _ ?_ d hd
        cases hg : (steps cap data c).getLast? with
        | none => exact h
        | some x => exact steps_last cap hc data h c x (List.mem_of_getLast? hg)

example : allSteps 2 [0, 0, 0] [.copy [97, 98, 0], .clear] = [[0, 0, 0], [97, 0, 0], [97, 98, 0], [97, 98, 0], [97, 98, 0],
    [0, 98, 0], [0, 98, 0]] := by decide

/-- While a text that is not longer than the old one is assigned, an interrupt reads, after `j` stores, the first `j`
characters of the new text followed by the rest of the old one. -/
theorem C250_mixed_exact (old new junk : List Byte) (ho : ∀ c ∈ old, c ≠ 0) (hn : ∀ c ∈ new, c ≠ 0)
    (hl : new.length ≤ old.length) (rest : List Byte) (cap : Nat) (hcap : (old ++ 0 :: junk).length = cap + 1) :
    (copySteps cap (old ++ 0 :: junk) 0 (new ++ 0 :: rest)).map StaticString.cstr
      = (List.range new.length).map (fun j => .ok (mixed new old (j + 1))) ++ [.ok new] := by
  have hc : new.take cap = new := by
    rw [List.length_append, List.length_cons] at hcap
    exact List.take_of_length_le (by omega)
  rw [(C250_copy_exact cap _ hcap new rest hn).1, hc, List.map_append]
  congr 1
  · unfold during
    rw [List.map_map]
    apply List.map_congr_left
    intro j hj
    rw [List.mem_range] at hj
    simp only [Function.comp]
    rw [cstr_reads, List.drop_append, show j + 1 - old.length = 0 by omega, List.drop_zero, ← List.append_assoc]
    refine reads_nul _ _ ?_
    intro c hc
    rcases List.mem_append.mp hc with h | h
    · exact hn c (List.mem_of_mem_take h)
    · exact ho c (List.mem_of_mem_drop h)
  · simp only [List.map_cons, List.map_nil]
    congr 1
    rw [cstr_reads]
    exact reads_nul _ _ hn

example : (copySteps 3 ([120, 121, 122] ++ 0 :: []) 0 ([97, 98] ++ 0 :: [])).map StaticString.cstr
    = [.ok [97, 121, 122], .ok [97, 98, 122], .ok [97, 98]] := by decide

/-- While a longer text is assigned, the NUL of the old one is overwritten before the new one is stored: between those
stores an interrupt reads the new characters so far and then what lies in the array behind the old text, up to the next
NUL there. If there is none, it reads past the array. -/
theorem C250_longer_exact (old new junk : List Byte) (hn : ∀ c ∈ new, c ≠ 0) (rest : List Byte) (cap : Nat)
    (hcap : (old ++ 0 :: junk).length = cap + 1) (hl : new.length ≤ cap) (j : Nat) (hj : old.length < j)
    (hj' : j ≤ new.length) :
    ∃ d, (copySteps cap (old ++ 0 :: junk) 0 (new ++ 0 :: rest))[j - 1]? = some d
      ∧ (∀ t, StaticString.cstr d = .ok t ↔ ∃ u, StaticString.cstr (junk.drop (j - 1 - old.length)) = .ok u
          ∧ t = new.take j ++ u)
      ∧ (StaticString.cstr d = .ub ↔ 0 ∉ junk.drop (j - 1 - old.length)) := by
  have hc : new.take cap = new := List.take_of_length_le hl
  have e := (C250_copy_exact cap _ hcap new rest hn).1
  rw [hc] at e
  refine ⟨new.take j ++ junk.drop (j - 1 - old.length), ?_, ?_, ?_⟩
  · rw [e, List.getElem?_append, if_pos (by simp [during]; omega)]
    unfold during
    rw [List.getElem?_map, List.getElem?_range (by omega)]
    simp only [Option.map_some, Option.some.injEq]
    rw [show j - 1 + 1 = j by omega, List.drop_append, List.drop_eq_nil_of_le (by omega), List.nil_append]
    obtain ⟨q, hq⟩ : ∃ q, j - old.length = q + 1 := ⟨j - old.length - 1, by omega⟩
    rw [hq, List.drop_succ_cons, show j - 1 - old.length = q by omega]
  · have hx : ∀ c ∈ new.take j, c ≠ 0 := fun c h => hn c (List.mem_of_mem_take h)
    generalize new.take j = x at hx
    generalize junk.drop (j - 1 - old.length) = y
    induction x with
    | nil => intro t; simp
    | cons c x ih =>
      intro t
      have hc0 := hx c (List.mem_cons_self ..)
      rw [List.cons_append, StaticString.cstr, if_neg hc0]
      have ih := ih (fun d hd => hx d (List.mem_cons_of_mem _ hd))
      cases hxy : StaticString.cstr (x ++ y) with
      | ub =>
        constructor
        · intro h; cases h
        · rintro ⟨u, hu, _⟩
          have := (ih (x ++ u)).mpr ⟨u, hu, rfl⟩
          rw [hxy] at this; cases this
      | ok w =>
        obtain ⟨u, hu, rfl⟩ := (ih w).mp hxy
        constructor
        · intro h; cases h; exact ⟨u, hu, rfl⟩
        · rintro ⟨u', hu', rfl⟩
          rw [hu] at hu'
          cases hu'
          rfl
  · have hx : ∀ c ∈ new.take j, c ≠ 0 := fun c h => hn c (List.mem_of_mem_take h)
    generalize new.take j = x at hx
    generalize junk.drop (j - 1 - old.length) = y
    induction x with
    | nil =>
      rw [List.nil_append]
      induction y with
      | nil => simp [StaticString.cstr]
      | cons b y ih =>
        rw [StaticString.cstr]
        by_cases hb : b = 0
        · subst hb
          rw [if_pos rfl]
          constructor
          · intro h; cases h
          · intro h; simp at h
        · rw [if_neg hb]
          have hb' : ¬ (0 : Byte) = b := fun e => hb e.symm
          rw [List.mem_cons, not_or]
          constructor
          · intro h
            refine ⟨hb', ih.mp ?_⟩
            cases hy : StaticString.cstr y with
            | ub => rfl
            | ok w => rw [hy] at h; cases h
          · rintro ⟨_, h⟩
            rw [ih.mpr h]
            rfl
    | cons c x ih =>
      have hc0 := hx c (List.mem_cons_self ..)
      rw [List.cons_append, StaticString.cstr, if_neg hc0]
      have ih := ih (fun d hd => hx d (List.mem_cons_of_mem _ hd))
      refine Iff.trans ?_ ih
      cases hxy : StaticString.cstr (x ++ y) with
      | ub => constructor <;> intro _ <;> rfl
      | ok w => constructor <;> intro h <;> cases h

example : (copySteps 4 ([120] ++ 0 :: [7, 0, 8]) 0 ([97, 98, 99] ++ 0 :: []))[1]? = some [97, 98, 7, 0, 8]
    ∧ StaticString.cstr [97, 98, 7, 0, 8] = .ok [97, 98, 7] := by decide

/-- `clear()` is one store: before or after. -/
theorem C250_clear (data : List Byte) (h : 0 < data.length) :
    (clearSteps data).map StaticString.cstr = [.ok []] := by
  cases data with
  | nil => simp at h
  | cons c l => simp [clearSteps, StaticString.cstr]

example : (clearSteps [97, 98, 0]).map StaticString.cstr = [.ok []] := C250_clear _ (by decide)

/-- The full claim fails. Assigning "ab" over "xy": the interrupt reads "ay". Assigning "ab" to a new string, whose
constructor stores one byte only: the interrupt reads past the array. -/
theorem C250_violated :
    (∃ d ∈ copySteps 2 [120, 121, 0] 0 [97, 98, 0], StaticString.cstr d = .ok [97, 121])
    ∧ StaticString.clear [7, 7, 7] = .ok [0, 7, 7]
    ∧ (∃ d ∈ copySteps 2 [0, 7, 7] 0 [97, 98, 0], StaticString.cstr d = .ub) := by
  refine ⟨⟨[97, 121, 0], by decide, by decide⟩, by decide, ⟨[97, 7, 7], by decide, by decide⟩⟩

/-- The traces end in what the sequential model says. -/
theorem copySteps_final (cap : Nat) : ∀ (s data r : List Byte) (i : Nat),
    StaticString.copyLoop cap data i s = .ok r → (copySteps cap data i s).getLast? = some r := by
  intro s
  induction s with
  | nil => intro data r i h; cases h
  | cons c s ih =>
    intro data r i h
    unfold StaticString.copyLoop at h
    unfold copySteps
    by_cases hc : c ≠ 0 ∧ i < cap
    · rw [if_pos hc] at h ⊢
      by_cases hi : i < data.length
      · rw [arrSet_lt hi, R.bind_ok] at h
        rw [List.getLast?_cons, ih _ _ _ h]
        rfl
      · rw [arrSet_ub.mpr (by omega)] at h; cases h
    · rw [if_neg hc] at h ⊢
      by_cases hi : i < data.length
      · rw [arrSet_lt hi] at h
        cases h; rfl
      · rw [arrSet_ub.mpr (by omega)] at h; cases h

theorem copySvSteps_final (cap : Nat) : ∀ (s data r : List Byte) (i : Nat),
    StaticString.copySvLoop cap data i s = .ok r → (copySvSteps cap data i s).getLast? = some r := by
  intro s
  induction s with
  | nil =>
    intro data r i h
    unfold StaticString.copySvLoop at h
    unfold copySvSteps
    by_cases hi : i < data.length
    · rw [arrSet_lt hi] at h; cases h; rfl
    · rw [arrSet_ub.mpr (by omega)] at h; cases h
  | cons c s ih =>
    intro data r i h
    unfold StaticString.copySvLoop at h
    unfold copySvSteps
    by_cases hi : i < data.length
    · rw [arrSet_lt hi, R.bind_ok] at h
      dsimp only at h
      by_cases hc : i + 1 ≥ cap
      · rw [if_pos hc] at h ⊢
        by_cases hi2 : i + 1 < (data.set i c).length
        · rw [arrSet_lt hi2] at h; cases h; rfl
        · rw [arrSet_ub.mpr (by omega)] at h; cases h
      · rw [if_neg hc] at h ⊢
        rw [List.getLast?_cons, ih _ _ _ h]
        rfl
    · rw [arrSet_ub.mpr (by omega)] at h; cases h

/-- A call that is defined leaves what the last store of its trace leaves. -/
theorem C250_ends (cap : Nat) (data s r : List Byte) :
    (StaticString.copy cap data s = .ok r → (copySteps cap data 0 s).getLast? = some r)
    ∧ (StaticString.copySv cap data s = .ok r → (copySvSteps cap data 0 s).getLast? = some r)
    ∧ (StaticString.clear data = .ok r → (clearSteps data).getLast? = some r) := by
  refine ⟨copySteps_final cap s data r 0, copySvSteps_final cap s data r 0, ?_⟩
  intro h
  unfold StaticString.clear at h
  by_cases hi : 0 < data.length
  · rw [arrSet_lt hi] at h; cases h; rfl
  · rw [arrSet_ub.mpr (by omega)] at h; cases h

end StringIsr
