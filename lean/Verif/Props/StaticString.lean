import Verif.Model.StaticString
/-! # Properties C21, C22: StaticString -/
namespace StaticString

/-- The array holds the string `t` (no NUL in `t`, terminated). -/
def Holds (data t : List Byte) : Prop := cstr data = .ok t

theorem cstr_append (t rest : List Byte) (h : ∀ c ∈ t, c ≠ 0) : cstr (t ++ 0 :: rest) = .ok t := by
  induction t with
  | nil => simp [cstr]
  | cons c t ih =>
    have hc : c ≠ 0 := h c (by simp)
    simp only [List.cons_append, cstr, hc, if_false]
    rw [ih (fun x hx => h x (by simp [hx]))]
    rfl

theorem cstr_iff (data t : List Byte) : cstr data = .ok t ↔ (∀ c ∈ t, c ≠ 0) ∧ ∃ rest, data = t ++ 0 :: rest := by
  constructor
  · intro h
    induction data generalizing t with
    | nil => simp [cstr] at h
    | cons c d ih =>
      simp only [cstr] at h
      split at h
      · next hc =>
        cases h
        exact ⟨by simp, d, by simp [hc]⟩
      · next hc =>
        cases hd : cstr d with
        | ub => rw [hd] at h; simp at h
        | ok r =>
          rw [hd] at h
          simp at h
          subst h
          obtain ⟨h1, rest, h2⟩ := ih r hd
          refine ⟨?_, rest, by rw [h2]; rfl⟩
          intro x hx
          simp at hx
          rcases hx with rfl | hx
          · exact hc
          · exact h1 x hx
  · rintro ⟨h1, rest, rfl⟩
    exact cstr_append t rest h1

/-- writing the characters of `t` one after another from position `i` -/
theorem copyLoop_spec (cap : Nat) (t rest : List Byte) (ht : ∀ c ∈ t, c ≠ 0) : ∀ (pre data : List Byte),
    data.length = cap + 1 → pre.length ≤ cap → data.take pre.length = pre →
    ∃ out, copyLoop cap data pre.length (t ++ 0 :: rest) = .ok out ∧ out.length = cap + 1 ∧
      ∃ tail, out = pre ++ t.take (cap - pre.length) ++ 0 :: tail := by
  induction t with
  | nil =>
    intro pre data hd hp hpre
    refine ⟨data.set pre.length 0, ?_, by simp [hd], data.drop (pre.length + 1), ?_⟩
    · simp [copyLoop, arrSet_lt (show pre.length < data.length by omega)]
    · rw [List.set_eq_take_append_cons_drop, if_pos (by omega), hpre]; simp
  | cons c t ih =>
    intro pre data hd hp hpre
    simp only [List.cons_append, copyLoop]
    by_cases hc : pre.length < cap
    · rw [if_pos ⟨ht c (by simp), hc⟩, arrSet_lt (by omega)]
      simp only [R.bind_ok]
      have hset : (data.set pre.length c).take (pre ++ [c]).length = pre ++ [c] := by
        rw [List.set_eq_take_append_cons_drop, if_pos (by omega), hpre]
        simp [List.take_append]
        exact List.take_of_length_le (by omega)
      obtain ⟨out, h1, h2, tail, h3⟩ := ih (fun x hx => ht x (by simp [hx])) (pre ++ [c]) (data.set pre.length c)
        (by simp [hd]) (by simp; omega) hset
      refine ⟨out, by simpa using h1, h2, tail, ?_⟩
      rw [h3, show cap - pre.length = (cap - (pre ++ [c]).length) + 1 by simp; omega]
      simp
    · rw [if_neg (by simp [hc])]
      refine ⟨data.set pre.length 0, by rw [arrSet_lt (by omega)], by simp [hd], data.drop (pre.length + 1), ?_⟩
      rw [List.set_eq_take_append_cons_drop, if_pos (by omega), hpre, show cap - pre.length = 0 by omega]; simp

theorem copySvLoop_spec (cap : Nat) (t : List Byte) : ∀ (pre data : List Byte),
    data.length = cap + 1 → pre.length < cap → data.take pre.length = pre →
    ∃ out, copySvLoop cap data pre.length t = .ok out ∧ out.length = cap + 1 ∧
      ∃ tail, out = pre ++ t.take (cap - pre.length) ++ 0 :: tail := by
  induction t with
  | nil =>
    intro pre data hd hp hpre
    refine ⟨data.set pre.length 0, ?_, by simp [hd], data.drop (pre.length + 1), ?_⟩
    · simp [copySvLoop, arrSet_lt (show pre.length < data.length by omega)]
    · rw [List.set_eq_take_append_cons_drop, if_pos (by omega), hpre]; simp
  | cons c t ih =>
    intro pre data hd hp hpre
    simp only [copySvLoop]
    rw [arrSet_lt (by omega)]
    simp only [R.bind_ok]
    have hset : (data.set pre.length c).take (pre ++ [c]).length = pre ++ [c] := by
      rw [List.set_eq_take_append_cons_drop, if_pos (by omega), hpre]
      simp [List.take_append]
      exact List.take_of_length_le (by omega)
    by_cases hc : pre.length + 1 ≥ cap
    · rw [if_pos hc, arrSet_lt (by simp; omega)]
      refine ⟨_, rfl, by simp [hd], (data.set pre.length c).drop (pre.length + 1 + 1), ?_⟩
      have : (data.set pre.length c).take (pre.length + 1) = pre ++ [c] := by simpa using hset
      rw [List.set_eq_take_append_cons_drop, if_pos (by simp; omega), this, show cap - pre.length = 1 by omega]
      simp
    · rw [if_neg hc]
      obtain ⟨out, h1, h2, tail, h3⟩ := ih (pre ++ [c]) (data.set pre.length c)
        (by simp [hd]) (by simp; omega) hset
      refine ⟨out, by simpa using h1, h2, tail, ?_⟩
      rw [h3, show cap - pre.length = (cap - (pre ++ [c]).length) + 1 by simp; omega]
      simp

/-- **C21** for a `const char *`: for every capacity, previous content `data` and source (the bytes `t` without a NUL,
then the terminator, then anything), `copy` stays inside the array and leaves the longest prefix that fits. -/
theorem C21_copy_cstr (cap : Nat) (data : List Byte) (hd : data.length = cap + 1) (t rest : List Byte)
    (ht : ∀ c ∈ t, c ≠ 0) :
    ∃ out, copy cap data (t ++ 0 :: rest) = .ok out ∧ out.length = cap + 1 ∧ Holds out (t.take cap) ∧
      length out = .ok (min cap t.length) ∧ available cap out = .ok (cap - min cap t.length) := by
  obtain ⟨out, h1, h2, tail, h3⟩ := copyLoop_spec cap t rest ht [] data hd (Nat.zero_le _) rfl
  simp only [List.length_nil, List.nil_append, Nat.sub_zero] at h1 h3
  have hh : Holds out (t.take cap) := by
    rw [Holds, h3]; exact cstr_append _ _ (fun c hc => ht c (List.mem_of_mem_take hc))
  refine ⟨out, h1, h2, hh, ?_, ?_⟩
  · rw [length, hh]; simp
  · rw [available, length, hh]; simp

example := C21_copy_cstr 3 [1, 1, 1, 1] rfl [65, 66, 67, 68] [9] (by decide)

/-- Everything before the first NUL. -/
def beforeNul (s : List Byte) : List Byte := s.takeWhile (· ≠ 0)

theorem cstr_take (cap : Nat) (s tail : List Byte) : cstr (s.take cap ++ 0 :: tail) = .ok ((beforeNul s).take cap) := by
  induction cap generalizing s with
  | zero => simp [cstr]
  | succ cap ih =>
    cases s with
    | nil => simp [cstr, beforeNul]
    | cons c s =>
      by_cases hc : c = 0
      · subst hc; simp [cstr, beforeNul]
      · have := ih s
        have hb : beforeNul (c :: s) = c :: beforeNul s := by
          unfold beforeNul; rw [List.takeWhile_cons_of_pos (by simpa using hc)]
        simp only [List.take_succ_cons, List.cons_append, cstr, hc, if_false, this, hb]
        rfl

/-- **C21 (partial)** for a `string_view` (which may contain NULs), for every capacity above zero.  Missing: capacity
zero (next theorem). -/
theorem C21_copy_string_view_partial (cap : Nat) (hcap : 0 < cap) (data : List Byte) (hd : data.length = cap + 1)
    (s : List Byte) :
    ∃ out, copySv cap data s = .ok out ∧ out.length = cap + 1 ∧ Holds out ((beforeNul s).take cap) := by
  obtain ⟨out, h1, h2, tail, h3⟩ := copySvLoop_spec cap s [] data hd hcap rfl
  simp only [List.length_nil, List.nil_append, Nat.sub_zero] at h1 h3
  refine ⟨out, h1, h2, ?_⟩
  rw [Holds, h3]
  exact cstr_take cap s tail

example := C21_copy_string_view_partial 3 (by decide) [1, 1, 1, 1] rfl [65, 66, 0, 68]

/-- **C21 is violated** for `StaticString<0>` and a non-empty `string_view`: the terminator is written outside. -/
theorem C21_capacity_zero_violated (c : Byte) (s : List Byte) (d : Byte) : copySv 0 [d] (c :: s) = .ub := by
  simp [copySv, copySvLoop, arrSet]

/-- **C21**, `clear()`: empties the string whatever it held. -/
theorem C21_clear (cap : Nat) (data : List Byte) (hd : data.length = cap + 1) :
    ∃ out, clear data = .ok out ∧ out.length = cap + 1 ∧ Holds out [] := by
  refine ⟨data.set 0 0, by simp [clear, arrSet_lt (show 0 < data.length by omega)], by simp [hd], ?_⟩
  cases data with
  | nil => simp at hd
  | cons c d => simp [Holds, cstr]

/-- every string held in `cap + 1` bytes has at most `cap` characters, and `length() + available() = capacity` -/
theorem C21_length_available (cap : Nat) (data : List Byte) (hd : data.length = cap + 1) (t : List Byte) (h : Holds data t) :
    t.length ≤ cap ∧ ∃ n m, length data = .ok n ∧ available cap data = .ok m ∧ n = t.length ∧ n + m = cap := by
  obtain ⟨_, rest, hr⟩ := (cstr_iff data t).1 h
  have hl : t.length ≤ cap := by rw [hr] at hd; simp at hd; omega
  refine ⟨hl, t.length, cap - t.length, ?_, ?_, rfl, by omega⟩
  · rw [length, h]; simp
  · rw [available, length, h]; simp

example : copy 3 [9, 9, 9, 9] [65, 66, 67, 68, 0, 1] = .ok [65, 66, 67, 0] := by decide
example : copySv 3 [9, 9, 9, 9] [65, 66] = .ok [65, 66, 0, 9] := by decide

/-- **C22**: two strings compare equal iff they hold the same characters, whatever is behind the terminators and
whatever their capacities. -/
theorem C22_equal_iff (a b s t : List Byte) (ha : Holds a s) (hb : Holds b t) :
    equal a b = .ok (decide (s = t)) := by
  unfold equal
  rw [ha, hb]; rfl

/-- **C22**: copying from a StaticString of another capacity keeps the string if it fits, and copying back gives the
original string. -/
theorem C22_copy_between (capA capB : Nat) (a b s : List Byte) (ha : a.length = capA + 1) (hb : b.length = capB + 1)
    (hs : Holds a s) (hfit : s.length ≤ capB) :
    ∃ b', copyFrom capB b a = .ok b' ∧ Holds b' s ∧ equal a b' = .ok true ∧
      ∀ a2 : List Byte, a2.length = capA + 1 → ∃ a', copyFrom capA a2 b' = .ok a' ∧ Holds a' s := by
  obtain ⟨hnz, rest, hr⟩ := (cstr_iff a s).1 hs
  obtain ⟨b', h1, h2, h3, _⟩ := C21_copy_cstr capB b hb s rest hnz
  rw [List.take_of_length_le hfit] at h3
  refine ⟨b', by rw [copyFrom, hr]; exact h1, h3, ?_, ?_⟩
  · rw [C22_equal_iff a b' s s hs h3]; simp
  · intro a2 ha2
    obtain ⟨_, rest2, hr2⟩ := (cstr_iff b' s).1 h3
    obtain ⟨a', g1, g2, g3, _⟩ := C21_copy_cstr capA a2 ha2 s rest2 hnz
    have : s.length ≤ capA := by rw [hr] at ha; simp at ha; omega
    rw [List.take_of_length_le this] at g3
    exact ⟨a', by rw [copyFrom, hr2]; exact g1, g3⟩

example : Holds [72, 105, 0, 33] [72, 105] ∧ equal [72, 105, 0, 33] [72, 105, 0] = .ok true ∧
    equal [72, 105, 0, 33] [72, 0, 0] = .ok false := by unfold Holds; decide

theorem take_set_snoc {data pre : List Byte} (h : data.take pre.length = pre) (hl : pre.length < data.length) (c : Byte) :
    (data.set pre.length c).take (pre ++ [c]).length = pre ++ [c] := by
  rw [List.set_eq_take_append_cons_drop, if_pos hl, h]
  simp [List.take_append]
  exact List.take_of_length_le (by omega)

theorem set_zero_holds {data pre : List Byte} (h : data.take pre.length = pre) (hl : pre.length < data.length) (hz : ∀ c ∈ pre, c ≠ 0) :
    Holds (data.set pre.length 0) pre := by
  rw [Holds, List.set_eq_take_append_cons_drop, if_pos hl, h]
  exact cstr_append _ _ hz

theorem get_of_drop {data u : List Byte} {c : Byte} {p : Nat} (h : data.drop p = c :: u) : arrGet data p = .ok c ∧ p < data.length := by
  have hp : p < data.length := by
    rcases Nat.lt_or_ge p data.length with h1 | h1
    · exact h1
    · rw [List.drop_eq_nil_of_le h1] at h; cases h
  rw [List.drop_eq_getElem_cons hp] at h
  refine ⟨?_, hp⟩
  rw [arrGet_lt hp]
  rw [(List.cons.inj h).1]

theorem drop_set_later {data : List Byte} {i p : Nat} {c : Byte} (h : i < p) : (data.set i c).drop p = data.drop p := List.drop_set_of_lt h

theorem copySelfLoop_spec (cap k : Nat) (rest u : List Byte) (hu : ∀ c ∈ u, c ≠ 0) : ∀ (pre data : List Byte) (n : Nat),
    data.length = cap + 1 → pre.length + n = cap → data.take pre.length = pre → (∀ c ∈ pre, c ≠ 0) → data.drop (k + pre.length) = u ++ 0 :: rest →
    ∃ out, copySelfLoop k data pre.length n = .ok out ∧ out.length = cap + 1 ∧ Holds out (pre ++ u) := by
  induction u with
  | nil =>
    intro pre data n hd hn hp hz hs
    obtain ⟨hg, _⟩ := get_of_drop hs
    refine ⟨data.set pre.length 0, ?_, by simp [hd], by simpa using set_zero_holds hp (by omega) hz⟩
    cases n <;> simp [copySelfLoop, hg, arrSet_lt (show pre.length < data.length by omega)]
  | cons c u ih =>
    intro pre data n hd hn hp hz hs
    obtain ⟨hg, hlt⟩ := get_of_drop hs
    have hlen := congrArg List.length hs
    simp at hlen
    obtain ⟨n, rfl⟩ : ∃ m, n = m + 1 := ⟨n - 1, by omega⟩
    have hnz : c ≠ 0 := hu c (by simp)
    obtain ⟨out, h1, h2, h3⟩ := ih (fun x hx => hu x (by simp [hx])) (pre ++ [c]) (data.set pre.length c) n (by simp [hd]) (by simp; omega)
      (take_set_snoc hp (by omega) c) (by intro x hx; simp at hx; exact hx.elim (hz x) (fun h => by rw [h]; exact hnz))
      (by
        rw [drop_set_later (by simp; omega)]
        have := congrArg (List.drop 1) hs
        simpa [List.drop_drop, Nat.add_assoc] using this)
    refine ⟨out, ?_, h2, by simpa using h3⟩
    simp only [copySelfLoop, hg, R.bind_ok, if_pos hnz, arrSet_lt (show pre.length < data.length by omega)]
    simpa using h1

/-- **C170**: copying the rest of the string from position `k` onto the string itself gives exactly that rest, for every capacity, content and position; with `k = 0` the string is unchanged. -/
theorem C170_copy_self (cap : Nat) (data : List Byte) (hd : data.length = cap + 1) (t : List Byte) (ht : Holds data t) (k : Nat) (hk : k ≤ t.length) :
    ∃ out, copySelf cap data k = .ok out ∧ out.length = cap + 1 ∧ Holds out (t.drop k) := by
  obtain ⟨hz, rest, rfl⟩ := (cstr_iff data t).1 ht
  obtain ⟨out, h1, h2, h3⟩ := copySelfLoop_spec cap k rest (t.drop k) (fun c hc => hz c (List.mem_of_mem_drop hc)) [] (t ++ 0 :: rest) cap hd (by simp) rfl (by simp)
    (by simp [List.drop_append, Nat.sub_eq_zero_of_le hk])
  exact ⟨out, h1, h2, by simpa using h3⟩

theorem copySvSelfLoop_spec (cap k : Nat) : ∀ (m : Nat) (u rest pre data : List Byte), m ≤ u.length → (∀ c ∈ u, c ≠ 0) →
    data.length = cap + 1 → data.take pre.length = pre → (∀ c ∈ pre, c ≠ 0) → data.drop (k + pre.length) = u ++ 0 :: rest →
    ∃ out, copySvSelfLoop cap k data pre.length m = .ok out ∧ out.length = cap + 1 ∧ Holds out (pre ++ u.take m) := by
  intro m
  induction m with
  | zero =>
    intro u rest pre data hm hu hd hp hz hs
    have hlen := congrArg List.length hs
    simp at hlen
    exact ⟨data.set pre.length 0, by simp [copySvSelfLoop, arrSet_lt (show pre.length < data.length by omega)], by simp [hd], by simpa using set_zero_holds hp (by omega) hz⟩
  | succ m ih =>
    intro u rest pre data hm hu hd hp hz hs
    cases u with
    | nil => simp at hm
    | cons c u =>
      obtain ⟨hg, hlt⟩ := get_of_drop hs
      have hlen := congrArg List.length hs
      simp at hlen
      simp at hm
      have hp' := take_set_snoc hp (by omega) c
      have hz' : ∀ x ∈ pre ++ [c], x ≠ 0 := by
        intro x hx; simp at hx; exact hx.elim (hz x) (fun h => by rw [h]; exact hu c (by simp))
      simp only [copySvSelfLoop, hg, R.bind_ok, arrSet_lt (show pre.length < data.length by omega)]
      by_cases hc : pre.length + 1 ≥ cap
      · rw [if_pos hc]
        have hu0 : u = [] := List.length_eq_zero_iff.1 (by omega)
        subst hu0
        simp at hm
        subst hm
        have := set_zero_holds (data := data.set pre.length c) (pre := pre ++ [c]) hp' (by simp; omega) hz'
        refine ⟨_, by rw [arrSet_lt (by simp; omega)], by simp [hd], by simpa using this⟩
      · rw [if_neg hc]
        obtain ⟨out, h1, h2, h3⟩ := ih u rest (pre ++ [c]) (data.set pre.length c) hm (fun x hx => hu x (by simp [hx])) (by simp [hd]) hp' hz'
          (by
            rw [drop_set_later (by simp; omega)]
            have := congrArg (List.drop 1) hs
            simpa [List.drop_drop, Nat.add_assoc] using this)
        exact ⟨out, by simpa using h1, h2, by simpa using h3⟩

/-- **C170** for a string_view into the string: `s.copy(std::string_view{s}.substr(k, m))` leaves exactly those `m` characters. -/
theorem C170_copy_view_self (cap : Nat) (data : List Byte) (hd : data.length = cap + 1) (t : List Byte) (ht : Holds data t) (k m : Nat) (hk : k + m ≤ t.length) :
    ∃ out, copySvSelf cap data k m = .ok out ∧ out.length = cap + 1 ∧ Holds out ((t.drop k).take m) := by
  obtain ⟨hz, rest, rfl⟩ := (cstr_iff data t).1 ht
  obtain ⟨out, h1, h2, h3⟩ := copySvSelfLoop_spec cap k m (t.drop k) rest [] (t ++ 0 :: rest) (by simp; omega) (fun c hc => hz c (List.mem_of_mem_drop hc)) hd rfl (by simp)
    (by simp [List.drop_append, Nat.sub_eq_zero_of_le (show k ≤ t.length by omega)])
  exact ⟨out, h1, h2, by simpa using h3⟩

/-- a full string of capacity 4: its last two characters, its middle two -/
example : Holds [65, 66, 67, 68, 0] [65, 66, 67, 68] ∧ copySelf 4 [65, 66, 67, 68, 0] 2 = .ok [67, 68, 0, 68, 0] ∧ copySvSelf 4 [65, 66, 67, 68, 0] 1 2 = .ok [66, 67, 0, 68, 0] := ⟨rfl, rfl, rfl⟩

end StaticString
