import Verif.Model.StringRange
import Verif.Spec.StringRange
import Verif.Props.StaticString
/-! # C256: StaticStrings as ranges and as std::strings -/
namespace StringRange
open StaticString StringRange.Spec

theorem cut_append (u rest : List Byte) : cstr (u ++ 0 :: rest) = .ok (cut u) := by
  induction u with
  | nil => rfl
  | cons c u ih =>
    rw [List.cons_append, cstr, cut]
    by_cases h : c = 0
    · rw [if_pos h, if_pos h]; rfl
    · rw [if_neg h, if_neg h, ih]; rfl

theorem cut_self (u : List Byte) (h : ∀ c ∈ u, c ≠ 0) : cut u = u := by
  induction u with
  | nil => rfl
  | cons c u ih =>
    rw [cut, if_neg (h c (by simp)), ih (fun x hx => h x (by simp [hx]))]

theorem cut_length (u : List Byte) : (cut u).length ≤ u.length := by
  induction u with
  | nil => simp [cut]
  | cons c u ih =>
    rw [cut]
    split
    · simp
    · simpa using ih

theorem cut_nonzero (u : List Byte) : ∀ c ∈ cut u, c ≠ 0 := by
  induction u with
  | nil => simp [cut]
  | cons c u ih =>
    rw [cut]
    split
    · simp
    · next h =>
      intro x hx
      rcases List.mem_cons.mp hx with rfl | hx
      · exact h
      · exact ih x hx

theorem cut_prefix (u : List Byte) : ∃ r, u = cut u ++ r ∧ (r = [] ∨ ∃ r', r = 0 :: r') := by
  induction u with
  | nil => exact ⟨[], rfl, .inl rfl⟩
  | cons c u ih =>
    rw [cut]
    split
    · next h => exact ⟨c :: u, rfl, .inr ⟨u, by rw [h]⟩⟩
    · obtain ⟨r, h1, h2⟩ := ih
      exact ⟨r, by rw [List.cons_append, ← h1], h2⟩

theorem end_eq {data t : List Byte} (h : cstr data = .ok t) : end_ data = .ok t.length := by
  unfold end_ StaticString.length
  rw [h]
  simp [begin_]

theorem readLoop_eq (rest : List Byte) : ∀ (t pre : List Byte), readLoop (pre ++ t ++ rest) pre.length t.length = .ok t := by
  intro t
  induction t with
  | nil => intro pre; rfl
  | cons c t ih =>
    intro pre
    rw [List.length_cons, readLoop, arrGet_lt (by simp)]
    have := ih (pre ++ [c])
    rw [List.append_assoc pre [c], List.singleton_append, List.length_append, List.length_singleton] at this
    simp only [R.bind_ok]
    rw [this]
    simp

/-- **C256**: `begin()` … `end()` visits exactly the characters of the text, in order, and reads nothing else. -/
theorem C256_visits (data t : List Byte) (h : cstr data = .ok t) : visited data = .ok t := by
  unfold visited
  rw [end_eq h]
  simp only [R.bind_ok]
  obtain ⟨-, rest, rfl⟩ := (cstr_iff data t).mp h
  exact readLoop_eq (0 :: rest) t []

example : visited [104, 105, 0, 7] = .ok [104, 105] := C256_visits _ _ (by decide)

theorem editLoop_eq {σ : Type} (body : σ → Byte → σ × Byte) (rest : List Byte) : ∀ (t pre : List Byte) (v : σ),
    editLoop body (pre ++ t ++ rest) v pre.length t.length = .ok (pre ++ edited body v t ++ rest) := by
  intro t
  induction t with
  | nil => intro pre v; simp [editLoop, edited]
  | cons c t ih =>
    intro pre v
    rw [List.length_cons, editLoop, arrGet_lt (by simp)]
    simp only [R.bind_ok]
    have hc : (pre ++ c :: t ++ rest)[pre.length]'(by simp) = c := by simp
    rw [hc, arrSet_lt (by simp)]
    simp only [R.bind_ok]
    have hs : (pre ++ c :: t ++ rest).set pre.length (body v c).2 = (pre ++ [(body v c).2]) ++ t ++ rest := by
      simp
    rw [hs]
    have := ih (pre ++ [(body v c).2]) (body v c).1
    rw [List.length_append, List.length_singleton] at this
    rw [this, edited]
    simp

/-- **C256**: editing a text in place with a range-for: afterwards the text is the edited one up to the first NUL written into it; the
rest of the array, and its size, are unchanged; the string does not grow. -/
theorem C256_edit {σ : Type} (body : σ → Byte → σ × Byte) (v : σ) (data t : List Byte) (h : cstr data = .ok t) :
    ∃ out, edit body data v = .ok out ∧ out.length = data.length ∧ out.drop t.length = data.drop t.length ∧
      cstr out = .ok (cut (edited body v t)) := by
  unfold edit
  rw [end_eq h]
  simp only [R.bind_ok]
  obtain ⟨-, rest, rfl⟩ := (cstr_iff data t).mp h
  have hl : ∀ (t : List Byte) (v : σ), (edited body v t).length = t.length := by
    intro t
    induction t with
    | nil => intro v; rfl
    | cons c t ih => intro v; simp [edited, ih]
  have := editLoop_eq body (0 :: rest) t [] v
  simp only [List.nil_append, List.length_nil] at this
  refine ⟨_, this, by simp [hl], ?_, cut_append _ _⟩
  rw [List.drop_left, ← hl t v, List.drop_left]

/-- **C256**: … so a body that never yields NUL gives exactly the edited text, of the same length. -/
theorem C256_edit_all {σ : Type} (body : σ → Byte → σ × Byte) (v : σ) (data t : List Byte) (h : cstr data = .ok t)
    (hb : ∀ v c, c ≠ 0 → (body v c).2 ≠ 0) :
    ∃ out, edit body data v = .ok out ∧ cstr out = .ok (edited body v t) ∧ StaticString.length out = .ok t.length := by
  obtain ⟨out, h1, -, -, h2⟩ := C256_edit body v data t h
  have ht := ((cstr_iff data t).mp h).1
  have hz : ∀ (t : List Byte) (v : σ), (∀ c ∈ t, c ≠ 0) → ∀ c ∈ edited body v t, c ≠ 0 := by
    intro t
    induction t with
    | nil => intro v _ c hc; simp [edited] at hc
    | cons c t ih =>
      intro v hn x hx
      rw [edited] at hx
      rcases List.mem_cons.mp hx with rfl | hx
      · exact hb v c (hn c (by simp))
      · exact ih _ (fun y hy => hn y (by simp [hy])) x hx
  have hl : ∀ (t : List Byte) (v : σ), (edited body v t).length = t.length := by
    intro t
    induction t with
    | nil => intro v; rfl
    | cons c t ih => intro v; simp [edited, ih]
  rw [cut_self _ (hz t v ht)] at h2
  refine ⟨out, h1, h2, ?_⟩
  unfold StaticString.length
  rw [h2]
  simp [hl]

example : edit (fun (n : Nat) c => (n + 1, if n = 1 then c else c - 32)) [104, 105, 106, 0, 7] 0 = .ok [72, 105, 74, 0, 7] := by decide

/-- **C256**: any stores through iterators between `begin()` and the `end()` of before: the text is then the rewritten one, up to the
first NUL; so a text never runs past the terminator it had. -/
theorem C256_stores (ws : List (Nat × Byte)) : ∀ (data t : List Byte), cstr data = .ok t → (∀ p ∈ ws, p.1 < t.length) →
    ∃ out, stores data ws = .ok out ∧ out.length = data.length ∧ cstr out = .ok (cut (written t ws)) ∧
      (cut (written t ws)).length ≤ t.length := by
  intro data t h hw
  obtain ⟨ht, rest, rfl⟩ := (cstr_iff data t).mp h
  clear h
  have key : ∀ (ws : List (Nat × Byte)) (u : List Byte), (∀ p ∈ ws, p.1 < u.length) →
      stores (u ++ 0 :: rest) ws = .ok (written u ws ++ 0 :: rest) ∧ (written u ws).length = u.length := by
    intro ws
    induction ws with
    | nil => intro u _; exact ⟨rfl, rfl⟩
    | cons p ws ih =>
      intro u hu
      obtain ⟨i, c⟩ := p
      have hi : i < u.length := hu (i, c) (by simp)
      have := ih (u.set i c) (fun q hq => by rw [List.length_set]; exact hu q (by simp [hq]))
      rw [stores, store, begin_, Nat.zero_add, arrSet_lt (by simp; omega), List.set_append_left _ _ hi]
      simp only [R.bind_ok]
      rw [written]
      exact ⟨this.1, by rw [this.2, List.length_set]⟩
  obtain ⟨h1, h2⟩ := key ws t hw
  refine ⟨_, h1, by simp [h2], cut_append _ _, ?_⟩
  rw [← h2]
  exact cut_length _

example : stores [104, 105, 106, 0, 7] [(2, 65), (1, 0), (0, 66)] = .ok [66, 0, 65, 0, 7] ∧
    cut (written [104, 105, 106] [(2, 65), (1, 0), (0, 66)]) = [66] := by decide

/-- **C256** needs the `end()` of before: a character stored at `end()` itself takes the terminator away, and what follows in the array
becomes part of the text; if nothing in the array ends it, reading the string runs out of the array. -/
theorem C256_end_exact (t rest : List Byte) (c : Byte) (ht : ∀ x ∈ t, x ≠ 0) (hc : c ≠ 0) :
    ∃ out, stores (t ++ 0 :: rest) [(t.length, c)] = .ok out ∧
      cstr out = match cstr rest with | .ok u => .ok (t ++ c :: u) | .ub => .ub := by
  refine ⟨t ++ c :: rest, ?_, ?_⟩
  · rw [stores, store, begin_, Nat.zero_add, arrSet_lt (by simp)]
    simp [stores]
  · induction t with
    | nil =>
      rw [List.nil_append, cstr, if_neg hc]
      cases cstr rest <;> rfl
    | cons a t ih =>
      have := ih (fun x hx => ht x (by simp [hx]))
      rw [List.cons_append, cstr, if_neg (ht a (by simp)), this]
      cases cstr rest <;> rfl

example : stores [104, 0] [(1, 65)] = .ok [104, 65] ∧ cstr [104, 65] = .ub := by decide

/-- **C256**: a `std::string` converted to a StaticString holds its characters up to its first NUL, as many as fit; the string_view of
the same characters gives the same text. -/
theorem C256_of_std (cap : Nat) (data data' s : List Byte) (hd : data.length = cap + 1) :
    ∃ out, ofStd cap data s = .ok out ∧ out.length = cap + 1 ∧ cstr out = .ok ((cut s).take cap) ∧
      (0 < cap → data'.length = cap + 1 → ∃ out', copySv cap data' s = .ok out' ∧ cstr out' = cstr out) := by
  have hb : ∀ s : List Byte, beforeNul s = cut s := by
    intro s
    induction s with
    | nil => rfl
    | cons c s ih =>
      unfold beforeNul at ih ⊢
      rw [cut]
      by_cases hc : c = 0
      · simp [hc]
      · rw [List.takeWhile_cons_of_pos (by simpa using hc), if_neg hc, ih]
  obtain ⟨r, h1, h2⟩ := cut_prefix s
  obtain ⟨r', hr'⟩ : ∃ r', s ++ [0] = cut s ++ 0 :: r' := by
    rcases h2 with rfl | ⟨r', rfl⟩
    · exact ⟨[], by rw [h1]; simp [cut_self _ (cut_nonzero s)]⟩
    · refine ⟨r' ++ [0], ?_⟩
      conv => lhs; rw [h1]
      simp
  unfold ofStd
  rw [hr']
  obtain ⟨out, e1, e2, e3, -⟩ := C21_copy_cstr cap data hd (cut s) r' (cut_nonzero s)
  refine ⟨out, e1, e2, e3, fun hc hd' => ?_⟩
  obtain ⟨out', f1, -, f2⟩ := C21_copy_string_view_partial cap hc data' hd' s
  rw [hb] at f2
  exact ⟨out', f1, f2.trans e3.symm⟩

/-- **C256**: to `std::string` and back: the same text, if it fits. -/
theorem C256_round_trip (cap' : Nat) (data data' t : List Byte) (h : cstr data = .ok t) (hd : data'.length = cap' + 1) (hc : t.length ≤ cap') :
    ∃ out, toStd data = .ok t ∧ ofStd cap' data' t = .ok out ∧ cstr out = .ok t ∧ equal out data = .ok true := by
  obtain ⟨out, h1, -, h2, -⟩ := C256_of_std cap' data' [] t hd
  rw [cut_self t ((cstr_iff data t).mp h).1, List.take_of_length_le hc] at h2
  refine ⟨out, h, h1, h2, ?_⟩
  unfold equal
  rw [h, h2]
  simp

example : ofStd 3 [9, 9, 9, 9] [104, 0, 105] = .ok [104, 0, 9, 9] ∧ toStd [104, 0, 9, 9] = .ok [104] := by decide

end StringRange
