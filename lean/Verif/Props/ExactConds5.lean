import Verif.Props.ExactConds4
import Verif.Props.CircStack
import Verif.Props.FixedVector
import Verif.Props.IntToStr
import Verif.Props.MathFns
/-! # Exact conditions behind partial properties: C52, C117, C120, C123 -/

namespace CircStack
variable {T : Type}

/-- **C120**, exactly what the constructor from values makes: a stack that answers every sequence of calls as an empty one does, whatever the values. -/
theorem C120_exact (M : Nat) (hM : 0 < M) (dflt : T) (ts : List T) (ht : ts.length ≤ M) (ops : List (Op T)) :
    ∃ s, run M dflt (ofValues M dflt ts) ops = .ok (s, (Spec.run M dflt [] ops).2) :=
  C18_is_bounded_stack M hM dflt (ts ++ List.replicate (M - ts.length) dflt) (by simp; omega) ops

example := C120_exact 4 (by decide) 0 [5, 6, 7] (by decide) [.pop, .push 8, .size, .pop, .pop]

/-- **C120** (partial): the stack constructed from values answers as one holding them (asked for its size) exactly if there are none. -/
theorem C120_size_partial (M : Nat) (hM : 0 < M) (dflt : T) (ts : List T) (ht : ts.length ≤ M) :
    (∃ s, run M dflt (ofValues M dflt ts) [.size] = .ok (s, [.num ts.length])) ↔ ts = [] := by
  obtain ⟨s, e⟩ := C120_exact M hM dflt ts ht [.size]
  simp [Spec.run, Spec.step] at e
  constructor
  · rintro ⟨s', e'⟩
    rw [e] at e'
    injection e' with e'
    injection e' with _ e'
    injection e' with e'
    injection e' with e'
    exact List.eq_nil_of_length_eq_zero e'.symm
  · rintro rfl
    exact ⟨s, e⟩

example := (C120_size_partial 4 (by decide) 0 [] (by decide)).mpr rfl

end CircStack

namespace FixedVector
variable {T : Type}

/-- **C123**, exactly: with a bounds-checking `operator[]`, insert fails exactly if it inserts before the end of a vector with one free place, and otherwise does what it does without checks. -/
theorem C123_insert_partial (s : St T) (h : s.back ≤ s.data.length) (i : Nat) (x : T) :
    (insert true s i x = .ub ↔ i < s.back ∧ s.back + 1 = s.data.length) ∧
    (¬ (i < s.back ∧ s.back + 1 = s.data.length) → insert true s i x = insert false s i x) := by
  have key : ¬ (i < s.back ∧ s.back + 1 = s.data.length) → insert true s i x = insert false s i x ∧ insert true s i x ≠ .ub := by
    intro hn
    unfold insert
    by_cases h1 : s.back ≥ maxSize s ∨ i > s.back
    · rw [if_pos h1, if_pos h1]; exact ⟨rfl, by simp [R.pure_eq]⟩
    · rw [if_neg h1, if_neg h1]
      have h1' : s.back < s.data.length ∧ i ≤ s.back := by unfold maxSize at h1; omega
      by_cases h2 : i = s.back
      · rw [if_pos h2, if_pos h2]
        refine ⟨rfl, ?_⟩
        unfold pushBack
        rw [if_neg (by omega), arrSet_lt h1'.1]
        simp [R.pure_eq, R.bind_ok]
      · rw [if_neg h2, if_neg h2]
        have a1 : ∀ b, addr b s.data i = .ok i := fun b => by unfold addr; rw [if_pos (.inl (by omega))]
        have a2 : ∀ b, addr b s.data s.back = .ok s.back := fun b => by unfold addr; rw [if_pos (.inl h1'.1)]
        have a3 : ∀ b, addr b s.data (s.back + 1) = .ok (s.back + 1) := fun b => by unfold addr; rw [if_pos (.inl (by omega))]
        simp only [a1, a2, a3, R.bind_ok]
        refine ⟨trivial, ?_⟩
        obtain ⟨out, ho⟩ := moveRange_ok (data := s.data) (f := i) (l := s.back) (d := s.back + 1 - (s.back - i)) (by omega) (by omega) (by omega)
        have hl : out.length = s.data.length := by
          unfold moveRange at ho
          rw [if_pos (by omega)] at ho
          injection ho with ho
          rw [← ho]
          simp
          omega
        rw [ho, R.bind_ok, arrSet_lt (by omega)]
        simp [R.pure_eq, R.bind_ok]
  refine ⟨⟨fun hu => ?_, ?_⟩, fun hn => (key hn).1⟩
  · exact Decidable.byContradiction fun hn => (key hn).2 hu
  · rintro ⟨g1, g2⟩
    unfold insert
    rw [if_neg (by unfold maxSize; omega), if_neg (by omega)]
    unfold addr
    rw [if_pos (.inl (by omega)), R.bind_ok, if_pos (.inl (by omega)), R.bind_ok, if_neg (by simp; omega), R.bind_ub]

example := (C123_insert_partial (⟨[1, 2, 0], 2⟩ : St Nat) (by decide) 0 9).1.mpr (by decide)

/-- ... and erase exactly if it takes an element other than the last out of a full vector. -/
theorem C123_erase_partial (s : St T) (h : s.back ≤ s.data.length) (i : Nat) :
    (erase true s i = .ub ↔ i + 1 < s.back ∧ s.back = s.data.length) ∧
    (¬ (i + 1 < s.back ∧ s.back = s.data.length) → erase true s i = erase false s i) := by
  have key : ¬ (i + 1 < s.back ∧ s.back = s.data.length) → erase true s i = erase false s i ∧ erase true s i ≠ .ub := by
    intro hn
    unfold erase
    by_cases h1 : s.back = 0 ∨ i ≥ s.back
    · rw [if_pos h1, if_pos h1]; exact ⟨rfl, by simp [R.pure_eq]⟩
    · rw [if_neg h1, if_neg h1]
      by_cases h2 : i = s.back - 1
      · rw [if_pos h2, if_pos h2]; exact ⟨rfl, by simp [R.pure_eq]⟩
      · rw [if_neg h2, if_neg h2]
        have a1 : ∀ b, addr b s.data (i + 1) = .ok (i + 1) := fun b => by unfold addr; rw [if_pos (.inl (by omega))]
        have a2 : ∀ b, addr b s.data s.back = .ok s.back := fun b => by unfold addr; rw [if_pos (.inl (by omega))]
        have a3 : ∀ b, addr b s.data i = .ok i := fun b => by unfold addr; rw [if_pos (.inl (by omega))]
        simp only [a1, a2, a3, R.bind_ok]
        refine ⟨trivial, ?_⟩
        obtain ⟨out, ho⟩ := moveRange_ok (data := s.data) (f := i + 1) (l := s.back) (d := i) (by omega) (by omega) (by omega)
        rw [ho]
        simp [R.pure_eq, R.bind_ok]
  refine ⟨⟨fun hu => ?_, ?_⟩, fun hn => (key hn).1⟩
  · exact Decidable.byContradiction fun hn => (key hn).2 hu
  · rintro ⟨g1, g2⟩
    unfold erase
    rw [if_neg (by omega), if_neg (by omega)]
    unfold addr
    rw [if_pos (.inl (by omega)), R.bind_ok, if_neg (by simp; omega), R.bind_ub]

example := (C123_erase_partial (⟨[1, 2, 3], 3⟩ : St Nat) (by decide) 0).1.mpr (by decide)

end FixedVector

namespace Print

/-- **C52**, exactly what print does with a string_view: it prints `out` exactly if the memory from the view's start holds `out`, without a NUL, and then a NUL, whatever the length of the view; otherwise the behaviour is undefined. So it is right
exactly if the first NUL is right behind the view. -/
theorem C52_view_exact (mem : List Nat) (len : Nat) (out : List Nat) :
    one (.view mem len) = .ok out ↔ (∀ c ∈ out, c ≠ 0) ∧ ∃ rest, mem = out ++ 0 :: rest := by
  show cstr mem = .ok out ↔ _
  induction mem generalizing out with
  | nil => simp [cstr]
  | cons c mem ih =>
    unfold cstr
    by_cases hc : c = 0
    · rw [if_pos hc]
      constructor
      · intro h
        injection h with h
        subst h
        exact ⟨by simp, mem, by simp [hc]⟩
      · rintro ⟨h1, rest, h2⟩
        cases out with
        | nil => rfl
        | cons a out =>
          simp only [List.cons_append, List.cons.injEq] at h2
          exact absurd (h2.1.symm.trans hc) (h1 a (by simp))
    · rw [if_neg hc]
      constructor
      · intro h
        cases hm : cstr mem with
        | ub => rw [hm] at h; cases h
        | ok r =>
          rw [hm, R.bind_ok] at h
          injection h with h
          subst h
          obtain ⟨g1, rest, g2⟩ := (ih r).mp hm
          refine ⟨?_, rest, by rw [g2]; rfl⟩
          intro x hx
          rcases List.mem_cons.mp hx with rfl | hx
          · exact hc
          · exact g1 x hx
      · rintro ⟨h1, rest, h2⟩
        cases out with
        | nil => simp only [List.nil_append, List.cons.injEq] at h2; exact absurd h2.1 hc
        | cons a out =>
          simp only [List.cons_append, List.cons.injEq] at h2
          rw [(ih out).mpr ⟨fun x hx => h1 x (by simp [hx]), rest, h2.2⟩, R.bind_ok, h2.1]

example := (C52_view_exact [97, 98, 99, 0] 2 [97, 98, 99]).mpr ⟨by decide, [], rfl⟩

end Print

namespace MathFns
open Interp Interp.Spec InterpArray MathTables Tables

/-- **C117**: exactly the arguments for which pow2 (in exact arithmetic) is defined: those above -5/2047. -/
theorem C117_pow2_exact (x : ℚ) : (∃ v, pow2 x = .ok v) ↔ -5 / 2047 < x := by
  constructor
  · rintro ⟨v, hv⟩
    rcases lt_or_ge (-5 / 2047) x with h | h
    · exact h
    · rw [C117_pow2_negative_violated x h] at hv; cases hv
  · intro h
    rcases lt_or_ge x 0 with hx | hx
    · unfold pow2
      rw [pow2Loop, if_pos (by linarith)]
      unfold interp
      rw [exp5_len]
      obtain ⟨v, hv⟩ := (C101_index_exact exp5Table (by rw [exp5_len]; norm_num) exp5_ne (x / 5 * ((2048 - 1 : Nat) : ℚ))).mpr (by rw [exp5_len]; norm_num; constructor <;> linarith)
      rw [hv, R.bind_ok]
      exact ⟨_, rfl⟩
    · obtain ⟨a, _, ha, _⟩ := C117_pow2 x (x + 1) hx (by linarith) 0
      exact ⟨a, ha⟩

example := (C117_pow2_exact (-1 / 1000)).mpr (by norm_num)

end MathFns
