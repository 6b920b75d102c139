import Verif.Spec.Callable
/-! # Property C206: a `Function` that tests true can be called -/

namespace Callable
open Spec

theorem call_real {A B : Type} (sem : Nat → List Nat → A → List Nat × B) (fsem : Nat → A → B) {f : Fun} (h : Real f) (a : A) :
    ∃ f' b, call sem fsem f a = .ok (f', b) ∧ Real f' := by
  induction h with
  | object c st => exact ⟨_, _, rfl, .object c _⟩
  | fn p => exact ⟨_, _, rfl, .fn p⟩
  | wrap f _ ih =>
    obtain ⟨f', b, h1, h2⟩ := ih
    exact ⟨.wrap f', b, by simp only [call, h1, R.bind_ok], .wrap f' h2⟩

theorem call_not_real {A B : Type} (sem : Nat → List Nat → A → List Nat × B) (fsem : Nat → A → B) (a : A) : ∀ {f : Fun}, ¬ Real f → call sem fsem f a = .ub := by
  intro f
  induction f with
  | empty => intro _; rfl
  | object c st => intro h; exact absurd (.object c st) h
  | fn p =>
    intro h
    cases p with
    | none => rfl
    | some p => exact absurd (.fn p) h
  | wrap f ih =>
    intro h
    have := ih fun h' => h (.wrap f h')
    simp only [call, this, R.bind_ub]

/-- **C206, exactly.** Any number of calls is defined if and only if there is an object or a non-null function at the bottom (one call at least; no call is always fine). -/
theorem C206_exact {A B : Type} (sem : Nat → List Nat → A → List Nat × B) (fsem : Nat → A → B) (f : Fun) (a : A) (l : List A) :
    (∃ r, calls sem fsem f (a :: l) = .ok r) ↔ Real f := by
  constructor
  · rintro ⟨r, h⟩
    refine Decidable.byContradiction (dec := Classical.propDecidable _) fun hc => ?_
    rw [calls, call_not_real sem fsem a hc, R.bind_ub] at h
    cases h
  · intro h
    have gen : ∀ (l : List A) (f : Fun), Real f → ∃ r, calls sem fsem f l = .ok r := by
      intro l
      induction l with
      | nil => intro f _; exact ⟨_, rfl⟩
      | cons a l ih =>
        intro f h
        obtain ⟨f', b, h1, h2⟩ := call_real sem fsem h a
        obtain ⟨⟨f'', bs⟩, h3⟩ := ih f' h2
        exact ⟨(f'', b :: bs), by simp only [calls, h1, h3, R.bind_ok]⟩
    exact gen _ f h

/-- **C206 (partial).** A `Function` made from an object (such as a lambda) and put into any number of larger ones tests true, can be called, and answers as the object does, its captured state kept from call to call. Missing: the `Function`s of
`C206_null_violated` and `C206_empty_violated`. -/
theorem C206_object_partial {A B : Type} (sem : Nat → List Nat → A → List Nat × B) (fsem : Nat → A → B) (n c : Nat) (st : List Nat) (l : List A) :
    isSet (wrapped n (.object c st)) = true ∧ ∃ f, calls sem fsem (wrapped n (.object c st)) l = .ok (f, answers sem c st l) := by
  constructor
  · cases n <;> rfl
  · have one : ∀ (n : Nat) (st : List Nat) (a : A), call sem fsem (wrapped n (.object c st)) a = .ok (wrapped n (.object c (sem c st a).1), (sem c st a).2) := by
      intro n
      induction n with
      | zero => intro st a; rfl
      | succ n ih => intro st a; simp only [wrapped, call, ih, R.bind_ok]
    induction l generalizing st with
    | nil => exact ⟨_, rfl⟩
    | cons a l ih =>
      obtain ⟨f, h⟩ := ih (sem c st a).1
      exact ⟨f, by simp only [calls, one, h, R.bind_ok, answers]⟩

/-- A counter that answers how often it has been called before, in a `Function` in a `Function`. -/
example : calls (A := Unit) (fun _ st _ => (st.map (· + 1), st)) (fun _ _ => []) (wrapped 2 (.object 0 [5])) [(), (), ()] = .ok (wrapped 2 (.object 0 [8]), [[5], [6], [7]]) := by decide

/-- **C206, the other direction.** One that can be called tests true. -/
theorem C206_callable_tests_true {A B : Type} (sem : Nat → List Nat → A → List Nat × B) (fsem : Nat → A → B) (f : Fun) (a : A) (r : Fun × B) (h : call sem fsem f a = .ok r) : isSet f = true := by
  cases f with
  | empty => simp [call] at h
  | _ => rfl

example : call (A := Unit) (fun _ st _ => (st, 3)) (fun p _ => p) (.wrap (.fn (some 4))) () = .ok (.wrap (.fn (some 4)), 4) := rfl

/-- **C206 (the property is false here).** Made from a null function pointer it tests true, and calling it is undefined. -/
theorem C206_null_violated {A B : Type} (sem : Nat → List Nat → A → List Nat × B) (fsem : Nat → A → B) (a : A) : isSet (.fn none) = true ∧ call sem fsem (.fn none) a = .ub := ⟨rfl, rfl⟩

/-- **C206 (the property is false here).** A larger one made from an empty smaller one tests true, and calling it is undefined. -/
theorem C206_empty_violated {A B : Type} (sem : Nat → List Nat → A → List Nat × B) (fsem : Nat → A → B) (a : A) (n : Nat) :
    isSet (wrapped n .empty) = decide (0 < n) ∧ call sem fsem (wrapped n .empty) a = .ub := by
  constructor
  · cases n <;> simp [wrapped, isSet]
  · induction n with
    | zero => rfl
    | succ n ih => simp only [wrapped, call, ih, R.bind_ub]

/-- **C206, alignment.** With 4- or 8-byte pointers and a `Function` wherever its own alignment of 8 allows, the callable is aligned at every address if and only if its alignment divides 8. -/
theorem C206_aligned_exact (ptr align : Nat) : (∀ addr, 8 ∣ addr → align ∣ dataAddr ptr addr) ↔ align ∣ 8 := by
  constructor
  · intro h
    have h0 := h 0 ⟨0, rfl⟩
    have h8 := h 8 ⟨1, rfl⟩
    unfold dataAddr at h0 h8
    rw [Nat.zero_add] at h0
    exact (Nat.dvd_add_left h0).mp h8
  · intro h addr ha
    unfold dataAddr
    exact Nat.dvd_trans h (Nat.dvd_add ha (Nat.dvd_mul_left 8 _))

example : (∀ addr, 8 ∣ addr → 4 ∣ dataAddr 4 addr) ∧ dataAddr 4 0x20000008 = 0x20000010 ∧ dataAddr 8 0x1000 = 0x1010 := ⟨(C206_aligned_exact 4 4).mpr ⟨2, rfl⟩, rfl, rfl⟩

/-- **C206 (the property is false here).** A callable of 16 bytes that needs an alignment of 16 is accepted by a `Function` with 8-byte pointers and stored at an address that is no multiple of 16. -/
theorem C206_overaligned_violated : accepts (2 * 8) 16 16 = true ∧ ∃ addr, 8 ∣ addr ∧ ¬ 16 ∣ dataAddr 8 addr := ⟨rfl, 8, ⟨1, rfl⟩, by decide⟩

end Callable
