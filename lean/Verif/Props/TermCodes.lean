import Verif.Spec.TermCodes
/-! # Property C218: what a terminal shows of texts with control constants -/

namespace TermCodes
open Spec

theorem display_append (s t : List Char) : ∀ m a, display m a (s ++ t) =
    ((display (display m a s).1 (display m a s).2.1 t).1, (display (display m a s).1 (display m a s).2.1 t).2.1, (display m a s).2.2 ++ (display (display m a s).1 (display m a s).2.1 t).2.2) := by
  induction s with
  | nil => intro m a; simp [display]
  | cons c s ih => intro m a; simp [display, ih, List.append_assoc]

theorem display_own (s : List Char) (h : '\x1b' ∉ s) (a : Attr) : display .ground a s = (.ground, a, s.map (.glyph · a)) := by
  induction s with
  | nil => rfl
  | cons c s ih =>
    have hc : c ≠ '\x1b' := fun e => h (by rw [e]; exact List.mem_cons_self ..)
    have := ih (fun hm => h (List.mem_cons_of_mem _ hm))
    simp [display, put, hc, this]

theorem display_code (c : Code) (a : Attr) : display .ground a (text c) = (.ground, meansAttr a c, meansEff c) := by
  obtain ⟨f, b, k⟩ := a
  cases c with
  | plain c => cases c <;> rfl
  | boldColor c => cases c <;> rfl
  | blinkColor c => cases c <;> rfl
  | _ => rfl

/-- **C218**: for every sequence of own texts (without ESC) and constants, from any attributes: the terminal shows exactly the own texts, each character with the attributes the constants before it mean, does what the cursor constants mean, and is outside of
control sequences at the end: no constant swallows or shows anything of the text around it. -/
theorem C218_display (l : List Piece) (h : ∀ s, .own s ∈ l → '\x1b' ∉ s) (a : Attr) : display .ground a (sent l) = (.ground, meant a l) := by
  induction l generalizing a with
  | nil => rfl
  | cons p l ih =>
    have hl : ∀ s, .own s ∈ l → '\x1b' ∉ s := fun s hs => h s (List.mem_cons_of_mem _ hs)
    cases p with
    | own s => simp [sent, meant, display_append, display_own s (h s (List.mem_cons_self ..)), ih hl]
    | code c => simp [sent, meant, display_append, display_code, ih hl]

example : display .ground {} (sent [.code (.boldColor .red), .own ['H', '['], .code .clearLine, .code .normal, .own ['m']]) =
    (.ground, {}, [.glyph 'H' { fg := some 1, bold := true }, .glyph '[' { fg := some 1, bold := true }, .eraseLine, .glyph 'm' {}]) := by decide

theorem meant_append (l k : List Piece) : ∀ a, meant a (l ++ k) = ((meant (meant a l).1 k).1, (meant a l).2 ++ (meant (meant a l).1 k).2) := by
  induction l with
  | nil => intro a; simp [meant]
  | cons p l ih => intro a; cases p <;> simp [meant, ih, List.append_assoc]

/-- **C218**: after `Normal` the attributes are the default ones, whatever was printed before. -/
theorem C218_normal (l : List Piece) (h : ∀ s, .own s ∈ l → '\x1b' ∉ s) (a : Attr) : (display .ground a (sent (l ++ [.code .normal]))).2.1 = {} := by
  rw [C218_display _ (by intro s hs; rcases List.mem_append.mp hs with h1 | h1; exact h s h1; simp at h1) a, meant_append]
  rfl

example := C218_normal [.code .bold, .own ['x']] (by simp) { blink := true }

/-- **C218**, exactly what a colour constant leaves in force: its colour, and bold and blinking if the constant or an earlier one since the last `Normal` switched them on. -/
theorem C218_color_exact (l : List Piece) (h : ∀ s, .own s ∈ l → '\x1b' ∉ s) (a : Attr) (c : Color) :
    (display .ground a (sent (l ++ [.code (.plain c)]))).2.1 = { fg := some (number c), bold := (display .ground a (sent l)).2.1.bold, blink := (display .ground a (sent l)).2.1.blink } ∧
    (display .ground a (sent (l ++ [.code (.boldColor c)]))).2.1 = { fg := some (number c), bold := true, blink := (display .ground a (sent l)).2.1.blink } ∧
    (display .ground a (sent (l ++ [.code (.blinkColor c)]))).2.1 = { fg := some (number c), bold := (display .ground a (sent l)).2.1.bold, blink := true } := by
  have hh : ∀ k : Code, ∀ s, .own s ∈ l ++ [.code k] → '\x1b' ∉ s := by
    intro k s hs
    rcases List.mem_append.mp hs with h1 | h1
    · exact h s h1
    · simp at h1
  rw [C218_display _ (hh _) a, C218_display _ (hh _) a, C218_display _ (hh _) a, C218_display _ h a, meant_append, meant_append, meant_append]
  exact ⟨rfl, rfl, rfl⟩

example := C218_color_exact [.code (.boldColor .blue), .own ['x']] (by simp) {} .red

/-- **C218, violated**: the plain colour `Red` after `BoldBlue` is shown bold: a plain colour constant does not switch bold off. -/
theorem C218_plain_violated : (display .ground {} (sent [.code (.boldColor .blue), .own ['x'], .code (.plain .red), .own ['y']])).2.2 =
    [.glyph 'x' { fg := some 4, bold := true }, .glyph 'y' { fg := some 1, bold := true }] := by decide

/-- **C218** (partial): a plain colour is shown plain if nothing but plain colours and cursor constants were printed since `Normal`. -/
theorem C218_plain_partial (l k : List Piece) (h : ∀ s, .own s ∈ l ++ .code .normal :: k → '\x1b' ∉ s)
    (hk : ∀ d, .code d ∈ k → d ≠ .bold ∧ d ≠ .blink ∧ (∀ c, d ≠ .boldColor c) ∧ ∀ c, d ≠ .blinkColor c) (a : Attr) (c : Color) :
    (display .ground a (sent (l ++ .code .normal :: (k ++ [.code (.plain c)])))).2.1 = { fg := some (number c) } := by
  have hh : ∀ s, .own s ∈ l ++ .code .normal :: (k ++ [.code (.plain c)]) → '\x1b' ∉ s := by
    intro s hs
    apply h s
    simp only [List.mem_append, List.mem_cons] at hs ⊢
    rcases hs with h1 | h1 | h1 | h1 | h1
    · exact .inl h1
    · exact .inr (.inl h1)
    · exact .inr (.inr h1)
    · cases h1
    · cases h1
  have key : ∀ k : List Piece, (∀ d, .code d ∈ k → d ≠ .bold ∧ d ≠ .blink ∧ (∀ c, d ≠ .boldColor c) ∧ ∀ c, d ≠ .blinkColor c) → ∀ a : Attr, a.bold = false → a.blink = false →
      (meant a k).1.bold = false ∧ (meant a k).1.blink = false := by
    intro k
    induction k with
    | nil => intro _ a h1 h2; exact ⟨h1, h2⟩
    | cons p k ih =>
      intro hd a h1 h2
      have hd' := fun d (hm : Piece.code d ∈ k) => hd d (List.mem_cons_of_mem _ hm)
      cases p with
      | own s => exact ih hd' a h1 h2
      | code d =>
        have := hd d (List.mem_cons_self ..)
        cases d with
        | bold => exact absurd rfl this.1
        | blink => exact absurd rfl this.2.1
        | boldColor c => exact absurd rfl (this.2.2.1 c)
        | blinkColor c => exact absurd rfl (this.2.2.2 c)
        | normal => exact ih hd' {} rfl rfl
        | plain c => exact ih hd' { a with fg := some (number c) } h1 h2
        | _ => exact ih hd' a h1 h2
  rw [C218_display _ hh a, meant_append]
  show (meant {} (k ++ [.code (.plain c)])).1 = _
  rw [meant_append]
  obtain ⟨h1, h2⟩ := key k hk {} rfl rfl
  show ({ (meant {} k).1 with fg := some (number c) } : Attr) = _
  rw [Attr.mk.injEq]
  exact ⟨rfl, h1, h2⟩

example := C218_plain_partial [.code .bold] [.code (.plain .green), .own ['x'], .code .clearLine] (by simp) (by simp) {} .red

end TermCodes
