import Verif.Spec.VersionOrder
import Verif.Props.Version
/-! # C244: comparing versions given as texts -/
namespace Version
open Version.Spec

theorem parse_text (L : Nat) (hL : 32 ≤ L) (t : Text) (rest : List Nat) (h : t.Plain) :
    parse L (t.chars ++ 0 :: rest) t.chars.length = .ok ⟨t.num 0, t.num 1, t.num 2, decide (t.suf = [])⟩ := by
  have hf : ∀ i, fieldOf t.nums i = t.num i := by
    intro i
    unfold fieldOf Text.num
    cases hi : t.nums[i]? with
    | none => rfl
    | some n =>
      have := h.byte n (List.mem_of_getElem? hi)
      simp [this]
  have := C54_parse_partial L hL t.nums t.suf rest 0 h.some (fun n hn => by have := h.byte n hn; omega) h.suf (by omega)
  rw [hf, hf, hf] at this
  exact this

theorem num_ge (t : Text) (h : t.Plain) (i : Nat) (hi : 3 ≤ i) : t.num i = 0 := by
  have := h.three
  unfold Text.num
  rw [List.getElem?_eq_none (by omega)]
  rfl

theorem older_iff (a b : Text) (ha : a.Plain) (hb : b.Plain) :
    a.Older b ↔ Precedes ⟨a.num 0, a.num 1, a.num 2, decide (a.suf = [])⟩ ⟨b.num 0, b.num 1, b.num 2, decide (b.suf = [])⟩ := by
  constructor
  · rintro (⟨i, h1, h2⟩ | ⟨h1, h2, h3⟩)
    · match i, h1, h2 with
      | 0, _, h2 => exact .major h2
      | 1, h1, h2 => exact .minor (h1 0 (by omega)) h2
      | 2, h1, h2 => exact .revision (h1 0 (by omega)) (h1 1 (by omega)) h2
      | i + 3, _, h2 =>
        rw [num_ge b hb (i + 3) (by omega)] at h2
        omega
    · exact .prerelease (h1 0) (h1 1) (h1 2) (by simpa using h2) (by simpa using h3)
  · intro h
    cases h with
    | major h => exact .inl ⟨0, fun j hj => by omega, h⟩
    | minor h0 h => exact .inl ⟨1, fun j hj => by obtain rfl : j = 0 := by omega
                                                  exact h0, h⟩
    | revision h0 h1 h =>
      refine .inl ⟨2, fun j hj => ?_, h⟩
      match j, hj with
      | 0, _ => exact h0
      | 1, _ => exact h1
    | prerelease h0 h1 h2 h3 h4 =>
      refine .inr ⟨fun i => ?_, by simpa using h3, by simpa using h4⟩
      match i with
      | 0 => exact h0
      | 1 => exact h1
      | 2 => exact h2
      | i + 3 => rw [num_ge a ha _ (by omega), num_ge b hb _ (by omega)]

/-- **C244 (partial)**: two versions made from texts in the library's range (one to three numbers up to 255, perhaps a pre-release
suffix) compare as the texts do: number by number, missing numbers counting as 0, and a pre-release before its version. Missing:
larger numbers, more than three numbers, and the order of the pre-releases of one version (see below). -/
theorem C244_order_partial (L : Nat) (hL : 32 ≤ L) (a b : Text) (ra rb : List Nat) (ha : a.Plain) (hb : b.Plain) :
    ∃ va vb, parse L (a.chars ++ 0 :: ra) a.chars.length = .ok va ∧ parse L (b.chars ++ 0 :: rb) b.chars.length = .ok vb ∧
      (isLater vb va = true ↔ a.Older b) ∧ (cmp va vb = .lt ↔ a.Older b) ∧ (cmp va vb = .gt ↔ b.Older a) ∧
      (cmp va vb = .eq ↔ ¬ a.Older b ∧ ¬ b.Older a) := by
  refine ⟨_, _, parse_text L hL a ra ha, parse_text L hL b rb hb, ?_⟩
  generalize hva : (⟨a.num 0, a.num 1, a.num 2, decide (a.suf = [])⟩ : Version) = va
  generalize hvb : (⟨b.num 0, b.num 1, b.num 2, decide (b.suf = [])⟩ : Version) = vb
  have h1 := older_iff a b ha hb
  have h2 := older_iff b a hb ha
  rw [hva, hvb] at h1 h2
  have c := C53_cmp va vb
  have c2 := C53_cmp vb va
  rw [h1, h2]
  refine ⟨c2.2.2.2, c.1, c.2.2.1, ?_⟩
  rw [← c.1, ← c.2.2.1]
  cases cmp va vb <;> simp

/-- "1.9.12-b" is older than "1.10" -/
example : (⟨[1, 9, 12], [45, 98]⟩ : Text).Plain ∧ (⟨[1, 10], []⟩ : Text).Plain ∧
    (⟨[1, 9, 12], [45, 98]⟩ : Text).Older ⟨[1, 10], []⟩ :=
  ⟨⟨by decide, by decide, by decide, .inr ⟨[98], rfl, by decide⟩⟩, ⟨by decide, by decide, by decide, .inl rfl⟩,
    .inl ⟨1, fun j hj => by obtain rfl : j = 0 := by omega
                            rfl, by decide⟩⟩

/-- **C244**: texts that differ only in zeros at the end (`"1.2"` and `"1.2.0"`) make equal versions. -/
theorem C244_zeros (L : Nat) (hL : 32 ≤ L) (a b : Text) (ra rb : List Nat) (ha : a.Plain) (hb : b.Plain)
    (h : ∀ i, a.num i = b.num i) (hs : a.suf = [] ↔ b.suf = []) :
    ∃ v, parse L (a.chars ++ 0 :: ra) a.chars.length = .ok v ∧ parse L (b.chars ++ 0 :: rb) b.chars.length = .ok v := by
  refine ⟨_, parse_text L hL a ra ha, ?_⟩
  rw [parse_text L hL b rb hb, h 0, h 1, h 2]
  simp [hs]

example : (⟨[1, 2], []⟩ : Text).num 2 = (⟨[1, 2, 0], []⟩ : Text).num 2 ∧ (⟨[1, 2], []⟩ : Text).num 1 = (⟨[1, 2, 0], []⟩ : Text).num 1 := by
  decide

/-- **C244 is violated**: outside the range the order is wrong. Every number from 256 on is older than 1: `"1.300"` is older than
`"1.2"`; a fourth number is ignored: `"1.2.3.9"` equals `"1.2.3.4"`; all pre-releases of a version are equal: `"1.0-rc1"` and
`"1.0-rc2"`; and with a dot in the suffix a pre-release is later than its version: `"1.0-rc.1"` than `"1.0"`. -/
theorem C244_order_violated :
    (∀ (L maj m n : Nat) (r r' : List Nat), 32 ≤ L → maj ≤ 255 → 0 < m → m ≤ 255 → 256 ≤ n → n < 2147483648 →
      ∃ va vb, parse L (dotted [maj, n] ++ [] ++ 0 :: r) (dotted [maj, n] ++ []).length = .ok va ∧
        parse L (dotted [maj, m] ++ [] ++ 0 :: r') (dotted [maj, m] ++ []).length = .ok vb ∧ isLater vb va = true) ∧
    (∀ (L a b c d e : Nat) (r r' : List Nat), 32 ≤ L → (∀ x ∈ [a, b, c, d, e], x < 2147483648) →
      ∃ v, parse L (dotted [a, b, c, d] ++ [] ++ 0 :: r) (dotted [a, b, c, d] ++ []).length = .ok v ∧
        parse L (dotted [a, b, c, e] ++ [] ++ 0 :: r') (dotted [a, b, c, e] ++ []).length = .ok v) ∧
    (∀ (L : Nat) (ns s s' : List Nat) (r r' : List Nat), 32 ≤ L → ns ≠ [] → (∀ x ∈ ns, x < 2147483648) → 46 ∉ s → 46 ∉ s' →
      ∃ v, parse L (dotted ns ++ 45 :: s ++ 0 :: r) (dotted ns ++ 45 :: s).length = .ok v ∧
        parse L (dotted ns ++ 45 :: s' ++ 0 :: r') (dotted ns ++ 45 :: s').length = .ok v) ∧
    (∃ va vb, parse 64 [49, 46, 48, 45, 114, 99, 46, 49, 0] 8 = .ok va ∧ parse 64 (dotted [1, 0] ++ [] ++ [0]) (dotted [1, 0] ++ []).length = .ok vb ∧
      isLater va vb = true) := by
  refine ⟨?_, ?_, ?_, ?_⟩
  · intro L maj m n r r' hL h1 h2 h3 h4 h5
    refine ⟨_, _, C54_parse_partial L hL [maj, n] [] r 0 (by simp) (by intro x hx; simp at hx; omega) (.inl rfl) (by omega),
      C54_parse_partial L hL [maj, m] [] r' 0 (by simp) (by intro x hx; simp at hx; omega) (.inl rfl) (by omega), ?_⟩
    rw [(C53_cmp _ _).2.2.2]
    refine .minor rfl ?_
    have : ¬ n ≤ 255 := by omega
    simp [fieldOf, this, h3, h2]
  · intro L a b c d e r r' hL h
    refine ⟨_, C54_parse_partial L hL [a, b, c, d] [] r 0 (by simp) (fun x hx => h x (by simp at hx ⊢; omega)) (.inl rfl) (by omega), ?_⟩
    rw [C54_parse_partial L hL [a, b, c, e] [] r' 0 (by simp) (fun x hx => h x (by simp at hx ⊢; omega)) (.inl rfl) (by omega)]
    rfl
  · intro L ns s s' r r' hL hn h hs hs'
    refine ⟨_, C54_parse_partial L hL ns (45 :: s) r 0 hn h (.inr ⟨s, rfl, hs⟩) (by omega), ?_⟩
    rw [C54_parse_partial L hL ns (45 :: s') r' 0 hn h (.inr ⟨s', rfl, hs'⟩) (by omega)]
    simp
  · refine ⟨_, _, C56_prerelease_violated, C54_parse_partial 64 (by decide) [1, 0] [] [] 0 (by simp) (by decide) (.inl rfl) (by omega), ?_⟩
    decide

end Version
