import Verif.Props.Strings
/-! # Property C57, exact conditions: for which arguments replace_all ends, and for which it replaces every occurrence -/
namespace Strings
open Spec

theorem findFrom_infix (f : List Nat) : ∀ (s : List Nat) (i j : Nat), findFrom f s i = some j →
    ∃ pre post, s = pre ++ f ++ post ∧ j = i + pre.length := by
  intro s
  induction s with
  | nil =>
    intro i j h
    rw [findFrom] at h
    split at h
    · next hp =>
      cases h
      rw [List.isPrefixOf_iff_prefix] at hp
      obtain ⟨post, hpost⟩ := hp
      exact ⟨[], post, by simpa using hpost.symm, by simp⟩
    · cases h
  | cons c s ih =>
    intro i j h
    rw [findFrom] at h
    split at h
    · next hp =>
      cases h
      rw [List.isPrefixOf_iff_prefix] at hp
      obtain ⟨post, hpost⟩ := hp
      exact ⟨[], post, by simpa using hpost.symm, by simp⟩
    · obtain ⟨pre, post, h1, h2⟩ := ih (i + 1) j h
      exact ⟨c :: pre, post, by rw [h1]; rfl, by simp; omega⟩

theorem findFrom_not (f : List Nat) : ∀ (s : List Nat) (i : Nat), findFrom f s i = none ↔ ¬ f <:+: s := by
  intro s
  induction s with
  | nil =>
    intro i
    rw [findFrom]
    by_cases h : f = []
    · subst h; simp
    · rw [isPrefixOf_nil f h]; simpa using h
  | cons c s ih =>
    intro i
    rw [findFrom, List.infix_cons_iff]
    by_cases h : f <+: c :: s
    · rw [if_pos (List.isPrefixOf_iff_prefix.mpr h)]; simp [h]
    · rw [if_neg (by rwa [List.isPrefixOf_iff_prefix]), ih]; simp [h]

/-- The state after one match: what follows the new index is the rest of the replacement, then the text after the match. -/
theorem replace_step (f r s pre post : List Nat) (index j : Nat) (hi : index ≤ s.length) (h1 : s.drop index = pre ++ f ++ post)
    (h2 : j = index + pre.length) :
    replace s j f.length r = s.take index ++ pre ++ r ++ post ∧
    (replace s j f.length r).drop (j + f.length) = (r ++ post).drop f.length := by
  have hs : s = (s.take index ++ pre) ++ (f ++ post) := by
    rw [← List.take_append_drop index s, h1]
    simp [List.take_append_of_le_length, Nat.min_eq_left hi]
  have hl : (s.take index ++ pre).length = j := by simp [Nat.min_eq_left hi]; omega
  have hl2 : (s.take index ++ pre ++ f).length = j + f.length := by rw [List.length_append, hl]
  have e1 : s.take j = s.take index ++ pre := by
    conv => lhs; rw [hs]
    exact List.take_left' hl
  have e2 : s.drop (j + f.length) = post := by
    conv => lhs; rw [hs]
    rw [← List.append_assoc]
    exact List.drop_left' hl2
  have e3 : replace s j f.length r = s.take index ++ pre ++ r ++ post := by rw [replace, e1, e2]
  refine ⟨e3, ?_⟩
  rw [e3, ← hl, List.append_assoc, ← List.drop_drop, List.drop_left]

theorem find_eq {s f : List Nat} {index : Nat} (hi : index ≤ s.length) : find s f index = findFrom f (s.drop index) index := by
  rw [find, if_neg (by omega)]

theorem loop_diverges (f r : List Nat) (he : f <:+: r.drop f.length) : ∀ (fuel : Nat) (s : List Nat) (index : Nat),
    index ≤ s.length → f <:+: s.drop index → replaceLoop f r fuel s index = none := by
  have hr : f.length ≤ r.length := by
    have := he.length_le
    rw [List.length_drop] at this
    by_cases h : f = []
    · subst h; simp
    · have : 0 < f.length := List.length_pos_iff.mpr h
      omega
  intro fuel
  induction fuel with
  | zero => intros; rfl
  | succ fuel ih =>
    intro s index hi hf
    rw [replaceLoop, find_eq hi]
    split
    · next h => exact absurd hf ((findFrom_not f _ _).mp h)
    · next j h =>
      obtain ⟨pre, post, h1, h2⟩ := findFrom_infix f _ _ _ h
      obtain ⟨g1, g2⟩ := replace_step f r s pre post index j hi h1 h2
      apply ih
      · rw [g1]; simp [Nat.min_eq_left hi]; omega
      · rw [g2, List.drop_append_of_le_length hr]
        exact he.trans (List.prefix_append _ _).isInfix

theorem loop_ends (f r : List Nat) (hr : f.length ≤ r.length) (he : ¬ f <:+: r.drop f.length) : ∀ (fuel : Nat) (s v : List Nat) (index : Nat),
    index ≤ s.length → s.drop index = r.drop f.length ++ v → v.length < fuel → ∃ t, replaceLoop f r fuel s index = some t := by
  intro fuel
  induction fuel with
  | zero => intro s v index _ _ h; omega
  | succ fuel ih =>
    intro s v index hi hv hl
    rw [replaceLoop, find_eq hi]
    split
    · exact ⟨_, rfl⟩
    · next j h =>
      obtain ⟨pre, post, h1, h2⟩ := findFrom_infix f _ _ _ h
      obtain ⟨g1, g2⟩ := replace_step f r s pre post index j hi h1 h2
      apply ih _ post
      · rw [g1]; simp [Nat.min_eq_left hi]; omega
      · rw [g2, List.drop_append_of_le_length hr]
      · rw [hv] at h1
        have hlen := congrArg List.length h1
        simp only [List.length_append] at hlen
        have : ¬ (pre ++ f).length ≤ (r.drop f.length).length := by
          intro hle
          have hp : pre ++ f <+: r.drop f.length := by
            have a : pre ++ f <+: r.drop f.length ++ v := by rw [h1]; exact List.prefix_append _ _
            exact List.prefix_of_prefix_length_le a (List.prefix_append _ _) hle
          exact he ((List.suffix_append pre f).isInfix.trans hp.isInfix)
        rw [List.length_append] at this
        omega

/-- **C57**, exact condition for ending: `replace_all(s, f, r)` ends if and only if `f` does not occur in `s` or does not occur in what is left of the replacement after its first `f.length` characters. (So "a" by "aa" never
ends on a text with an "a", "a" by "bab" never ends either, "a" by "ab" always does; searching for the empty text never ends.) -/
theorem C57_terminates_exact (f r s : List Nat) : (∃ fuel t, replaceAll f r fuel s = some t) ↔ ¬ (f <:+: s ∧ f <:+: r.drop f.length) := by
  constructor
  · rintro ⟨fuel, t, h⟩ ⟨h1, h2⟩
    rw [replaceAll, loop_diverges f r h2 fuel s 0 (by omega) (by simpa using h1)] at h
    cases h
  · intro h
    by_cases he : f <:+: r.drop f.length
    · refine ⟨1, s, ?_⟩
      rw [replaceAll, replaceLoop, find_eq (by omega)]
      rw [(findFrom_not f _ _).mpr (by simpa using fun h' => h ⟨h', he⟩)]
    · have hf : f ≠ [] := by rintro rfl; exact he (List.nil_infix)
      rcases Nat.lt_or_ge r.length f.length with hr | hr
      · obtain ⟨t, ht⟩ := C57_terminates_partial f r hf (by omega) s
        exact ⟨_, t, ht⟩
      · refine ⟨s.length + 2, ?_⟩
        rw [replaceAll, replaceLoop, find_eq (by omega)]
        split
        · exact ⟨_, rfl⟩
        · next j h =>
          obtain ⟨pre, post, h1, h2⟩ := findFrom_infix f _ _ _ h
          obtain ⟨g1, g2⟩ := replace_step f r s pre post 0 j (by omega) h1 h2
          apply loop_ends f r hr he _ _ post
          · rw [g1]; simp; omega
          · rw [g2, List.drop_append_of_le_length hr]
          · have := congrArg List.length h1
            simp at this
            omega

/-- "a" by "bab" in "a" never ends; "a" by "ab" ends on every text; "ab" by "xab" and by "abab" -/
example : (¬ ∃ fuel t, replaceAll [97] [98, 97, 98] fuel [97] = some t) ∧ (∀ s, ∃ fuel t, replaceAll [97] [97, 98] fuel s = some t) ∧
    (∀ s, ∃ fuel t, replaceAll [97, 98] [120, 97, 98] fuel s = some t) ∧ ¬ ∃ fuel t, replaceAll [97, 98] [97, 98, 97, 98] fuel [97, 98] = some t := by
  simp only [C57_terminates_exact]
  exact ⟨by decide, fun _ h => absurd h.2 (by decide), fun _ h => absurd h.2 (by decide), by decide⟩

theorem loop_mono (f r : List Nat) : ∀ (fuel k : Nat) (s : List Nat) (index : Nat) (t : List Nat), replaceLoop f r fuel s index = some t →
    replaceLoop f r (fuel + k) s index = some t := by
  intro fuel
  induction fuel with
  | zero => intro k s index t h; cases h
  | succ fuel ih =>
    intro k s index t h
    rw [show fuel + 1 + k = (fuel + k) + 1 by omega, replaceLoop]
    rw [replaceLoop] at h
    split at h
    · exact h
    · exact ih k _ _ _ h

theorem findFrom_pass (f : List Nat) : ∀ (d s : List Nat) (i : Nat), (∀ k, k < d.length → ¬ f <+: d.drop k ∧ ¬ d.drop k <+: f) →
    findFrom f (d ++ s) i = findFrom f s (i + d.length) := by
  intro d
  induction d with
  | nil => intro s i _; rfl
  | cons c d ih =>
    intro s i h
    rw [List.cons_append, findFrom]
    have : ¬ f <+: c :: (d ++ s) := by
      intro hp
      have h0 := h 0 (by simp)
      rw [List.drop_zero] at h0
      rcases List.prefix_or_prefix_of_prefix hp (List.prefix_append (c :: d) s) with h' | h'
      · exact h0.1 h'
      · exact h0.2 h'
    rw [if_neg (by rwa [List.isPrefixOf_iff_prefix]), ih s (i + 1) ?_]
    · congr 1; simp; omega
    · intro k hk
      have := h (k + 1) (by simpa using hk)
      simpa using this

theorem loop_right (f r : List Nat) (hf : f ≠ []) (hr : f.length ≤ r.length)
    (hn : ∀ k, f.length ≤ k → k < r.length → ¬ f <+: r.drop k ∧ ¬ r.drop k <+: f) : ∀ (fuel : Nat) (dn d rest : List Nat) (index : Nat),
    index = dn.length → (d = [] ∨ d = r.drop f.length) → rest.length < fuel →
    replaceLoop f r fuel (dn ++ d ++ rest) index = some (dn ++ d ++ replaced f r rest 0) := by
  have hfl : 0 < f.length := List.length_pos_iff.mpr hf
  intro fuel
  induction fuel with
  | zero => intro dn d rest index _ _ h; omega
  | succ fuel ih =>
    intro dn d rest index h1 h2 h3
    have hd : ∀ k, k < d.length → ¬ f <+: d.drop k ∧ ¬ d.drop k <+: f := by
      rcases h2 with rfl | rfl
      · intro k hk; simp at hk
      · intro k hk
        rw [List.drop_drop]
        rw [List.length_drop] at hk
        exact hn _ (by omega) (by omega)
    have hfind : find (dn ++ d ++ rest) f index = findFrom f rest (dn ++ d).length := by
      rw [find_eq (by simp; omega), List.append_assoc, h1, List.drop_left, findFrom_pass f d rest _ hd, List.length_append]
    rw [replaceLoop, hfind]
    split
    · next h => rw [findFrom_none f r hf _ _ h]
    · next j h =>
      obtain ⟨pre, post, g1, g2, g3⟩ := findFrom_some f r hf _ _ _ h
      have hrep : replace (dn ++ d ++ rest) j f.length r = (dn ++ d ++ pre ++ r.take f.length) ++ r.drop f.length ++ post := by
        obtain ⟨q1, _⟩ := replace_step f r (dn ++ d ++ rest) pre post (dn ++ d).length j (by simp) (by rw [List.drop_left, g1]) g2
        rw [q1, List.take_left]
        simp
      rw [hrep, g3]
      rw [ih (dn ++ d ++ pre ++ r.take f.length) (r.drop f.length) post (j + f.length) (by simp [g2]; omega) (Or.inr rfl) ?_]
      · simp
      · rw [g1] at h3; simp at h3; omega

theorem loop_longer (f r : List Nat) (hr : f.length ≤ r.length) : ∀ (fuel : Nat) (s : List Nat) (index : Nat) (t : List Nat), index ≤ s.length →
    replaceLoop f r fuel s index = some t → s.length ≤ t.length ∧ (f <:+: s.drop index → f.length < r.length → s.length < t.length) := by
  intro fuel
  induction fuel with
  | zero => intro s index t _ h; cases h
  | succ fuel ih =>
    intro s index t hi h
    rw [replaceLoop, find_eq hi] at h
    split at h
    · next hn =>
      cases h
      exact ⟨Nat.le_refl _, fun h' => absurd h' ((findFrom_not f _ _).mp hn)⟩
    · next j hj =>
      obtain ⟨pre, post, h1, h2⟩ := findFrom_infix f _ _ _ hj
      obtain ⟨g1, g2⟩ := replace_step f r s pre post index j hi h1 h2
      have hl : s.length = index + (pre.length + f.length + post.length) := by
        have := congrArg List.length h1
        simp only [List.length_drop, List.length_append] at this
        omega
      have hl2 : (replace s j f.length r).length = index + pre.length + r.length + post.length := by
        rw [g1]; simp [Nat.min_eq_left hi]; omega
      have := (ih _ _ t (by rw [hl2]; omega) h).1
      constructor
      · omega
      · intros; omega

/-- **C57**, exact condition for being right: replace_all replaces every occurrence (scanning left to right, never looking into a replacement) in *every* text if and only if the replacement is at least as long as the text searched for, and
nothing after its first `f.length` characters could begin a match: no tail of it starts with `f` or is itself a beginning of `f`. -/
theorem C57_replace_all_exact (f r : List Nat) (hf : f ≠ []) :
    (∀ s, ∃ fuel, replaceAll f r fuel s = some (replaced f r s 0)) ↔
      f.length ≤ r.length ∧ ∀ k, f.length ≤ k → k < r.length → ¬ f <+: r.drop k ∧ ¬ r.drop k <+: f := by
  have hfl : 0 < f.length := List.length_pos_iff.mpr hf
  have hrep : ∀ y : List Nat, replaced f r (f ++ y) 0 = r ++ replaced f r y 0 := by
    intro y
    cases f with
    | nil => exact absurd rfl hf
    | cons a f =>
      rw [List.cons_append, replaced, if_pos (by rw [← List.cons_append]; exact List.prefix_append _ _), replaced_skip]
      simp
  have hshort : ∀ y : List Nat, y.length < f.length → replaced f r y 0 = y := by
    intro y hy
    exact findFrom_none f r hf y 0 ((findFrom_not f _ _).mpr fun h => by have := h.length_le; omega)
  constructor
  · intro h
    have hr : f.length ≤ r.length := by
      rcases Nat.lt_or_ge r.length f.length with hr | hr
      · exfalso
        obtain ⟨fuel, h1⟩ := h (f ++ f)
        have h2 : replaceAll f r 2 (f ++ f) = some (r ++ f) := by
          rw [replaceAll, replaceLoop, find_eq (by omega)]
          have : findFrom f (List.drop 0 (f ++ f)) 0 = some 0 := by
            cases f with
            | nil => exact absurd rfl hf
            | cons a f => rw [List.drop_zero, List.cons_append, findFrom, if_pos (List.isPrefixOf_iff_prefix.mpr (by rw [← List.cons_append]; exact List.prefix_append _ _))]
          rw [this]
          simp only [replace, List.take_zero, List.nil_append, Nat.zero_add, List.drop_left]
          rw [replaceLoop, find_eq (by simp), (findFrom_not f _ _).mpr]
          intro hc
          have := hc.length_le
          simp at this
          omega
        have m1 := loop_mono f r fuel 2 _ _ _ h1
        have m2 := loop_mono f r 2 fuel _ _ _ h2
        rw [show fuel + 2 = 2 + fuel by omega, m2] at m1
        rw [hrep] at m1
        have e : f = replaced f r f 0 := by simpa using m1
        have e2 := hrep []
        rw [List.append_nil, replaced, List.append_nil, ← e] at e2
        rw [← e2] at hr
        omega
      · exact hr
    refine ⟨hr, fun k h1 h2 => ⟨fun hp => ?_, fun hp => ?_⟩⟩
    · have hinf : f <:+: r.drop f.length := by
        have : r.drop k = (r.drop f.length).drop (k - f.length) := by rw [List.drop_drop]; congr 1; omega
        rw [this] at hp
        exact hp.isInfix.trans (List.drop_suffix _ _).isInfix
      obtain ⟨fuel, h3⟩ := h f
      exact (C57_terminates_exact f r f).mp ⟨fuel, _, h3⟩ ⟨List.infix_rfl, hinf⟩
    · obtain ⟨y, hy⟩ := hp
      have hly : y.length < f.length := by rw [← hy, List.length_append, List.length_drop]; omega
      obtain ⟨fuel, h3⟩ := h (f ++ y)
      rw [hrep, hshort y hly] at h3
      cases fuel with
      | zero => cases h3
      | succ fuel =>
        rw [replaceAll, replaceLoop, find_eq (by omega)] at h3
        have : findFrom f (List.drop 0 (f ++ y)) 0 = some 0 := by
          cases f with
          | nil => exact absurd rfl hf
          | cons a f => rw [List.drop_zero, List.cons_append, findFrom, if_pos (List.isPrefixOf_iff_prefix.mpr (by rw [← List.cons_append]; exact List.prefix_append _ _))]
        rw [this] at h3
        simp only [replace, List.take_zero, List.nil_append, Nat.zero_add, List.drop_left] at h3
        have hl := (loop_longer f r hr fuel (r ++ y) f.length (r ++ y) (by simp; omega) h3).2 ?_ (by omega)
        · omega
        · rw [List.drop_append_of_le_length hr]
          have : r.drop f.length = (r.drop f.length).take (k - f.length) ++ r.drop k := by
            conv => lhs; rw [← List.take_append_drop (k - f.length) (r.drop f.length)]
            rw [List.drop_drop, show f.length + (k - f.length) = k by omega]
          rw [this, List.append_assoc, hy]
          exact (List.suffix_append _ _).isInfix
  · rintro ⟨hr, hn⟩ s
    exact ⟨s.length + 1, by simpa [replaceAll] using loop_right f r hf hr hn (s.length + 1) [] [] s 0 rfl (Or.inl rfl) (by omega)⟩

/-- "&" by "&amp;" is right on every text; "ab" by "cda" is not ("ab" ++ "b") -/
example : (∀ s, ∃ fuel, replaceAll [38] [38, 97, 109, 112, 59] fuel s = some (replaced [38] [38, 97, 109, 112, 59] s 0)) ∧
    ¬ ∀ s, ∃ fuel, replaceAll [97, 98] [99, 100, 97] fuel s = some (replaced [97, 98] [99, 100, 97] s 0) := by
  rw [C57_replace_all_exact _ _ (by simp), C57_replace_all_exact _ _ (by simp)]
  refine ⟨⟨by decide, fun k h1 h2 => ?_⟩, fun h => (h.2 2 (by decide) (by decide)).2 (by decide)⟩
  have : k = 1 ∨ k = 2 ∨ k = 3 ∨ k = 4 := by simp at h1 h2; omega
  rcases this with rfl | rfl | rfl | rfl <;> decide

end Strings
