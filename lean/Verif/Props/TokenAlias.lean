import Verif.Model.TokenAlias
import Verif.Spec.TokenAlias
import Verif.Props.Strings
/-! # Property C205: tokenizing an element of the vector that receives the tokens -/

namespace TokenAlias
open Strings Strings.Spec Spec

theorem loop_ext (s d : List Nat) : ∀ (fuel : Nat) (tokens : List (List Nat)) (lp pos : Option Nat) (r : List (List Nat)),
    tokenizeLoop s d fuel tokens lp pos = some (.ok r) → ∃ ts, r = tokens ++ ts := by
  intro fuel
  induction fuel with
  | zero => intro tokens lp pos r h; simp [tokenizeLoop] at h
  | succ fuel ih =>
    intro tokens lp pos r h
    cases lp with
    | none =>
      cases pos with
      | none => simp [tokenizeLoop] at h; exact ⟨[], by simp [h]⟩
      | some p => simp [tokenizeLoop] at h
    | some l =>
      rw [tokenizeLoop] at h
      obtain ⟨ts, h1⟩ := ih _ _ _ _ h
      exact ⟨substr s l pos :: ts, by rw [h1]; simp⟩

theorem findFirst_lt {s : List Nat} {p : Nat → Bool} {o : Option Nat} {i : Nat} (h : findFirst s p o = some i) : i < s.length := by
  cases o with
  | none => simp [findFirst] at h
  | some j =>
    obtain ⟨pre, c, post, _, _, _, _, h6⟩ := findFirst_some s p j i h
    have := congrArg List.length h6
    simp at this; omega

theorem last_drop {s : List Nat} {l : Nat} (h : l < s.length) : s.getLast? = (s.drop l).getLast? := by
  rw [List.getLast?_drop, if_neg (by omega)]

/-- The text ends with a delimiter. -/
theorem ends_of_rest {s d : List Nat} {p : Nat} (hp : p < s.length) (h : ∀ c ∈ s.drop p, d.contains c = true) : (s.getLast?.any fun c => d.contains c) = true := by
  rw [last_drop hp]
  cases hl : (s.drop p).getLast? with
  | none => have := List.getLast?_eq_none_iff.mp hl; have := congrArg List.length this; simp at this; omega
  | some c => simpa using h c (List.mem_of_getLast? hl)

theorem not_ends_of_rest {s d : List Nat} {p : Nat} (hp : p < s.length) (h : ∀ c ∈ s.drop p, d.contains c = false) : (s.getLast?.any fun c => d.contains c) = false := by
  rw [last_drop hp]
  cases hl : (s.drop p).getLast? with
  | none => rfl
  | some c => simpa using h c (List.mem_of_getLast? hl)

theorem loop_spec (grow : Nat → Nat) (hg : ∀ c, c < grow c) (sIn dIn : Bool) (s d : List Nat) : ∀ (fuel : Nat) (tokens : List (List Nat)) (cap : Nat) (lp : Option Nat) (ts : List (List Nat)),
    tokenizeLoop s d fuel tokens lp (findFirst s (fun c => d.contains c) lp) = some (.ok (tokens ++ ts)) →
    (∀ l, lp = some l → l < s.length) → tokens.length ≤ cap →
    loop grow sIn dIn s d fuel tokens cap lp (findFirst s (fun c => d.contains c) lp) =
      some (if (dIn = true → ts.length ≤ cap - tokens.length) ∧ (sIn = true → followed s d ts ≤ cap - tokens.length) then .ok (tokens ++ ts) else .ub) := by
  intro fuel
  induction fuel with
  | zero => intro tokens cap lp ts h; simp [tokenizeLoop] at h
  | succ fuel ih =>
    intro tokens cap lp ts h hl hc
    cases lp with
    | none =>
      simp only [findFirst, tokenizeLoop, Option.some.injEq, R.ok.injEq] at h
      have : ts = [] := by simpa using h
      subst this
      simp [findFirst, loop, followed]
    | some l =>
      have hl0 := hl l rfl
      generalize hpos : findFirst s (fun c => d.contains c) (some l) = pos at h ⊢
      rw [tokenizeLoop] at h
      obtain ⟨ts', h1⟩ := loop_ext s d _ _ _ _ _ h
      have h2 : ts = substr s l pos :: ts' := by
        rw [List.append_assoc] at h1
        simpa using List.append_cancel_left h1
      subst h2
      have hlp : ∀ l', findFirst s (fun c => !d.contains c) pos = some l' → l' < s.length := fun l' h' => findFirst_lt h'
      have e : tokens ++ substr s l pos :: ts' = (tokens ++ [substr s l pos]) ++ ts' := by simp
      rw [e] at h
      -- what the position says about the end of the text
      have hnone : pos = none → ts' = [] ∧ (s.getLast?.any fun c => d.contains c) = false := by
        intro hp
        subst hp
        constructor
        · cases fuel with
          | zero => simp [tokenizeLoop] at h
          | succ fuel =>
            simp only [findFirst, tokenizeLoop, Option.some.injEq, R.ok.injEq] at h
            simpa using h
        · exact not_ends_of_rest hl0 (findFirst_none s _ l hpos)
      have hsome : ∀ p, pos = some p → ts' = [] → (s.getLast?.any fun c => d.contains c) = true := by
        intro p hp ht
        subst hp ht
        have hp' := findFirst_lt hpos
        cases hq : findFirst s (fun c => !d.contains c) (some p) with
        | none =>
          refine ends_of_rest hp' fun c hc' => ?_
          have := findFirst_none s _ p hq c hc'
          simpa using this
        | some q =>
          exfalso
          cases fuel with
          | zero => simp [tokenizeLoop] at h
          | succ fuel =>
            rw [hq, tokenizeLoop] at h
            obtain ⟨u, hu⟩ := loop_ext s d _ _ _ _ _ h
            have := congrArg List.length hu
            simp at this
      rw [loop]
      by_cases hm : tokens.length = cap
      · by_cases hd : dIn = true
        · rw [if_pos (by simp [hm, hd]), if_neg]
          rintro ⟨c, _⟩
          have := c hd
          simp at this; omega
        · have hd' : dIn = false := by simpa using hd
          subst hd'
          by_cases hs : sIn = true
          · subst hs
            cases pos with
            | some p =>
              rw [if_pos (by simp [hm]), if_neg]
              rintro ⟨_, c⟩
              have := c rfl
              cases ts' with
              | nil => rw [followed, if_pos (hsome p rfl rfl)] at this; simp at this; omega
              | cons t ts' =>
                rw [followed] at this
                split at this <;> simp at this <;> omega
            | none =>
              obtain ⟨k1, k2⟩ := hnone rfl
              subst k1
              rw [if_pos (show (false = true → [substr s l none].length ≤ cap - tokens.length) ∧ (true = true → followed s d [substr s l none] ≤ cap - tokens.length) from ⟨fun c => (by cases c), fun _ => (by rw [followed, k2]; simp)⟩)]
              simp only [Bool.false_or, Option.isSome_none, Bool.and_false, Bool.false_eq_true, if_false]
              cases fuel with
              | zero => simp [tokenizeLoop] at h
              | succ fuel => simp only [findFirst, loop]
          · have hs' : sIn = false := by simpa using hs
            subst hs'
            rw [if_pos (show (false = true → (substr s l pos :: ts').length ≤ cap - tokens.length) ∧ (false = true → followed s d (substr s l pos :: ts') ≤ cap - tokens.length) from ⟨fun c => (by cases c), fun c => (by cases c)⟩)]
            simp only [Bool.false_or, Bool.false_and, Bool.and_false, Bool.false_eq_true, if_false]
            rw [e]
            have := ih (tokens ++ [substr s l pos]) (grow cap) _ ts' h hlp (by have := hg cap; simp; omega)
            rw [if_pos (by simp)] at this
            simpa [hm] using this
      · rw [if_neg (by simp [hm])]
        have hgo := ih (tokens ++ [substr s l pos]) cap _ ts' h hlp (by simp; omega)
        simp only [hm, decide_false, Bool.false_eq_true, if_false]
        rw [hgo, e]
        congr 1
        have hlen : (tokens ++ [substr s l pos]).length = tokens.length + 1 := by simp
        have hlen2 : (substr s l pos :: ts').length = ts'.length + 1 := by simp
        have iff1 : (ts'.length ≤ cap - (tokens ++ [substr s l pos]).length) ↔ ((substr s l pos :: ts').length ≤ cap - tokens.length) := by
          rw [hlen, hlen2]; omega
        have iff2 : (followed s d ts' ≤ cap - (tokens ++ [substr s l pos]).length) ↔ (followed s d (substr s l pos :: ts') ≤ cap - tokens.length) := by
          simp only [followed]
          rw [hlen, hlen2]
          split <;> omega
        simp only [iff1, iff2]

/-- **C205, exactly.** Whatever the vector holds, whatever its capacity and however it grows: if `delimiters` is an element of the vector, the call is defined if and only if there is room for all the tokens; if the text is an element of the
vector, if and only if there is room for all the tokens that are followed by a delimiter. If it is defined, the tokens are appended as they should be. -/
theorem C205_exact (grow : Nat → Nat) (hg : ∀ c, c < grow c) (sIn dIn : Bool) (s delims : List Nat) (tokens : List (List Nat)) (cap fuel : Nat) (hc : tokens.length ≤ cap) (hf : s.length < fuel)
    (ts : List (List Nat)) (hr : Runs delims s ts) :
    tokenize grow sIn dIn s tokens cap delims fuel =
      some (if (dIn = true → ts.length ≤ cap - tokens.length) ∧ (sIn = true → followed s delims ts ≤ cap - tokens.length) then .ok (tokens ++ ts) else .ub) := by
  obtain ⟨ts', h1, h2⟩ := C58_tokenize s delims tokens fuel hf
  have : ts = ts' := C58_runs_unique delims s ts ts' hr h1
  subst this
  exact loop_spec grow hg sIn dIn s delims fuel tokens cap _ ts h2 (fun l h => findFirst_lt h) hc

/-- "a,b" as the only element of a vector with room for one more. -/
example : tokenize (fun c => 2 * c + 1) true false [97, 44, 98] [[97, 44, 98]] 2 [44] 4 = some (.ok [[97, 44, 98], [97], [98]]) := by
  have hr : Runs [44] [97, 44, 98] [[97], [98]] :=
    Runs.cons [] [97] [44, 98] [[98]] (by simp) (by simp) (by simp) (by simp) (Runs.cons [44] [98] [] [] (by simp) (by simp) (by simp) (by simp) (Runs.nil [] (by simp)))
  rw [C205_exact _ (fun c => by omega) true false _ _ _ 2 4 (by simp) (by simp) _ hr, if_pos (by simp [followed])]; rfl

/-- **C205 (the property is false here).** A vector made from a list has no spare capacity: tokenizing its only element "a,b" into it uses the text after it is gone. -/
theorem C205_view_violated (grow : Nat → Nat) : tokenize grow true false [97, 44, 98] [[97, 44, 98]] 1 [44] 4 = some .ub := rfl

/-- **C205 (the property is false here).** The same with delimiters that are an element of the vector, even if there is a single token. -/
theorem C205_delims_violated (grow : Nat → Nat) : tokenize grow false true [97] [[44]] 1 [44] 2 = some .ub := rfl

end TokenAlias
