import Verif.Props.Exact2
import Verif.Spec.VersionText
/-! # C54: what the constructor makes of every zero-terminated text -/
namespace Version
open Version.Spec

theorem decVal_foldl (s : List Nat) : ∀ acc, s.foldl (fun a x => a * 10 + (x - 48)) acc = acc * 10 ^ s.length + decVal s := by
  induction s with
  | nil => intro acc; simp [decVal]
  | cons c s ih =>
    intro acc
    rw [List.foldl_cons, ih, decVal, List.length_cons, Nat.pow_succ', Nat.add_mul]
    rw [Nat.mul_assoc]; omega

/-- `long` clamps. -/
def clamp (L : Nat) (z : Int) : Int := max (-2 ^ (L - 1)) (min z (2 ^ (L - 1) - 1))

theorem pow_pos' (L : Nat) : (1 : Int) ≤ 2 ^ (L - 1) := by
  have h : 0 < (2 : Int) ^ (L - 1) := Int.pow_pos (by decide)
  omega

theorem strtol_skip (L : Nat) (ws mem : List Nat) (h : ∀ c ∈ ws, space c) : strtol L (ws ++ mem) = strtol L mem := by
  induction ws with
  | nil => rfl
  | cons c ws ih =>
    rw [List.cons_append, strtol, if_pos (show c = 32 ∨ (9 ≤ c ∧ c ≤ 13) from h c (by simp)), ih (fun c hc => h c (by simp [hc]))]

theorem strtol_plain (L : Nat) (ds junk : List Nat) (e : Nat) (rest : List Nat) (he : e = 0 ∨ e = 46) (hd : ∀ c ∈ ds, digit c) (hj : ∀ c l, junk = c :: l → ¬ digit c)
    (h0 : ds = [] → ∀ c l, junk = c :: l → ¬ space c ∧ c ≠ 43 ∧ c ≠ 45) :
    strtol L (ds ++ (junk ++ e :: rest)) = .ok (min (decVal ds : Int) (2 ^ (L - 1) - 1)) := by
  have he' : ¬ (48 ≤ e ∧ e ≤ 57) := by omega
  have key : strtolDigits (ds ++ (junk ++ e :: rest)) 0 = .ok (decVal ds) := by
    cases junk with
    | nil => rw [List.nil_append, strtolDigits_append ds e rest hd he', decVal_foldl]; simp
    | cons c l => rw [List.cons_append, strtolDigits_append ds c _ hd (hj c l rfl), decVal_foldl]; simp
  have key2 : ∃ c l, ds ++ (junk ++ e :: rest) = c :: l ∧ ¬ space c ∧ c ≠ 43 ∧ c ≠ 45 := by
    cases ds with
    | cons d ds =>
      have := hd d (by simp)
      unfold digit at this
      exact ⟨d, _, rfl, by unfold space; omega, by omega, by omega⟩
    | nil =>
      cases junk with
      | nil => exact ⟨e, rest, rfl, by unfold space; omega, by omega, by omega⟩
      | cons c l => exact ⟨c, _, rfl, h0 rfl c l rfl⟩
  obtain ⟨c, l, hcl, hs, hp, hm⟩ := key2
  rw [hcl] at key ⊢
  rw [strtol, if_neg (show ¬ (c = 32 ∨ (9 ≤ c ∧ c ≤ 13)) from hs), strtolSign, if_neg hm, if_neg hp, key, R.bind_ok]

theorem strtol_starts (L : Nat) (t : List Nat) (z : Int) (e : Nat) (rest : List Nat) (he : e = 0 ∨ e = 46) (h : Starts t z) :
    strtol L (t ++ e :: rest) = .ok (clamp L z) := by
  have hp := pow_pos' L
  have he' : ¬ (48 ≤ e ∧ e ≤ 57) := by omega
  have dig : ∀ ds junk : List Nat, (∀ c ∈ ds, digit c) → (∀ c l, junk = c :: l → ¬ digit c) →
      strtolDigits (ds ++ (junk ++ e :: rest)) 0 = .ok (decVal ds) := by
    intro ds junk hd hj
    cases junk with
    | nil => rw [List.nil_append, strtolDigits_append ds e rest hd he', decVal_foldl]; simp
    | cons c l => rw [List.cons_append, strtolDigits_append ds c _ hd (hj c l rfl), decVal_foldl]; simp
  cases h with
  | plus ws sg ds junk ht hw hsg hd hj h0 =>
    have hc : clamp L (decVal ds : Int) = min (decVal ds : Int) (2 ^ (L - 1) - 1) := by
      unfold clamp; generalize (2 : Int) ^ (L - 1) = M at *; omega
    rw [hc]
    subst ht
    rw [List.append_assoc, List.append_assoc, List.append_assoc, strtol_skip L ws _ hw]
    rcases hsg with rfl | rfl
    · exact strtol_plain L ds junk e rest he hd hj (h0 rfl)
    · rw [List.singleton_append, strtol, if_neg (by decide), strtolSign, if_neg (by decide), if_pos rfl, dig ds junk hd hj, R.bind_ok]
  | minus ws ds junk ht hw hd hj =>
    have hc : clamp L (-(decVal ds : Int)) = max (-(decVal ds : Int)) (-2 ^ (L - 1)) := by
      unfold clamp; generalize (2 : Int) ^ (L - 1) = M at *; omega
    rw [hc]
    subst ht
    rw [List.append_assoc, List.append_assoc, List.append_assoc, strtol_skip L ws _ hw]
    rw [List.singleton_append, strtol, if_neg (by decide), strtolSign, if_pos rfl, dig ds junk hd hj, R.bind_ok]

/-- What the numbers starting at field `i` make of a version. -/
def setNums (L : Nat) : List Int → Nat → Version → Version
  | [], _, v => v
  | z :: l, i, v => setNums L l (i + 1) (setField v i (toUnsigned (clamp L z)))

theorem parse_joined (L : Nat) (rest : List Nat) : ∀ (ts : List (List Nat)) (zs : List Int) (lst : List Nat) (i : Nat) (v : Version),
    Numbers ts zs → (∀ t ∈ ts, 46 ∉ t) → ts.getLast? = some lst →
    parseLoop L (joined ts ++ 0 :: rest) (joined ts).length i v = .ok { setNums L zs i v with isNormal := !lst.contains 45 } := by
  intro ts
  induction ts with
  | nil => intro zs lst i v _ _ h; cases h
  | cons t l ih =>
    intro zs lst i v hn hd hl
    cases hn with
    | @cons _ z _ zs h1 h2 =>
      have ht := hd t (by simp)
      cases l with
      | nil =>
        cases h2
        simp at hl; subst hl
        have htake : (t ++ 0 :: rest).take t.length = t := take_len_append _ _
        change parseLoop L (t ++ 0 :: rest) t.length i v = _
        rw [parseLoop_none L _ _ i v (clamp L z) (by
            rw [htake, List.findIdx?_eq_none_iff]
            intro x hx
            rw [beq_eq_false_iff_ne]
            intro h; exact ht (h ▸ hx)) (strtol_starts L t z 0 rest (Or.inl rfl) h1), htake]
        rfl
      | cons u l =>
        have hj : joined (t :: u :: l) ++ 0 :: rest = t ++ 46 :: (joined (u :: l) ++ 0 :: rest) := by
          simp [joined]
        have htake : (joined (t :: u :: l) ++ 0 :: rest).take (joined (t :: u :: l)).length = t ++ 46 :: joined (u :: l) := by
          rw [take_len_append]; rfl
        rw [parseLoop_some L _ _ i t.length v (clamp L z) (by rw [htake]; exact findIdx?_dot _ _ ht) (by
            rw [hj]; exact strtol_starts L t z 46 _ (Or.inr rfl) h1)]
        have hdrop : (joined (t :: u :: l) ++ 0 :: rest).drop (t.length + 1) = joined (u :: l) ++ 0 :: rest := by
          rw [hj, ← List.drop_drop, List.drop_left]; rfl
        have hlen : (joined (t :: u :: l)).length - (t.length + 1) = (joined (u :: l)).length := by
          simp only [joined, List.length_append, List.length_cons]; omega
        rw [hdrop, hlen, ih zs lst (i + 1) _ h2 (fun x hx => hd x (by simp [hx])) (by simpa using hl)]
        rfl

theorem setNums_ge (L : Nat) (zs : List Int) : ∀ i v, 3 ≤ i → setNums L zs i v = v := by
  induction zs with
  | nil => intro i v _; rfl
  | cons n l ih =>
    intro i v hi
    have hset : ∀ x, setField v i x = v := by
      intro x
      unfold setField
      rw [if_neg (show ¬ i = 0 by omega)]
      simp only
      rw [if_neg (show ¬ i = 1 by omega), if_neg (show ¬ i = 2 by omega)]
      split <;> rfl
    rw [setNums, hset, ih (i + 1) v (by omega)]

theorem fields_nums (L : Nat) (zs : List Int) (f : Int → Nat) (hf : ∀ z, toUnsigned (clamp L z) = f z) :
    setNums L zs 0 {} = ⟨fieldOf (zs.map f) 0, fieldOf (zs.map f) 1, fieldOf (zs.map f) 2, true⟩ := by
  match zs with
  | [] => rfl
  | [a] =>
    rw [setNums, setNums, hf]
    generalize ha : f a = x
    simp only [setField, fieldOf, List.map, ha]
    by_cases h : x > 255
    · simp [h]; try omega
    · simp [h]; try omega
  | [a, b] =>
    rw [setNums, setNums, setNums, hf, hf]
    generalize ha : f a = x
    generalize hb : f b = y
    simp only [setField, fieldOf, List.map, ha, hb]
    by_cases ha : x > 255 <;> by_cases hb : y > 255 <;> simp [ha, hb] <;> omega
  | a :: b :: c :: l =>
    rw [setNums, setNums, setNums, setNums_ge L l _ _ (by omega), hf, hf, hf]
    generalize ha : f a = x
    generalize hb : f b = y
    generalize hc : f c = z
    simp only [setField, fieldOf, List.map, ha, hb, hc]
    by_cases ha : x > 255 <;> by_cases hb : y > 255 <;> by_cases hc : z > 255 <;> simp [ha, hb, hc] <;> omega

/-- **C54** (exact behaviour on every text): a zero-terminated text is cut at its dots; from each part the number it starts with is read (after white
space, with an optional sign; 0 if there is none), clamped to the range of `long`, taken modulo 2^32, and stored in the field of its position if at
most 255. It is a pre-release iff the last part contains a dash. Every part starts with exactly one number, and every text is made of such parts. -/
theorem C54_every_text (L : Nat) (rest : List Nat) :
    (∀ (ts : List (List Nat)) (zs : List Int) (lst : List Nat), Numbers ts zs → (∀ t ∈ ts, 46 ∉ t) → ts.getLast? = some lst →
      let stored := zs.map (fun z => (max (-2 ^ (L - 1)) (min z (2 ^ (L - 1) - 1)) % 2 ^ 32).toNat)
      parse L (joined ts ++ 0 :: rest) (joined ts).length =
        .ok ⟨fieldOf stored 0, fieldOf stored 1, fieldOf stored 2, !lst.contains 45⟩) := by
  intro ts zs lst hn hd hl
  rw [parse, parse_joined L rest ts zs lst 0 {} hn hd hl, fields_nums L zs _ (fun z => rfl)]
  rfl

theorem starts_exists (t : List Nat) : ∃ z, Starts t z := by
  -- digits, then anything
  have digs : ∀ t : List Nat, ∃ ds junk, t = ds ++ junk ∧ (∀ c ∈ ds, digit c) ∧ (∀ c l, junk = c :: l → ¬ digit c) := by
    intro t
    induction t with
    | nil => exact ⟨[], [], rfl, by simp, by simp⟩
    | cons c t ih =>
      by_cases hc : 48 ≤ c ∧ c ≤ 57
      · obtain ⟨ds, junk, h1, h2, h3⟩ := ih
        exact ⟨c :: ds, junk, by rw [h1]; rfl, by intro x hx; rcases List.mem_cons.mp hx with rfl | h
                                                  · exact hc
                                                  · exact h2 x h, h3⟩
      · exact ⟨[], c :: t, rfl, by simp, by rintro _ _ ⟨⟩; exact hc⟩
  induction t with
  | nil => exact ⟨_, .plus [] [] [] [] rfl (by simp) (Or.inl rfl) (by simp) (by simp) (by simp)⟩
  | cons c t ih =>
    by_cases hs : space c
    · obtain ⟨z, hz⟩ := ih
      cases hz with
      | plus ws sg ds junk ht hw hsg hd hj h0 =>
        exact ⟨_, .plus (c :: ws) sg ds junk (by rw [ht]; rfl) (by
          intro x hx; rcases List.mem_cons.mp hx with rfl | h
          · exact hs
          · exact hw x h) hsg hd hj h0⟩
      | minus ws ds junk ht hw hd hj =>
        exact ⟨_, .minus (c :: ws) ds junk (by rw [ht]; rfl) (by
          intro x hx; rcases List.mem_cons.mp hx with rfl | h
          · exact hs
          · exact hw x h) hd hj⟩
    · by_cases hm : c = 45
      · obtain ⟨ds, junk, h1, h2, h3⟩ := digs t
        exact ⟨_, .minus [] ds junk (by rw [hm, h1]; rfl) (by simp) h2 h3⟩
      · by_cases hp : c = 43
        · obtain ⟨ds, junk, h1, h2, h3⟩ := digs t
          exact ⟨_, .plus [] [43] ds junk (by rw [hp, h1]; rfl) (by simp) (Or.inr rfl) h2 h3 (by intro h; cases h)⟩
        · obtain ⟨ds, junk, h1, h2, h3⟩ := digs (c :: t)
          refine ⟨_, .plus [] [] ds junk (by rw [h1]; rfl) (by simp) (Or.inl rfl) h2 h3 ?_⟩
          intro _ hd x l hx
          subst hd
          rw [List.nil_append, hx] at h1
          cases h1
          exact ⟨hs, hp, hm⟩

/-- **C54**: the specification covers every text: it starts with exactly one number, and cutting it at its dots leaves parts with numbers. -/
theorem C54_text_covered (t : List Nat) :
    (∃ z, Starts t z ∧ ∀ z', Starts t z' → z' = z) ∧
    (∃ ts zs lst, t = joined ts ∧ Numbers ts zs ∧ (∀ u ∈ ts, 46 ∉ u) ∧ ts.getLast? = some lst) := by
  constructor
  · obtain ⟨z, hz⟩ := starts_exists t
    refine ⟨z, hz, fun z' hz' => ?_⟩
    have big : ∀ k : Nat, (k : Int) + 1 ≤ 2 ^ (k + 1) := by
      intro k
      induction k with
      | zero => decide
      | succ k ih => rw [Int.pow_succ]; push_cast; omega
    let L := z.natAbs + z'.natAbs + 3
    have e1 := strtol_starts L t z 0 [] (Or.inl rfl) hz
    have e2 := strtol_starts L t z' 0 [] (Or.inl rfl) hz'
    rw [e1] at e2
    have h : clamp L z = clamp L z' := by injection e2
    have hb := big (z.natAbs + z'.natAbs + 1)
    have hL : L - 1 = z.natAbs + z'.natAbs + 1 + 1 := by omega
    unfold clamp at h
    rw [hL] at h
    generalize (2 : Int) ^ (z.natAbs + z'.natAbs + 1 + 1) = M at *
    omega
  · induction t with
    | nil =>
      obtain ⟨z, hz⟩ := starts_exists []
      exact ⟨[[]], [z], [], rfl, .cons hz .nil, by simp, rfl⟩
    | cons c t ih =>
      obtain ⟨ts, zs, lst, h1, h2, h3, h4⟩ := ih
      by_cases hc : c = 46
      · obtain ⟨z, hz⟩ := starts_exists []
        cases ts with
        | nil => cases h4
        | cons u l =>
          refine ⟨[] :: u :: l, z :: zs, lst, by rw [h1, hc]; rfl, .cons hz h2, ?_, by simpa using h4⟩
          intro x hx
          rcases List.mem_cons.mp hx with rfl | h
          · simp
          · exact h3 x h
      · cases ts with
        | nil => cases h4
        | cons u l =>
          cases h2 with
          | @cons _ z _ zs hz1 hz2 =>
            obtain ⟨z', hz'⟩ := starts_exists (c :: u)
            have hu : 46 ∉ c :: u := by
              intro h; rcases List.mem_cons.mp h with h | h
              · exact hc h.symm
              · exact h3 u (by simp) h
            have hall : ∀ x ∈ (c :: u) :: l, 46 ∉ x := by
              intro x hx
              rcases List.mem_cons.mp hx with rfl | h
              · exact hu
              · exact h3 x (by simp [h])
            cases l with
            | nil => exact ⟨[c :: u], z' :: zs, c :: u, by rw [h1]; rfl, .cons hz' hz2, hall, rfl⟩
            | cons w l => exact ⟨(c :: u) :: w :: l, z' :: zs, lst, by rw [h1]; rfl, .cons hz' hz2, hall, by simpa using h4⟩

/-- " +5.-1.7x" is read as 5, -1 and 7 -/
example : Numbers [[32, 43, 53], [45, 49], [55, 120]] [5, -1, 7] :=
  .cons (.plus [32] [43] [53] [] rfl (by simp [space]) (Or.inr rfl) (by simp [digit]) (by simp) (by simp))
    (.cons (.minus [] [49] [] rfl (by simp) (by simp [digit]) (by simp))
      (.cons (.plus [] [] [55] [120] rfl (by simp) (Or.inl rfl) (by simp [digit]) (by rintro _ _ ⟨⟩; simp [digit]) (by intro _ h; cases h)) .nil))

/-- **C54, violated** for negative numbers: with a 64-bit `long`, the text of `-n` is stored as `k * 2^32 - n` whenever that is in 1..255 (for
instance "-4294967295" is version 1.0.0, a pre-release). -/
theorem C54_negative_violated (n k : Nat) (rest : List Nat) (h1 : n < k * 2 ^ 32) (h2 : k * 2 ^ 32 ≤ n + 255) (h3 : n < 2 ^ 63) :
    parse 64 (45 :: (Digits.Spec.dec n).map Digits.Spec.chr ++ 0 :: rest) (((Digits.Spec.dec n).map Digits.Spec.chr).length + 1) =
      .ok ⟨k * 2 ^ 32 - n, 0, 0, false⟩ := by
  have hv : decVal ((Digits.Spec.dec n).map Digits.Spec.chr) = n := by
    have := foldl_dec n
    rw [decVal_foldl] at this
    omega
  have hst : Starts (45 :: (Digits.Spec.dec n).map Digits.Spec.chr) (-(n : Int)) := by
    have := Starts.minus (t := 45 :: (Digits.Spec.dec n).map Digits.Spec.chr) [] ((Digits.Spec.dec n).map Digits.Spec.chr) [] (by simp) (by simp)
      (dec_chr n) (by simp)
    rwa [hv] at this
  have h := C54_every_text 64 rest [45 :: (Digits.Spec.dec n).map Digits.Spec.chr] [-(n : Int)] (45 :: (Digits.Spec.dec n).map Digits.Spec.chr)
    (.cons hst .nil) (by
      intro t ht; simp only [List.mem_singleton] at ht; subst ht
      intro h; rcases List.mem_cons.mp h with h | h
      · omega
      · exact dot_not_mem_dec n h) rfl
  simp only [joined, List.map, List.length_cons] at h
  have hval : (max (-2 ^ (64 - 1)) (min (-(n : Int)) (2 ^ (64 - 1) - 1)) % 2 ^ 32).toNat = k * 2 ^ 32 - n := by omega
  rw [hval] at h
  rw [h]
  have hle : k * 2 ^ 32 - n ≤ 255 := by omega
  simp only [fieldOf, List.getElem?_cons_zero, if_pos hle, List.getElem?_cons_succ, List.getElem?_nil]
  simp

example : parse 64 (45 :: (Digits.Spec.dec 4294967295).map Digits.Spec.chr ++ 0 :: []) (((Digits.Spec.dec 4294967295).map Digits.Spec.chr).length + 1) =
    .ok ⟨1, 0, 0, false⟩ := C54_negative_violated 4294967295 1 [] (by decide) (by decide) (by decide)

end Version
