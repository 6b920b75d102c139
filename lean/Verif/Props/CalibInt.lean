import Verif.Model.CalibInt
import Verif.Props.ParamsInt
import Verif.Props.Calib
import Mathlib.Tactic.Linarith
/-! # Property C179: V/oct calibration with a signed integer type -/
namespace VoctI
open ParamsInt

/-- `solve` in unbounded integers. -/
def solveZ (v : VoctI) : VoctI :=
  if v.num ≥ 2 then
    let span : Int := (v.pt0.1 : Int) - v.pt1.1
    let diff := v.pt0.2 - v.pt1.2
    let s := if span ≠ 0 ∧ diff ≠ 0 then diff.tdiv span else v.slope
    { v with slope := s, offset := if v.measuredC0 then v.offset else ((v.pt0.2 - s * v.pt0.1) + (v.pt1.2 - s * v.pt1.1)).tdiv 2 }
  else v

def recordZ (v : VoctI) (note : Nat) (m : Int) : VoctI := if note = 11 then v else ((v.noteC0 note m).push note m).solveZ

/-- All data are of magnitude at most `M`. -/
structure Bd (M : Int) (v : VoctI) : Prop where
  n0 : v.num ≥ 1 → v.pt0.1 ≤ 10 ∧ |v.pt0.2| ≤ M
  n1 : v.num ≥ 2 → v.pt1.1 ≤ 10 ∧ |v.pt1.2| ≤ M
  sl : |v.slope| ≤ 2 * M
  num : v.num ≤ 2

theorem inTy_of_abs {t : Ty} (ht : t.signed = true) {x : Int} (h : |x| < 2 ^ (t.w - 1)) : InTy t x := by
  unfold InTy; rw [if_pos ht]; rw [abs_lt] at h; omega

theorem abs_tdiv_le (a b : Int) (hb : b ≠ 0) : |a.tdiv b| ≤ |a| := by
  have h := Int.natAbs_tdiv_le_natAbs a b
  rw [Int.abs_eq_natAbs, Int.abs_eq_natAbs]; exact_mod_cast h

theorem opI_ok {t : Ty} {x : Int} (h : InTy t x) : opI t x = .ok x := by unfold opI; rw [if_neg (fun hc => hc.2 h)]

theorem mul_le {s n a b : Int} (hs : |s| ≤ a) (hn0 : 0 ≤ n) (hn : n ≤ b) (ha : 0 ≤ a) : |s * n| ≤ a * b := by
  rw [abs_mul, abs_of_nonneg hn0]
  exact mul_le_mul hs hn hn0 ha

theorem solve_ok (t : Ty) (ht : t.signed = true) (hw : 8 ≤ t.w) (M : Int) (hM : 42 * M < 2 ^ (t.w - 1)) (v : VoctI) (h : Bd M v) : solve t v = .ok v.solveZ ∧ Bd M v.solveZ := by
  have hM0 : 0 ≤ M := by have := abs_nonneg v.slope; have := h.sl; omega
  have h128 : (128 : Int) ≤ 2 ^ (t.w - 1) := by
    have : (2 : Int) ^ 7 ≤ 2 ^ (t.w - 1) := pow_le_pow_right₀ (by norm_num) (by omega)
    norm_num at this; exact this
  unfold solve solveZ
  by_cases hn : v.num ≥ 2
  · simp only [if_pos hn]
    obtain ⟨a0, a1⟩ := h.n0 (by omega)
    obtain ⟨b0, b1⟩ := h.n1 hn
    have hsl := h.sl
    obtain ⟨vo, vs, ⟨n0, m0⟩, ⟨n1, m1⟩, num, c0⟩ := v
    simp only at a0 a1 b0 b1 hsl hn ⊢
    have hd : |m0 - m1| ≤ 2 * M := by rw [abs_le] at a1 b1 ⊢; omega
    have hspan : InTy t ((n0 : Int) - n1) := inTy_of_abs ht (by rw [abs_lt]; omega)
    have hq : ∀ _ : (n0 : Int) - n1 ≠ 0, |(m0 - m1).tdiv ((n0 : Int) - n1)| ≤ 2 * M := fun hne => le_trans (abs_tdiv_le _ _ hne) hd
    have step1 : newSlope t ⟨vo, vs, (n0, m0), (n1, m1), num, c0⟩ = .ok (if (n0 : Int) - n1 ≠ 0 ∧ m0 - m1 ≠ 0 then (m0 - m1).tdiv ((n0 : Int) - n1) else vs) := by
      unfold newSlope
      simp only
      rw [op_id (by omega) (inTy_of_abs ht (by omega)), R.bind_ok, conv_id (by omega) hspan]
      by_cases hc : (n0 : Int) - n1 ≠ 0 ∧ m0 - m1 ≠ 0
      · rw [if_pos hc, if_pos hc, op_id (by omega) (inTy_of_abs ht (by have := hq hc.1; omega))]
      · rw [if_neg hc, if_neg hc]
    rw [step1, R.bind_ok]
    obtain ⟨s, hs⟩ : ∃ s, s = if (n0 : Int) - n1 ≠ 0 ∧ m0 - m1 ≠ 0 then (m0 - m1).tdiv ((n0 : Int) - n1) else vs := ⟨_, rfl⟩
    have hsb : |s| ≤ 2 * M := by
      rw [hs]; split
      · next hc => exact hq hc.1
      · exact hsl
    rw [← hs]
    have hbd : ∀ o, Bd M (⟨o, s, (n0, m0), (n1, m1), num, c0⟩ : VoctI) := fun o => ⟨fun _ => ⟨a0, a1⟩, fun _ => ⟨b0, b1⟩, hsb, h.num⟩
    refine ⟨?_, hbd _⟩
    cases c0 with
    | true => rfl
    | false =>
      have hoff : ∀ (n : Nat) (m : Int), n ≤ 10 → |m| ≤ M → offsetAt t s (n, m) = .ok (m - s * n) ∧ |m - s * n| ≤ 21 * M := by
        intro n m hn hm
        have hp := mul_le (n := (n : Int)) (b := 10) hsb (by omega) (by omega) (by omega)
        have hr : |m - s * n| ≤ 21 * M := by
          generalize s * (n : Int) = p at hp
          rw [abs_le] at hp hm ⊢; omega
        unfold offsetAt
        simp only
        rw [opI_ok (inTy_of_abs ht (by omega)), R.bind_ok, op_id (by omega) (inTy_of_abs ht (by omega))]
        exact ⟨rfl, hr⟩
      obtain ⟨e0, q0⟩ := hoff n0 m0 a0 a1
      obtain ⟨e1, q1⟩ := hoff n1 m1 b0 b1
      simp only [Bool.false_eq_true, if_false, e0, e1, R.bind_ok]
      generalize m0 - s * (n0 : Int) = o0 at q0 ⊢
      generalize m1 - s * (n1 : Int) = o1 at q1 ⊢
      have hsum : |o0 + o1| ≤ 42 * M := by rw [abs_le] at q0 q1 ⊢; omega
      rw [opI_ok (inTy_of_abs ht (by omega)), R.bind_ok, conv_id (by omega) (inTy_of_abs ht (by have := abs_tdiv_le (o0 + o1) 2 (by norm_num); omega))]
  · simp only [if_neg hn]
    exact ⟨trivial, h⟩

theorem push_bd (M : Int) (v : VoctI) (h : Bd M v) (note : Nat) (hn : note ≤ 10) (m : Int) (hm : |m| ≤ M) : Bd M ((v.noteC0 note m).push note m) := by
  have h1 : Bd M (v.noteC0 note m) := by
    unfold noteC0; split
    · exact ⟨h.n0, h.n1, h.sl, h.num⟩
    · exact h
  generalize v.noteC0 note m = u at h1
  unfold push
  by_cases h2 : u.num ≥ 2
  · simp only [if_pos h2]
    exact ⟨fun _ => h1.n1 h2, fun _ => ⟨hn, hm⟩, h1.sl, le_refl _⟩
  · simp only [if_neg h2]
    split
    · next h0 => exact ⟨fun _ => ⟨hn, hm⟩, fun hc => by simp at hc, h1.sl, by simp⟩
    · next h0 => exact ⟨fun _ => h1.n0 (by omega), fun _ => ⟨hn, hm⟩, h1.sl, by simp only; omega⟩

theorem record_ok (t : Ty) (ht : t.signed = true) (hw : 8 ≤ t.w) (M : Int) (hM : 42 * M < 2 ^ (t.w - 1)) (v : VoctI) (h : Bd M v) (note : Nat) (hn : note ≤ 11) (m : Int) (hm : |m| ≤ M) :
    record t v note m = .ok (v.recordZ note m) ∧ Bd M (v.recordZ note m) := by
  unfold record recordZ
  by_cases h11 : note = 11
  · rw [if_pos h11, if_pos h11]; exact ⟨rfl, h⟩
  · rw [if_neg h11, if_neg h11]
    exact solve_ok t ht hw M hM _ (push_bd M v h note (by omega) m hm)

/-- The state as one of the calibrator in exact arithmetic. -/
def toQ (v : VoctI) : Voct := ⟨v.offset, v.slope, (v.pt0.1, v.pt0.2), (v.pt1.1, v.pt1.2), v.num, v.measuredC0⟩

/-- The call as one on the calibrator in exact arithmetic. -/
def Op.toQ : Op → Voct.Op
  | .record n m => .record n m
  | .reset => .reset

theorem push_toQ (v : VoctI) (note : Nat) (m : Int) : ((v.noteC0 note m).push note m).toQ = (v.toQ.noteC0 note m).push note m := by
  have h1 : (v.noteC0 note m).toQ = v.toQ.noteC0 note m := by
    unfold noteC0 Voct.noteC0; split <;> rfl
  rw [← h1]
  generalize v.noteC0 note m = u
  unfold push Voct.push
  by_cases h2 : u.num ≥ 2
  · have h2' : u.toQ.num ≥ 2 := h2
    simp only [if_pos h2, if_pos h2']; rfl
  · have h2' : ¬ u.toQ.num ≥ 2 := h2
    simp only [if_neg h2, if_neg h2']
    by_cases h0 : u.num = 0
    · have h0' : u.toQ.num = 0 := h0
      simp only [if_pos h0, if_pos h0']; rfl
    · have h0' : ¬ u.toQ.num = 0 := h0
      simp only [if_neg h0, if_neg h0']; rfl

/-- On data of an integer line all divisions are exact. -/
theorem solve_toQ (off slp : Int) (v : VoctI) (h0 : v.num ≥ 2 → v.pt0.2 = off + slp * v.pt0.1) (h1 : v.num ≥ 2 → v.pt1.2 = off + slp * v.pt1.1) (hs : v.slope = 0 ∨ v.slope = slp) :
    v.solveZ.toQ = v.toQ.solve := by
  unfold solveZ Voct.solve
  by_cases hn : v.num ≥ 2
  · have hn' : v.toQ.num ≥ 2 := hn
    simp only [if_pos hn, if_pos hn']
    have e0 := h0 hn
    have e1 := h1 hn
    obtain ⟨vo, vs, ⟨n0, m0⟩, ⟨n1, m1⟩, num, c0⟩ := v
    simp only [toQ] at e0 e1 hs hn ⊢
    have hdiff : m0 - m1 = slp * ((n0 : Int) - n1) := by rw [e0, e1]; ring
    have hcast : ((m0 : ℚ) - m1 ≠ 0) ↔ m0 - m1 ≠ 0 := by
      constructor
      · intro h hc; apply h; exact_mod_cast hc
      · intro h hc; apply h; exact_mod_cast hc
    simp only [hcast]
    have hfinal : ∀ s : Int, (s = slp ∨ (s = 0 ∧ m0 = m1)) → ∀ o : Int,
        (⟨((if c0 = true then o else ((m0 - s * n0) + (m1 - s * n1)).tdiv 2 : Int) : ℚ), (s : ℚ), (n0, (m0 : ℚ)), (n1, (m1 : ℚ)), num, c0⟩ : Voct) =
        if c0 = true then ⟨(o : ℚ), (s : ℚ), (n0, (m0 : ℚ)), (n1, (m1 : ℚ)), num, c0⟩
        else ⟨((m0 : ℚ) - s * n0 + (m1 - s * n1)) / 2, (s : ℚ), (n0, (m0 : ℚ)), (n1, (m1 : ℚ)), num, c0⟩ := by
      intro s hs o
      cases c0 with
      | true => rfl
      | false =>
        simp only [Bool.false_eq_true, if_false]
        congr 1
        rcases hs with rfl | ⟨rfl, rfl⟩
        · have : (m0 - s * n0) + (m1 - s * n1) = off * 2 := by rw [e0, e1]; ring
          rw [this, Int.mul_tdiv_cancel _ (by norm_num), e0, e1]; push_cast; ring
        · have : (m0 - 0 * (n0 : Int)) + (m0 - 0 * n1) = m0 * 2 := by ring
          rw [this, Int.mul_tdiv_cancel _ (by norm_num)]; push_cast; ring
    by_cases hc : (n0 : Int) - n1 ≠ 0 ∧ m0 - m1 ≠ 0
    · simp only [if_pos hc]
      have hq : (m0 - m1).tdiv ((n0 : Int) - n1) = slp := by rw [hdiff, Int.mul_tdiv_cancel _ hc.1]
      have hq' : ((m0 : ℚ) - m1) / (((n0 : Int) - n1 : Int) : ℚ) = (slp : ℚ) := by
        have hne : (((n0 : Int) - n1 : Int) : ℚ) ≠ 0 := by exact_mod_cast hc.1
        rw [div_eq_iff hne]; exact_mod_cast hdiff
      rw [hq, hq']
      exact hfinal slp (Or.inl rfl) vo
    · simp only [if_neg hc]
      apply hfinal vs
      rcases hs with h | h
      · by_cases hsp : (n0 : Int) - n1 = 0
        · right; refine ⟨h, ?_⟩; rw [hsp] at hdiff; omega
        · have hd : m0 - m1 = 0 := by
            by_contra hd; exact hc ⟨hsp, hd⟩
          right; exact ⟨h, by omega⟩
      · left; exact h
  · have hn' : ¬ v.toQ.num ≥ 2 := hn
    simp only [if_neg hn, if_neg hn']

theorem record_toQ (off slp : Int) (ns : List Nat) (v : VoctI) (h : Voct.Inv off slp ns v.toQ) (note : Nat) (m : Int) (hm : note ≠ 11 → m = off + slp * note) :
    (v.recordZ note m).toQ = v.toQ.record note m := by
  unfold recordZ Voct.record
  by_cases h11 : note = 11
  · rw [if_pos h11, if_pos h11]
  · rw [if_neg h11, if_neg h11, ← push_toQ]
    have hm := hm h11
    -- the data after noteC0
    have f : ∀ u : VoctI, u = v.noteC0 note m → u.num = v.num ∧ u.pt0 = v.pt0 ∧ u.pt1 = v.pt1 ∧ u.slope = v.slope := by
      intro u hu; rw [hu]; unfold noteC0; split <;> exact ⟨rfl, rfl, rfl, rfl⟩
    obtain ⟨f1, f2, f3, f4⟩ := f _ rfl
    generalize v.noteC0 note m = u at f1 f2 f3 f4
    have h0 : u.num ≥ 1 → u.pt0.2 = off + slp * u.pt0.1 := by
      intro hn
      have : (v.pt0.2 : ℚ) = off + slp * v.pt0.1 := h.pt0 (show 1 ≤ v.num by omega)
      rw [f2]
      exact_mod_cast this
    have h1 : u.num ≥ 2 → u.pt1.2 = off + slp * u.pt1.1 := by
      intro hn
      have : (v.pt1.2 : ℚ) = off + slp * v.pt1.1 := h.pt1 (show 2 ≤ v.num by omega)
      rw [f3]
      exact_mod_cast this
    have hs : u.slope = 0 ∨ u.slope = slp := by
      rw [f4]
      rcases h.slope with e | e
      · left; exact_mod_cast (show (v.slope : ℚ) = 0 from e)
      · right; exact_mod_cast (show (v.slope : ℚ) = slp from e)
    have hn2 : u.num ≤ 2 := by rw [f1]; have := h.num; simp only [toQ] at this; omega
    apply solve_toQ off slp
    · unfold push
      by_cases h2 : u.num ≥ 2
      · simp only [if_pos h2]; intro _; exact h1 h2
      · simp only [if_neg h2]
        split
        · intro hc; simp at hc
        · intro _; exact h0 (by omega)
    · unfold push
      by_cases h2 : u.num ≥ 2
      · simp only [if_pos h2]; intro _; exact hm
      · simp only [if_neg h2]
        split
        · intro hc; simp at hc
        · intro _; exact hm
    · unfold push
      by_cases h2 : u.num ≥ 2
      · simp only [if_pos h2]; exact hs
      · simp only [if_neg h2]
        split <;> exact hs

/-- What the calls may be given: notes and measurements of magnitude at most `M`. -/
def Bounded (M : Int) (ops : List Op) : Prop := ∀ n m, Op.record n m ∈ ops → n ≤ 11 ∧ |m| ≤ M

theorem bd_init (M : Int) (h : 0 ≤ M) : Bd M init := ⟨fun hc => by simp [init] at hc, fun hc => by simp [init] at hc, by simp [init]; omega, by simp [init]⟩

theorem bd_reset (M : Int) (v : VoctI) (h : Bd M v) : Bd M v.reset := by
  have := h.sl
  have := abs_nonneg v.slope
  exact ⟨fun hc => by simp [reset] at hc, fun hc => by simp [reset] at hc, by simp [reset]; omega, by simp [reset]⟩

/-- **C179** (partial): no call is undefined and every call computes what it would in unbounded integers, if the measurements are below 1/42 of the type's range. Missing: larger ones, below. -/
theorem C179_defined_partial (t : Ty) (ht : t.signed = true) (hw : 8 ≤ t.w) (M : Int) (hM0 : 0 ≤ M) (hM : 42 * M < 2 ^ (t.w - 1)) (ops : List Op) (hb : Bounded M ops) :
    run t ops init = .ok (ops.foldl (fun v o => match o with | .record n m => v.recordZ n m | .reset => v.reset) init) := by
  have gen : ∀ (ops : List Op) (v : VoctI), Bd M v → Bounded M ops → run t ops v = .ok (ops.foldl (fun v o => match o with | .record n m => v.recordZ n m | .reset => v.reset) v) := by
    intro ops
    induction ops with
    | nil => intro v _ _; rfl
    | cons o ops ih =>
      intro v h hb
      have hb' : Bounded M ops := fun n m hm => hb n m (List.mem_cons_of_mem _ hm)
      cases o with
      | reset => exact ih v.reset (bd_reset M v h) hb'
      | record n m =>
        obtain ⟨b1, b2⟩ := hb n m List.mem_cons_self
        obtain ⟨r1, r2⟩ := record_ok t ht hw M hM v h n b1 m b2
        rw [run, r1, R.bind_ok, List.foldl_cons]
        exact ih _ r2 hb'
  exact gen ops init (bd_init M hM0) hb

/-- **C179** (partial): if all measurements lie on a line with integer offset and slope, then after every history of measurements and resets in which two different notes have been measured since the last reset, `slope()`
and `offset()` are the line's. Missing: measurements beyond 1/42 of the range, below. -/
theorem C179_recovers_line_partial (t : Ty) (ht : t.signed = true) (hw : 8 ≤ t.w) (M : Int) (hM0 : 0 ≤ M) (hM : 42 * M < 2 ^ (t.w - 1)) (off slp : Int) (ops : List Op) (hb : Bounded M ops)
    (hline : ∀ (n : Nat) (m : Int), .record n m ∈ ops → n ≠ 11 → m = off + slp * n)
    (htwo : ∃ a ∈ Voct.sinceReset [] (ops.map Op.toQ), ∃ b ∈ Voct.sinceReset [] (ops.map Op.toQ), a ≠ b) :
    ∃ v, run t ops init = .ok v ∧ v.slope = slp ∧ v.offset = off := by
  refine ⟨_, C179_defined_partial t ht hw M hM0 hM ops hb, ?_⟩
  have gen : ∀ (ops : List Op) (ns : List Nat) (v : VoctI), Voct.Inv off slp ns v.toQ → (∀ (n : Nat) (m : Int), .record n m ∈ ops → n ≠ 11 → m = off + slp * n) →
      (ops.foldl (fun v o => match o with | .record n m => v.recordZ n m | .reset => v.reset) v).toQ = (ops.map Op.toQ).foldl Voct.step v.toQ := by
    intro ops
    induction ops with
    | nil => intro ns v _ _; rfl
    | cons o ops ih =>
      intro ns v h hl
      have hl' : ∀ (n : Nat) (m : Int), .record n m ∈ ops → n ≠ 11 → m = off + slp * n := fun n m hm => hl n m (List.mem_cons_of_mem _ hm)
      rw [List.map_cons, List.foldl_cons, List.foldl_cons]
      cases o with
      | reset =>
        have e : v.reset.toQ = v.toQ.reset := by simp [reset, Voct.reset, toQ]
        show (ops.foldl _ v.reset).toQ = (ops.map Op.toQ).foldl Voct.step v.toQ.reset
        rw [← e]
        exact ih [] v.reset (by rw [e]; exact Voct.inv_reset _ _ ns _ h) hl'
      | record n m =>
        have hm := hl n m List.mem_cons_self
        have e := record_toQ off slp ns v h n m hm
        show (ops.foldl _ (v.recordZ n m)).toQ = (ops.map Op.toQ).foldl Voct.step (v.toQ.record n m)
        rw [← e]
        by_cases h11 : n = 11
        · exact ih ns _ (by rw [e]; unfold Voct.record; rw [if_pos h11]; exact h) hl'
        · exact ih (ns ++ [n]) _ (by rw [e]; exact Voct.inv_record _ _ ns _ h n h11 m (by rw [hm h11]; push_cast; ring)) hl'
  have hq := gen ops [] init (by have := Voct.inv_init off slp; simpa [toQ, init, Voct.init] using this) hline
  have hi : init.toQ = Voct.init := by simp [toQ, init, Voct.init]
  rw [hi] at hq
  obtain ⟨r1, r2⟩ := Voct.C104_recovers_line off slp (ops.map Op.toQ) (by
    intro n m hm h11
    obtain ⟨o, ho, he⟩ := List.mem_map.mp hm
    cases o with
    | reset => cases he
    | record n' m' =>
      simp only [Op.toQ, Voct.Op.record.injEq] at he
      obtain ⟨rfl, rfl⟩ := he
      rw [hline n' m' ho h11]; push_cast; ring) htwo
  rw [← hq] at r1 r2
  generalize ops.foldl (fun v o => match o with | .record n m => v.recordZ n m | .reset => v.reset) init = w at r1 r2 ⊢
  have r1 : (w.slope : ℚ) = slp := r1
  have r2 : (w.offset : ℚ) = off := r2
  exact ⟨by exact_mod_cast r1, by exact_mod_cast r2⟩

/-- a 12-bit converter in an `int32_t`: C1 and C3 measured, C1 once before a reset -/
example : Bounded 4095 [.record 1 500, .reset, .record 1 300, .record 3 1100] ∧ 42 * 4095 < (2 : Int) ^ (32 - 1) ∧
    (∃ a ∈ Voct.sinceReset [] ([Op.record 1 500, .reset, .record 1 300, .record 3 1100].map Op.toQ), ∃ b ∈ Voct.sinceReset [] ([Op.record 1 500, .reset, .record 1 300, .record 3 1100].map Op.toQ), a ≠ b) := by
  refine ⟨?_, by norm_num, 1, by simp [Voct.sinceReset, Op.toQ], 3, by simp [Voct.sinceReset, Op.toQ], by decide⟩
  intro n m h
  simp only [List.mem_cons, Op.record.injEq, List.not_mem_nil, or_false, reduceCtorEq, false_or] at h
  rcases h with ⟨rfl, rfl⟩ | ⟨rfl, rfl⟩ | ⟨rfl, rfl⟩ <;> exact ⟨by decide, by decide⟩

/-- **C179** (partial): for any two measurements of different notes, neither of them C0, after a reset, the line passes both within half the distance of the notes. Missing: measurements beyond 1/42 of the range, below. -/
theorem C179_two_points_partial (t : Ty) (ht : t.signed = true) (hw : 8 ≤ t.w) (M : Int) (hM0 : 0 ≤ M) (hM : 42 * M < 2 ^ (t.w - 1)) (v : VoctI) (n1 n2 : Nat) (m1 m2 : Int) (h1 : 1 ≤ n1 ∧ n1 ≤ 10)
    (h2 : 1 ≤ n2 ∧ n2 ≤ 10) (hne : n1 ≠ n2) (hm1 : |m1| ≤ M) (hm2 : |m2| ≤ M) :
    ∃ w, run t [.reset, .record n1 m1, .record n2 m2] v = .ok w ∧ 2 * |w.offset + w.slope * n1 - m1| ≤ |(n1 : Int) - n2| ∧ 2 * |w.offset + w.slope * n2 - m2| ≤ |(n1 : Int) - n2| := by
  have hb : Bd M v.reset := ⟨fun hc => by simp [reset] at hc, fun hc => by simp [reset] at hc, by simp [reset]; omega, by simp [reset]⟩
  obtain ⟨r1, b1⟩ := record_ok t ht hw M hM _ hb n1 (by omega) m1 hm1
  obtain ⟨r2, b2⟩ := record_ok t ht hw M hM _ b1 n2 (by omega) m2 hm2
  refine ⟨(v.reset.recordZ n1 m1).recordZ n2 m2, by simp only [run, r1, R.bind_ok, r2], ?_⟩
  have e1 : v.reset.recordZ n1 m1 = ⟨0, 0, (n1, m1), v.pt1, 1, false⟩ := by
    unfold recordZ noteC0
    rw [if_neg (by omega), if_neg (by omega)]
    rfl
  have e2 : (v.reset.recordZ n1 m1).recordZ n2 m2 = (⟨0, 0, (n1, m1), (n2, m2), 2, false⟩ : VoctI).solveZ := by
    rw [e1]
    unfold recordZ noteC0
    rw [if_neg (by omega), if_neg (by omega)]
    rfl
  rw [e2]
  unfold solveZ
  simp only [ge_iff_le, le_refl, if_true, Bool.false_eq_true, if_false]
  have hsp : (n1 : Int) - n2 ≠ 0 := by omega
  obtain ⟨s, hs⟩ : ∃ s, s = if (n1 : Int) - n2 ≠ 0 ∧ m1 - m2 ≠ 0 then (m1 - m2).tdiv ((n1 : Int) - n2) else 0 := ⟨_, rfl⟩
  rw [← hs]
  have hs' : s = (m1 - m2).tdiv ((n1 : Int) - n2) := by
    rw [hs]; split
    · rfl
    · next hc =>
      have : m1 - m2 = 0 := by
        by_contra hd; exact hc ⟨hsp, hd⟩
      rw [this]; simp
  have hr : |(m1 - s * n1) - (m2 - s * n2)| < |(n1 : Int) - n2| := by
    have e : (m1 - s * n1) - (m2 - s * n2) = (m1 - m2).tmod ((n1 : Int) - n2) := by
      have := Int.tmod_add_mul_tdiv (m1 - m2) ((n1 : Int) - n2)
      rw [← hs'] at this
      generalize (m1 - m2).tmod ((n1 : Int) - n2) = z at this ⊢
      linarith
    rw [e]
    rw [Int.abs_eq_natAbs, Int.natAbs_tmod, Int.abs_eq_natAbs]
    exact_mod_cast Nat.mod_lt _ (Int.natAbs_pos.mpr hsp)
  have a1 : ∀ o : Int, o + s * n1 - m1 = o - (m1 - s * n1) := fun o => by ring
  have a2 : ∀ o : Int, o + s * n2 - m2 = o - (m2 - s * n2) := fun o => by ring
  rw [a1, a2]
  generalize m1 - s * (n1 : Int) = p at hr ⊢
  generalize m2 - s * (n2 : Int) = q at hr ⊢
  generalize |(n1 : Int) - n2| = d at hr ⊢
  have ht2 : |2 * (p + q).tdiv 2 - (p + q)| ≤ 1 := by
    have := Int.tmod_add_mul_tdiv (p + q) 2
    have h4 : |(p + q).tmod 2| < 2 := by
      rw [Int.abs_eq_natAbs, Int.natAbs_tmod]; exact_mod_cast Nat.mod_lt _ (by omega)
    rw [abs_lt] at h4
    rw [abs_le]; omega
  generalize (p + q).tdiv 2 = o at ht2 ⊢
  rw [abs_lt] at hr
  rw [abs_le] at ht2
  have hx : ∀ x : Int, (2 * x ≤ d ∧ -d ≤ 2 * x) → 2 * |x| ≤ d := by
    intro x hx
    rcases abs_cases x with ⟨e, _⟩ | ⟨e, _⟩ <;> omega
  exact ⟨hx _ (by omega), hx _ (by omega)⟩

example := C179_two_points_partial ⟨16, true⟩ rfl (by decide) 700 (by decide) (by decide) init 2 9 (-13) 654 (by decide) (by decide) (by decide) (by decide) (by decide)

/-- **C179, violated**: in an `int16_t`, two measurements 40000 apart give a slope of the wrong sign. -/
theorem C179_wrap_violated : run ⟨16, true⟩ [.record 1 (-20000), .record 2 20000] init = .ok ⟨5536, -25536, (1, -20000), (2, 20000), 2, false⟩ := by decide

/-- **C179, violated**: in an `int32_t` the difference of two measurements can overflow, and so can the extrapolation to C0. -/
theorem C179_overflow_violated : run ⟨32, true⟩ [.record 1 (-2000000000), .record 2 2000000000] init = .ub ∧ run ⟨32, true⟩ [.record 9 0, .record 10 300000000] init = .ub ∧
    run ⟨32, true⟩ [.record 9 1000000000, .record 10 1300000000] init = .ub := by decide

end VoctI
