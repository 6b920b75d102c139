import Verif.Model.Calib
import Mathlib.Tactic.Linarith
import Mathlib.Tactic.Ring
import Mathlib.Tactic.FieldSimp
import Mathlib.Tactic.NormNum
/-! # Properties C103 and C104: calibration -/

namespace Calibrator

/-- **C103**: for distinct measurements and distinct targets calibrate_chan is defined, and adjust then maps the two measurements to the two targets. -/
theorem C103_calibrate (tl th ml mh : ℚ) (hm : ml ≠ mh) (ht : tl ≠ th) :
    ∃ c, calibrate tl th ml mh = .ok c ∧ c.adjust ml = tl ∧ c.adjust mh = th ∧ c.reverse tl = .ok ml ∧ c.reverse th = .ok mh := by
  have h1 : mh - ml ≠ 0 := sub_ne_zero.mpr (Ne.symm hm)
  have h2 : th - tl ≠ 0 := sub_ne_zero.mpr (Ne.symm ht)
  have h3 : (th - tl) / (mh - ml) ≠ 0 := div_ne_zero h2 h1
  refine ⟨⟨(th - tl) / (mh - ml), ml - tl / ((th - tl) / (mh - ml))⟩, ?_, ?_, ?_, ?_, ?_⟩
  · unfold calibrate; rw [if_neg h1]; simp only; rw [if_neg h3]
  · unfold adjust; simp only; field_simp; ring
  · unfold adjust; simp only; field_simp; ring
  · unfold reverse; rw [if_neg h3]; simp only; congr 1; ring
  · unfold reverse; rw [if_neg h3]; simp only; congr 1; field_simp; ring

example := C103_calibrate (-1) 2 (1 / 10) (4 / 10) (by norm_num) (by norm_num)

/-- **C103**: reverse_calibrate and adjust are inverse to each other whenever the slope is not 0; adjust is affine with that slope. -/
theorem C103_inverse (c : Calibrator) (h : c.slope ≠ 0) (x : ℚ) :
    c.reverse (c.adjust x) = .ok x ∧ (∃ y, c.reverse x = .ok y ∧ c.adjust y = x) ∧ ∀ d, c.adjust (x + d) = c.adjust x + d * c.slope := by
  refine ⟨?_, ?_, ?_⟩
  · unfold reverse adjust; rw [if_neg h]; congr 1; field_simp; ring
  · refine ⟨x / c.slope + c.offset, ?_, ?_⟩
    · unfold reverse; rw [if_neg h]
    · unfold adjust; field_simp; ring
  · intro d; unfold adjust; ring

/-- **C103**: the default calibration is the identity; slope and offset given directly are used as they are. -/
theorem C103_identity (x s o : ℚ) : init.adjust x = x ∧ (ofSlope s o).adjust x = (x - o) * s ∧ (ofSlope s o).slope = s ∧ (ofSlope s o).offset = o := by
  refine ⟨?_, rfl, rfl, rfl⟩
  unfold adjust init; ring

/-- The distinctness is needed: equal targets (or equal measurements) make the code divide by zero. -/
theorem C103_distinct_needed (a b c : ℚ) : calibrate a a b c = .ub ∧ calibrate a b c c = .ub := by
  constructor
  · unfold calibrate; simp
  · unfold calibrate; simp

example : calibrate 0 1 100 300 = .ok ⟨1/200, 100⟩ := by
  unfold calibrate; norm_num

end Calibrator

namespace Voct

/-- A history of measurements and resets since power-up. -/
inductive Op where
  | record (note : Nat) (m : ℚ)
  | reset

def step (v : Voct) : Op → Voct
  | .record n m => v.record n m
  | .reset => v.reset

/-- On a line with the given offset and slope, after the notes `ns` have been measured. -/
structure Inv (off slp : ℚ) (ns : List Nat) (v : Voct) : Prop where
  num : v.num = min ns.length 2
  pt0 : 1 ≤ v.num → v.pt0.2 = off + slp * v.pt0.1
  pt1 : 2 ≤ v.num → v.pt1.2 = off + slp * v.pt1.1
  last : ns ≠ [] → (if v.num = 1 then v.pt0.1 else v.pt1.1) = ns.getLastD 0
  slope : v.slope = 0 ∨ v.slope = slp
  differ : (∃ a ∈ ns, ∃ b ∈ ns, a ≠ b) → v.slope = slp
  offset : v.measuredC0 = true → v.offset = off
  offset2 : v.measuredC0 = false → 2 ≤ v.num → v.slope = slp → v.offset = off

theorem inv_init (off slp : ℚ) : Inv off slp [] init := by
  constructor <;> simp [init]

theorem inv_reset (off slp : ℚ) (ns : List Nat) (v : Voct) (_ : Inv off slp ns v) : Inv off slp [] v.reset := by
  constructor <;> simp [reset]

/-- All elements equal to the last. -/
theorem all_eq_of_not_differ (ns : List Nat) (h : ¬ ∃ a ∈ ns, ∃ b ∈ ns, a ≠ b) (x : Nat) (hx : x ∈ ns) : ∀ y ∈ ns, y = x := by
  intro y hy
  by_contra hne
  exact h ⟨y, hy, x, hx, hne⟩

/-- `solve` on two data points of the line. -/
theorem solve_line (off slp : ℚ) (v : Voct) (hn : v.num = 2) (h0 : v.pt0.2 = off + slp * v.pt0.1) (h1 : v.pt1.2 = off + slp * v.pt1.1) (hs : v.slope = 0 ∨ v.slope = slp)
    (hC : v.measuredC0 = true → v.offset = off) (w : Voct) (hw : w = v.solve) :
    (w.pt0 = v.pt0 ∧ w.pt1 = v.pt1 ∧ w.num = 2 ∧ w.measuredC0 = v.measuredC0) ∧ (w.slope = 0 ∨ w.slope = slp) ∧ (v.pt0.1 ≠ v.pt1.1 → w.slope = slp) ∧ (v.slope = slp → w.slope = slp) ∧
    (w.measuredC0 = true → w.offset = off) ∧ (w.measuredC0 = false → w.slope = slp → w.offset = off) := by
  obtain ⟨vo, vs, ⟨n0, m0⟩, ⟨n1, m1⟩, vn, vc⟩ := v
  simp only at hn h0 h1 hs hC
  subst hn
  have hdiff : m0 - m1 = slp * (((n0 : Int) - n1 : Int) : ℚ) := by rw [h0, h1]; push_cast; ring
  have hslope : ∀ s, (s = if ((n0 : Int) - n1) ≠ 0 ∧ m0 - m1 ≠ 0 then (m0 - m1) / (((n0 : Int) - n1 : Int) : ℚ) else vs) → (s = 0 ∨ s = slp) ∧ (n0 ≠ n1 → s = slp) ∧ (vs = slp → s = slp) := by
    intro s hsv
    split at hsv
    · next hc =>
      have hne : (((n0 : Int) - n1 : Int) : ℚ) ≠ 0 := by exact_mod_cast hc.1
      have e : s = slp := by rw [hsv, hdiff]; field_simp
      exact ⟨.inr e, fun _ => e, fun _ => e⟩
    · next hc =>
      refine ⟨by rw [hsv]; exact hs, ?_, fun h => by rw [hsv, h]⟩
      intro hnn
      have hsp : ((n0 : Int) - n1) ≠ 0 := by omega
      have hd0 : m0 - m1 = 0 := by
        by_contra hd; exact hc ⟨hsp, hd⟩
      have hspq : (((n0 : Int) - n1 : Int) : ℚ) ≠ 0 := by exact_mod_cast hsp
      have : slp = 0 := by
        rw [hdiff] at hd0
        rcases mul_eq_zero.mp hd0 with h | h
        · exact h
        · exact absurd h hspq
      rcases hs with h | h
      · rw [hsv, h, this]
      · rw [hsv, h]
  unfold solve at hw
  simp only [ge_iff_le, le_refl, if_true] at hw
  obtain ⟨s, hsdef⟩ : ∃ s, s = if ((n0 : Int) - n1) ≠ 0 ∧ m0 - m1 ≠ 0 then (m0 - m1) / (((n0 : Int) - n1 : Int) : ℚ) else vs := ⟨_, rfl⟩
  obtain ⟨r1, r2, r3⟩ := hslope s hsdef
  have hv' : (if ((n0 : Int) - n1) ≠ 0 ∧ m0 - m1 ≠ 0 then ({ offset := vo, slope := (m0 - m1) / (((n0 : Int) - n1 : Int) : ℚ), pt0 := (n0, m0), pt1 := (n1, m1), num := 2, measuredC0 := vc } : Voct)
      else ⟨vo, vs, (n0, m0), (n1, m1), 2, vc⟩) = ⟨vo, s, (n0, m0), (n1, m1), 2, vc⟩ := by
    rw [hsdef]; split <;> rfl
  rw [hv'] at hw
  simp only at hw
  cases vc with
  | true =>
    simp only [if_true] at hw
    rw [hw]
    exact ⟨⟨rfl, rfl, rfl, rfl⟩, r1, r2, r3, fun _ => hC rfl, fun h => by cases h⟩
  | false =>
    simp only [Bool.false_eq_true, if_false] at hw
    rw [hw]
    refine ⟨⟨rfl, rfl, rfl, rfl⟩, r1, r2, r3, fun h => by (cases h), ?_⟩
    intro _ hsl
    simp only at hsl ⊢
    rw [hsl, h0, h1]; ring

theorem inv_record (off slp : ℚ) (ns : List Nat) (v : Voct) (h : Inv off slp ns v) (note : Nat) (hn : note ≠ 11) (m : ℚ) (hm : m = off + slp * note) :
    Inv off slp (ns ++ [note]) (v.record note m) := by
  unfold record
  rw [if_neg hn]
  -- after noteC0
  obtain ⟨v1, hv1⟩ : ∃ v1, v.noteC0 note m = v1 := ⟨_, rfl⟩
  have f1 : v1.num = v.num ∧ v1.pt0 = v.pt0 ∧ v1.pt1 = v.pt1 ∧ v1.slope = v.slope ∧ (v1.measuredC0 = true → v1.offset = off) := by
    rw [← hv1]; unfold noteC0
    split
    · next h0 =>
      refine ⟨rfl, rfl, rfl, rfl, fun _ => ?_⟩
      show m = off
      rw [hm, h0]; simp
    · exact ⟨rfl, rfl, rfl, rfl, h.offset⟩
  obtain ⟨g1, g2, g3, g4, g5⟩ := f1
  rw [hv1]
  have hlen : (ns ++ [note]).length = ns.length + 1 := by simp
  by_cases hz : ns.length = 0
  · -- first data point
    have hn0 : v1.num = 0 := by rw [g1, h.num, hz]; rfl
    have hns : ns = [] := List.length_eq_zero_iff.mp hz
    have hp : v1.push note m = { v1 with pt0 := (note, m), num := 1 } := by
      unfold push
      simp only [hn0, show ¬ (0 : Nat) ≥ 2 by decide, if_false, if_true]
    have hsv : (v1.push note m).solve = { v1 with pt0 := (note, m), num := 1 } := by
      rw [hp]; unfold solve; rw [if_neg (by simp only; omega)]
    rw [hsv, hns]
    constructor
    · simp
    · intro _; exact hm
    · intro h2; simp only at h2; omega
    · intro _; simp
    · simp only [g4]; exact h.slope
    · rintro ⟨a, ha, b, hb, hab⟩
      simp at ha hb
      omega
    · exact g5
    · intro _ h2; simp only at h2; omega
  · have hn1 : 1 ≤ v1.num := by rw [g1, h.num]; omega
    -- the data points after push: previous last one and the new one
    obtain ⟨w, hw⟩ : ∃ w, v1.push note m = w := ⟨_, rfl⟩
    have hprev : w.num = 2 ∧ w.pt1 = (note, m) ∧ w.pt0 = (if v.num = 1 then v.pt0 else v.pt1) ∧ w.slope = v.slope ∧ w.measuredC0 = v1.measuredC0 ∧ w.offset = v1.offset := by
      rw [← hw]; unfold push
      by_cases h2 : v1.num ≥ 2
      · rw [if_pos h2]
        rw [if_neg (show ¬ (1 : Nat) = 0 by decide)]
        refine ⟨rfl, rfl, ?_, g4, rfl, rfl⟩
        rw [if_neg (by omega)]; exact g3
      · have e1 : v1.num = 1 := by omega
        rw [if_neg h2]
        rw [if_neg (by omega)]
        refine ⟨by simp only [e1], rfl, ?_, g4, rfl, rfl⟩
        rw [if_pos (by omega)]; exact g2
    obtain ⟨w1, w2, w3, w4, w5, w6⟩ := hprev
    rw [hw]
    have hvn : v.num = 1 ∨ v.num = 2 := by have := h.num; omega
    have hp0 : w.pt0.2 = off + slp * w.pt0.1 := by
      rw [w3]
      rcases hvn with e | e
      · rw [if_pos e]; exact h.pt0 (by omega)
      · rw [if_neg (by omega)]; exact h.pt1 (by omega)
    have hp1 : w.pt1.2 = off + slp * w.pt1.1 := by rw [w2]; exact hm
    have hns : ns ≠ [] := fun hc => hz (by rw [hc]; rfl)
    have hlast : w.pt0.1 = ns.getLastD 0 := by
      rw [w3, ← h.last hns]
      rcases hvn with e | e
      · rw [if_pos e, if_pos e]
      · rw [if_neg (by omega), if_neg (by omega)]
    obtain ⟨⟨s1, s2, s3, s4⟩, s5, s6, s7, s8, s9⟩ := solve_line off slp w w1 hp0 hp1 (by rw [w4]; exact h.slope) (by rw [w5, w6]; exact g5) w.solve rfl
    constructor
    · rw [s3, hlen]; omega
    · intro _; rw [s1]; exact hp0
    · intro _; rw [s2]; exact hp1
    · intro _; rw [s3, if_neg (by omega), s2, w2]; simp
    · exact s5
    · rintro hd
      by_cases hdn : ∃ a ∈ ns, ∃ b ∈ ns, a ≠ b
      · exact s7 (by rw [w4]; exact h.differ hdn)
      · apply s6
        rw [hlast, w2]
        simp only
        intro heq
        have hmem : ns.getLastD 0 ∈ ns := by
          cases hc : ns with
          | nil => exact absurd hc hns
          | cons a l => rw [List.getLastD_cons]; simp [List.getLastD_eq_getLast?, List.getLast?_eq_some_getLast]; exact Or.symm (by
              by_cases hl : l = []
              · right; simp [hl]
              · left; simp [List.getLast?_eq_some_getLast hl])
        have hall := all_eq_of_not_differ ns hdn _ hmem
        obtain ⟨a, ha, b, hb, hab⟩ := hd
        apply hab
        have conv : ∀ c ∈ ns ++ [note], c = note := by
          intro c hc
          rcases List.mem_append.mp hc with hc | hc
          · rw [hall c hc, heq]
          · exact List.mem_singleton.mp hc
        rw [conv a ha, conv b hb]
    · exact s8
    · intro c _ d; exact s9 c d

/-- The notes measured since the last reset. -/
def sinceReset (ns : List Nat) : List Op → List Nat
  | [] => ns
  | .record n _ :: ops => sinceReset (if n = 11 then ns else ns ++ [n]) ops
  | .reset :: ops => sinceReset [] ops

/-- **C104**: if all measurements lie on a line (measurement = off + slp * note), then after every history of measurements and resets in which two different notes have been measured since
the last reset, slope() and offset() are the line's. -/
theorem C104_recovers_line (off slp : ℚ) (ops : List Op) (hline : ∀ (n : Nat) (m : ℚ), .record n m ∈ ops → n ≠ 11 → m = off + slp * n)
    (htwo : ∃ a ∈ sinceReset [] ops, ∃ b ∈ sinceReset [] ops, a ≠ b) :
    (ops.foldl step init).slope = slp ∧ (ops.foldl step init).offset = off := by
  have gen : ∀ (ops : List Op) (ns : List Nat) (v : Voct), Inv off slp ns v → (∀ (n : Nat) (m : ℚ), .record n m ∈ ops → n ≠ 11 → m = off + slp * n) → Inv off slp (sinceReset ns ops) (ops.foldl step v) := by
    intro ops
    induction ops with
    | nil => intro ns v h _; exact h
    | cons op ops ih =>
      intro ns v h hl
      rw [List.foldl_cons]
      have hl' : ∀ (n : Nat) (m : ℚ), .record n m ∈ ops → n ≠ 11 → m = off + slp * n := fun n m hm => hl n m (List.mem_cons_of_mem _ hm)
      cases op with
      | reset => exact ih [] _ (inv_reset off slp ns v h) hl'
      | record n m =>
        rw [sinceReset]
        by_cases hn : n = 11
        · rw [if_pos hn]
          have : step v (.record n m) = v := by show v.record n m = v; unfold record; rw [if_pos hn]
          rw [this]; exact ih ns v h hl'
        · rw [if_neg hn]
          exact ih _ _ (inv_record off slp ns v h n hn m (hl n m List.mem_cons_self hn)) hl'
  have hinv := gen ops [] init (inv_init off slp) hline
  have hs := hinv.differ htwo
  refine ⟨hs, ?_⟩
  have h2 : 2 ≤ (ops.foldl step init).num := by
    rw [hinv.num]
    obtain ⟨a, ha, b, hb, hab⟩ := htwo
    have : 2 ≤ (sinceReset [] ops).length := by
      match hl : sinceReset [] ops with
      | [] => rw [hl] at ha; simp at ha
      | [x] => rw [hl] at ha hb; simp at ha hb; omega
      | x :: y :: l => simp
    omega
  cases hc : (ops.foldl step init).measuredC0 with
  | true => exact hinv.offset hc
  | false => exact hinv.offset2 hc h2 hs

/-- **C104** for arbitrary data: two measurements of different notes with different values, neither of them C0, after a reset give exactly the line through the two points. -/
theorem C104_two_points (v : Voct) (n1 n2 : Nat) (m1 m2 : ℚ) (h1 : n1 ≠ 0) (h2 : n2 ≠ 0) (h1' : n1 ≠ 11) (h2' : n2 ≠ 11) (hne : n1 ≠ n2) (hm : m1 ≠ m2) (w : Voct)
    (hw : w = (v.reset.record n1 m1).record n2 m2) : w.offset + w.slope * n1 = m1 ∧ w.offset + w.slope * n2 = m2 := by
  have e1 : v.reset.record n1 m1 = { v.reset with pt0 := (n1, m1), num := 1 } := by
    unfold record noteC0 push solve reset
    simp [h1, h1']
  have hsp : ((n1 : Int) - n2) ≠ 0 := by omega
  have hd : m1 - m2 ≠ 0 := sub_ne_zero.mpr hm
  have e2 : w = { v.reset with pt0 := (n1, m1), pt1 := (n2, m2), num := 2, slope := (m1 - m2) / (((n1 : Int) - n2 : Int) : ℚ), offset := (m1 - (m1 - m2) / (((n1 : Int) - n2 : Int) : ℚ) * n1 + (m2 - (m1 - m2) / (((n1 : Int) - n2 : Int) : ℚ) * n2)) / 2 } := by
    have hc : ((n1 : Int) - n2) ≠ 0 ∧ m1 - m2 ≠ 0 := ⟨hsp, hd⟩
    have hp : (({ v.reset with pt0 := (n1, m1), num := 1 } : Voct).noteC0 n2 m2).push n2 m2 = ⟨0, 0, (n1, m1), (n2, m2), 2, false⟩ := by
      unfold noteC0 push
      rw [if_neg h2]; rfl
    have hs : (⟨0, 0, (n1, m1), (n2, m2), 2, false⟩ : Voct).solve =
        (let u : Voct := if ((n1 : Int) - n2) ≠ 0 ∧ m1 - m2 ≠ 0 then ⟨0, (m1 - m2) / (((n1 : Int) - n2 : Int) : ℚ), (n1, m1), (n2, m2), 2, false⟩ else ⟨0, 0, (n1, m1), (n2, m2), 2, false⟩
        if u.measuredC0 then u else { u with offset := (u.pt0.2 - u.slope * u.pt0.1 + (u.pt1.2 - u.slope * u.pt1.1)) / 2 }) := rfl
    rw [hw, e1]
    unfold record
    rw [if_neg h2', hp, hs, if_pos hc]
    rfl
  have hspq : (n1 : ℚ) - n2 ≠ 0 := by exact_mod_cast hsp
  rw [e2]
  simp only
  push_cast
  constructor <;> (field_simp; ring)

example := C104_two_points init 2 4 (1 / 10) (4 / 10) (by decide) (by decide) (by decide) (by decide) (by decide) (by norm_num) _ rfl

/-- **C104**: a measurement of C0 fixes the offset to it, until C0 is measured again or reset. -/
theorem C104_C0 (v : Voct) (m : ℚ) : (v.record 0 m).offset = m ∧ (v.record 0 m).measuredC0 = true ∧ ∀ n m', v.measuredC0 = true → n ≠ 0 → (v.record n m').offset = v.offset := by
  have hsolve : ∀ u : Voct, u.measuredC0 = true → u.solve.offset = u.offset ∧ u.solve.measuredC0 = true := by
    intro u hu
    unfold solve
    split
    · simp only
      split
      · simp only [hu, if_true]; exact ⟨trivial, trivial⟩
      · simp only [hu, if_true]; exact ⟨trivial, trivial⟩
    · exact ⟨rfl, hu⟩
  have hpush : ∀ (u : Voct) n m, (u.push n m).offset = u.offset ∧ (u.push n m).measuredC0 = u.measuredC0 := by
    intro u n m
    unfold push
    simp only
    split <;> split <;> exact ⟨rfl, rfl⟩
  have hC : v.noteC0 0 m = { v with measuredC0 := true, offset := m } := by unfold noteC0; rw [if_pos rfl]
  refine ⟨?_, ?_, ?_⟩
  · unfold record; rw [if_neg (by decide), hC]
    rw [(hsolve _ (by rw [(hpush _ _ _).2])).1, (hpush _ _ _).1]
  · unfold record; rw [if_neg (by decide), hC]
    exact (hsolve _ (by rw [(hpush _ _ _).2])).2
  · intro n m' hv hn
    unfold record
    split
    · rfl
    · have : v.noteC0 n m' = v := by unfold noteC0; rw [if_neg hn]
      rw [this, (hsolve _ (by rw [(hpush _ _ _).2, hv])).1, (hpush _ _ _).1]

/-- **C104**: a fresh calibrator has offset and slope 0, and one measurement changes nothing but the offset, when it is a C0. -/
theorem C104_fresh (n : Nat) (m : ℚ) : init.offset = 0 ∧ init.slope = 0 ∧ (init.record n m).slope = 0 ∧ (init.record n m).offset = if n = 0 then m else 0 := by
  refine ⟨rfl, rfl, ?_, ?_⟩
  all_goals
    unfold record noteC0 push solve init
    by_cases h : n = 11
    · simp [h]
    · by_cases h0 : n = 0 <;> simp [h, h0]

/-- The two-notes hypothesis is needed: after one note, or twice the same note, the slope is still 0. -/
theorem C104_two_notes_needed : (init.record 3 50).slope = 0 ∧ ((init.record 3 50).record 3 50).slope = 0 ∧ ((init.record 3 50).record 3 50).offset = 50 := by decide +kernel

example : (([.record 2 30, .record 2 30, .record 5 60, .record 11 7, .record 5 60] : List Op).foldl step init).slope = 10 ∧
    sinceReset [] [.record 2 30, .record 2 30, .record 5 60, .record 11 7, .record 5 60] = [2, 2, 5, 5] := by
  constructor
  · refine (C104_recovers_line 10 10 _ ?_ ⟨2, by decide, 5, by decide, by decide⟩).1
    intro n m hm hn
    simp at hm
    rcases hm with ⟨h1, h2⟩ | ⟨h1, h2⟩ | ⟨h1, h2⟩ | ⟨h1, h2⟩ <;> first | (exact absurd h1 hn) | (rw [h1, h2]; norm_num)
  · decide

end Voct
