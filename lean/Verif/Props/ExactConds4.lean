import Verif.Props.Interp
import Verif.Props.VoctLatest
import Verif.Props.HystInt
import Verif.Props.WrapFloat
import Verif.Props.StaticString
import Verif.Props.SequentialMap
import Verif.Props.Params
/-! # Exact conditions behind partial properties: C21, C28, C101, C105, C122, C174, C183, C185 -/

namespace InterpArray
open Interp Interp.Spec

/-- A position between -1 and 0 is converted to element 0. -/
theorem trunc_neg (n : Nat) (x : ℚ) (h0 : -1 < x) (h1 : x < 0) : Color.trunc n x = .ok 0 := by
  unfold Color.trunc
  have hn : (0 : ℚ) ≤ n := Nat.cast_nonneg n
  have hf : ⌊x⌋ = -1 := by rw [Int.floor_eq_iff]; norm_num; exact ⟨h0.le, h1⟩
  rw [if_pos ⟨h0, by linarith⟩, hf]
  rfl

/-- **C101**: exactly when interp_wrap is defined on a table, for every phase: phase * Size above -1 and below 2^32. Just below 0 it is not the blend of the last and the first element: the line through the first two elements is prolonged
backwards. -/
theorem C101_wrap_exact (data : List ℚ) (hne : data ≠ []) (p : ℚ) :
    ((∃ v, interpWrap data p = .ok v) ↔ -1 < p * data.length ∧ p * data.length < 2 ^ 32) ∧
    (-1 < p * data.length → p * data.length < 0 → interpWrap data p = .ok (lerp (at' data 0) (at' data (1 % data.length)) (p * data.length))) := by
  have hl : 0 < data.length := List.length_pos_iff.mpr hne
  have hneg : ∀ x : ℚ, -1 < x → x < 0 → interpByIndexWrap data x = .ok (lerp (at' data 0) (at' data (1 % data.length)) x) := by
    intro x h0 h1
    unfold interpByIndexWrap
    rw [trunc_neg _ x h0 h1, R.bind_ok, wrapIdx_eq _ hl, Nat.zero_mod, blend_eq data 0 hl]
    simp
  refine ⟨⟨?_, ?_⟩, fun h0 h1 => hneg _ h0 h1⟩
  · rintro ⟨v, hv⟩
    unfold interpWrap interpByIndexWrap Color.trunc at hv
    split at hv
    · next h => exact ⟨h.1, by have := h.2; norm_num at this ⊢; exact this⟩
    · cases hv
  · rintro ⟨h0, h1⟩
    rcases lt_or_ge (p * (data.length : ℚ)) 0 with hc | hc
    · exact ⟨_, hneg _ h0 hc⟩
    · obtain ⟨k, hk, hk1⟩ := cell _ hc
      have hk2 : k < 2 ^ 32 := by
        have : (k : ℚ) < ((2 ^ 32 : Nat) : ℚ) := by push_cast; linarith
        exact_mod_cast this
      exact ⟨_, (C101_wrap_index data hne _ k hk hk1 hk2 _ _ rfl rfl).1⟩

/-- slightly before the start of the table: 1 and 5 prolonged backwards give 0, not a value between 2 and 1 -/
example : interpWrap [1, 5, 2] (-1 / 12) = .ok 0 := by
  rw [(C101_wrap_exact [1, 5, 2] (by decide) (-1 / 12)).2 (by norm_num) (by norm_num)]
  norm_num [lerp, at']

/-- **C101**: exactly when interp_by_index is defined: the index is above -1 and below Size. -/
theorem C101_index_exact (data : List ℚ) (hw : data.length ≤ 2 ^ 32) (hne : data ≠ []) (x : ℚ) :
    (∃ v, interpByIndex data x = .ok v) ↔ -1 < x ∧ x < data.length := by
  have hl : 0 < data.length := List.length_pos_iff.mpr hne
  have hwq : (data.length : ℚ) ≤ 4294967296 := by exact_mod_cast hw
  constructor
  · rintro ⟨v, hv⟩
    unfold interpByIndex at hv
    rcases lt_or_ge x 0 with hx | hx
    · refine ⟨?_, by have : (0 : ℚ) ≤ data.length := Nat.cast_nonneg _; linarith⟩
      unfold Color.trunc at hv
      split at hv
      · next h => exact h.1
      · cases hv
    · refine ⟨by linarith, ?_⟩
      obtain ⟨k, hk, hk1⟩ := cell x hx
      rcases Nat.lt_or_ge k 4294967296 with h | h
      · rw [trunc_cell _ k x hk hk1 h, R.bind_ok] at hv
        rcases Nat.lt_or_ge k data.length with hkl | hkl
        · have : ((k + 1 : Nat) : ℚ) ≤ data.length := by exact_mod_cast hkl
          push_cast at this
          linarith
        · exfalso
          unfold blend at hv
          simp only [if_neg (show ¬ k = data.length - 1 by omega)] at hv
          rw [arrGet_ub.mpr (by omega), R.bind_ub] at hv
          cases hv
      · unfold Color.trunc at hv
        have : ((4294967296 : Nat) : ℚ) ≤ k := by exact_mod_cast h
        rw [if_neg (fun hc => by linarith [hc.2])] at hv
        cases hv
  · rintro ⟨h0, h1⟩
    unfold interpByIndex
    rcases lt_or_ge x 0 with hx | hx
    · rw [trunc_neg _ x h0 hx, R.bind_ok]
      exact ⟨_, blend_eq data 0 hl _⟩
    · obtain ⟨k, hk, hk1⟩ := cell x hx
      have hkl : k < data.length := by
        have : (k : ℚ) < data.length := by linarith
        exact_mod_cast this
      rw [trunc_cell _ k x hk hk1 (by omega), R.bind_ok]
      exact ⟨_, blend_eq data k hkl _⟩

example := (C101_index_exact [1, 5, 2] (by norm_num) (by decide) (11 / 4)).mpr (by norm_num)

end InterpArray

namespace Voct

/-- **C183**, exactly: after two measurements, whatever was measured before, the slope is that of the line through them if notes and values differ, and otherwise what it was; the offset is the value measured last at C0 if C0 was ever measured (since
the last reset), and otherwise makes the line pass the two measurements at equal distance on opposite sides. So the line passes through both exactly if its slope fits (`m1 - m2 = slope * (n1 - n2)`) and the offset does. -/
theorem C183_exact (v : Voct) (n1 n2 : Nat) (m1 m2 : ℚ) (h1 : n1 ≠ 11) (h2 : n2 ≠ 11) (u w : Voct) (hu : u = v.record n1 m1) (hw : w = u.record n2 m2) :
    w.slope = (if n1 ≠ n2 ∧ m1 ≠ m2 then (m1 - m2) / ((n1 : ℚ) - n2) else u.slope) ∧
    w.measuredC0 = (u.measuredC0 || decide (n2 = 0)) ∧
    (w.measuredC0 = true → w.offset = if n2 = 0 then m2 else u.offset) ∧
    (w.measuredC0 = false → (w.offset + w.slope * n1 - m1) + (w.offset + w.slope * n2 - m2) = 0) := by
  obtain ⟨w', e, q1, q2, q3, q4, q5, q6⟩ := record_two u n1 n2 m1 m2 (by rw [hu]; exact record_latest v n1 m1 h1) h2
  have hwe : w = w'.solve := by rw [hw, e]
  obtain ⟨_, _, _, kc⟩ := solve_keeps w'
  have hcond : (((n1 : Int) - n2) ≠ 0 ∧ m1 - m2 ≠ 0) ↔ (n1 ≠ n2 ∧ m1 ≠ m2) := by
    constructor
    · rintro ⟨a, b⟩; exact ⟨by omega, sub_ne_zero.mp b⟩
    · rintro ⟨a, b⟩; exact ⟨by omega, sub_ne_zero.mpr b⟩
  have hs : w'.solve.slope = (if n1 ≠ n2 ∧ m1 ≠ m2 then (m1 - m2) / ((n1 : ℚ) - n2) else u.slope) ∧
      w'.solve.offset = (if w'.measuredC0 then w'.offset else (m1 - w'.solve.slope * n1 + (m2 - w'.solve.slope * n2)) / 2) := by
    unfold solve
    rw [if_pos (by omega)]
    simp only [q2, q3]
    by_cases hc : n1 ≠ n2 ∧ m1 ≠ m2
    · rw [if_pos (hcond.mpr hc), if_pos hc]
      simp only
      cases w'.measuredC0
      · simp only [Bool.false_eq_true, if_false, q2, q3]; push_cast; exact ⟨rfl, trivial⟩
      · simp
    · rw [if_neg (fun h => hc (hcond.mp h)), if_neg hc]
      cases w'.measuredC0
      · simp only [Bool.false_eq_true, if_false, q2, q3, q4]; exact ⟨trivial, trivial⟩
      · simp [q4]
  refine ⟨by rw [hwe]; exact hs.1, by rw [hwe, kc, q5], ?_, ?_⟩
  · intro hm
    rw [hwe, kc] at hm
    rw [hwe, hs.2, if_pos hm, q6]
  · intro hm
    rw [hwe, kc] at hm
    rw [hwe, hs.2, hm]
    simp only [Bool.false_eq_true, if_false]
    ring

/-- the two equal measurements that leave the slope: 5 above at one, 5 below at the other -/
example := C183_exact (((init.record 1 10).record 2 20)) 3 4 30 30 (by decide) (by decide) _ _ rfl rfl

end Voct

namespace HystInt
open Flt ParamsInt FilterFloat

/-- **C174** for `uint32_t`, exactly which way it works: with state and input below 2^22 and a dead zone up to 2^22, an input at or above the state gives the same as in `int32_t`; with any input below the state, however little, add_val is
undefined or the new state is at least 2^31, and it is undefined if the input exceeds the dead zone by 256. -/
theorem C174_unsigned_exact (rnd : ℚ → ℚ) (h : Nearest rnd) (num div : Nat) (s x : Int) (hs : 0 ≤ s) (hx : 0 ≤ x) (bs : s < 2 ^ 22) (bx : x < 2 ^ 22) (hf : flat rnd num div ≤ 2 ^ 22) :
    (s ≤ x → addVal rnd ⟨32, false⟩ num div s x = addVal rnd ⟨32, true⟩ num div s x) ∧
    (x < s → (∀ s', addVal rnd ⟨32, false⟩ num div s x = .ok s' → 2 ^ 31 ≤ s') ∧
      (flat rnd num div + 256 ≤ x → addVal rnd ⟨32, false⟩ num div s x = .ub)) := by
  have f0 := flat_nonneg rnd h num div
  constructor
  · intro hsx
    obtain ⟨s', e, g1, g2, _⟩ := C174_hysteresis_partial rnd h ⟨32, true⟩ (by decide) (.inl ⟨rfl, le_refl _⟩) num div s x (by unfold InTy; norm_num; omega) (by unfold InTy; norm_num; omega)
      (by rw [abs_of_nonneg hs]; exact bs) (by rw [abs_of_nonneg hx]; exact bx)
    rw [e]
    have hd1 : diff ⟨32, true⟩ x s = .ok (x - s) := by
      unfold diff
      rw [if_neg (by decide), op_id (by decide) (by unfold InTy; norm_num; omega)]
    have hd2 : diff ⟨32, false⟩ x s = .ok (x - s) := by
      unfold diff
      rw [if_neg (by decide), op_id (by decide) (by unfold InTy; norm_num; omega)]
    unfold addVal at e ⊢
    rw [hd1, R.bind_ok] at e
    rw [hd2, R.bind_ok]
    simp only at e ⊢
    generalize rnd (rnd ↑s + FilterFloat.hysteresis rnd num div (rnd ↑(x - s))) = q at e ⊢
    unfold toInt at e ⊢
    simp only at e ⊢
    generalize (if 0 ≤ q then ⌊q⌋ else ⌈q⌉) = n at e ⊢
    rw [min_eq_left hsx] at g1
    rw [max_eq_right hsx] at g2
    by_cases hc : InTy ⟨32, true⟩ n
    · rw [if_pos hc] at e
      injection e with e
      rw [e]
      rw [if_pos (by unfold InTy; norm_num; omega)]
    · rw [if_neg hc] at e; cases e
  · intro hlt
    have hd : diff ⟨32, false⟩ x s = .ok (x - s + 4294967296) := by
      unfold diff
      rw [if_neg (by decide)]
      unfold op conv
      norm_num
      omega
    obtain ⟨f, hfe⟩ : ∃ f, f = flat rnd num div := ⟨_, rfl⟩
    rw [← hfe] at hf f0 ⊢
    obtain ⟨D, hD⟩ : ∃ D : ℚ, D = rnd ((x - s + 4294967296 : ℤ) : ℚ) := ⟨_, rfl⟩
    have hcast : ((x - s + 4294967296 : ℤ) : ℚ) = (x : ℚ) - s + 4294967296 := by push_cast; rfl
    have qs0 : (0 : ℚ) ≤ s := by exact_mod_cast hs
    have qx0 : (0 : ℚ) ≤ x := by exact_mod_cast hx
    have qs : (s : ℚ) < 4194304 := by exact_mod_cast bs
    have qlt : (x : ℚ) < s := by exact_mod_cast hlt
    have qf : f ≤ 4194304 := by norm_num at hf; exact hf
    have p31 : F32 (2147483648 : ℚ) := by have := f32_pow2 31; norm_num at this; exact this
    have p32 : F32 (4294967296 : ℚ) := by have := f32_pow2 32; norm_num at this; exact this
    have hsF : rnd (s : ℚ) = s := h.fix (f32_int _ (by rw [abs_of_nonneg hs]; omega))
    have grid : ∀ q : ℚ, 0 ≤ q → q ≤ 4294967296 → |rnd q - q| ≤ 128 := by
      intro q h0 h1
      have := h.grid q 8 (by norm_num) (by rw [abs_of_nonneg h0]; norm_num; exact h1)
      norm_num at this
      exact this
    have d2 := abs_le.mp (grid ((x : ℚ) - s + 4294967296) (by linarith) (by linarith))
    rw [← hcast, ← hD, hcast] at d2
    have hcl : Filter.clampQ D (-f) f = f := by
      unfold Filter.clampQ
      rw [if_neg (by linarith), if_pos (by linarith)]
    obtain ⟨y, hy⟩ : ∃ y, y = rnd (D - f) := ⟨_, rfl⟩
    have hD32 : D ≤ 4294967296 := by
      rw [hD]
      exact h.le p32 (by rw [hcast]; linarith)
    have y2 := abs_le.mp (grid (D - f) (by linarith) (by linarith))
    rw [← hy] at y2
    have heq : addVal rnd ⟨32, false⟩ num div s x = toInt ⟨32, false⟩ (rnd (s + y)) := by
      unfold addVal
      rw [hd, R.bind_ok]
      simp only [FilterFloat.hysteresis]
      rw [← hD, hsF]
      rw [show rnd (rnd (num : ℚ) / rnd (div : ℚ)) = flat rnd num div from rfl, ← hfe, hcl, ← hy]
    rw [heq]
    constructor
    · intro s' e
      have hge : (2147483648 : ℚ) ≤ rnd (s + y) := h.ge p31 (by linarith)
      unfold toInt at e
      simp only at e
      rw [if_pos (show 0 ≤ rnd (s + y) by linarith)] at e
      by_cases hc : InTy ⟨32, false⟩ ⌊rnd (s + y)⌋
      · rw [if_pos hc] at e
        injection e with e
        rw [← e, Int.le_floor]
        norm_num
        exact hge
      · rw [if_neg hc] at e; cases e
    · intro hfx
      have hge : (4294967296 : ℚ) ≤ rnd (s + y) := h.ge p32 (by linarith)
      unfold toInt
      simp only
      rw [if_pos (show 0 ≤ rnd (s + y) by linarith), if_neg]
      unfold InTy
      simp only [Bool.false_eq_true, if_false]
      intro hc
      have h2 : (4294967296 : ℤ) ≤ ⌊rnd (s + y)⌋ := Int.le_floor.mpr (by push_cast; exact hge)
      have := hc.2
      norm_num at this
      omega

/-- a pot at 2000 turned down to 1999, with a dead zone of a half -/
example (rnd : ℚ → ℚ) (h : Nearest rnd) : addVal rnd ⟨32, false⟩ 1 2 2000 1999 = .ub := by
  have e : flat rnd 1 2 = 1 / 2 := by
    unfold flat
    have a := h.fix (f32_int 1 (by norm_num))
    have b := h.fix (f32_int 2 (by norm_num))
    norm_num at a b ⊢
    rw [a, b]
    exact h.fix (by simpa using f32_div 1 (by norm_num) 1 (by norm_num))
  exact ((C174_unsigned_exact rnd h 1 2 2000 1999 (by norm_num) (by norm_num) (by norm_num) (by norm_num) (by rw [e]; norm_num)).2 (by norm_num)).2 (by rw [e]; norm_num)

end HystInt

namespace WrapFloat
open Flt

/-- **C185**, exactly, for floats that are multiples of 2^-j below 2^22 of these units: the result of `wrap` is val less as many periods max - min + 1 as fit between min and val; so it is within [min, max] exactly if the remainder is at most max - min. -/
theorem C185_wrap_exact {rnd : ℚ → ℚ} (h : Nearest rnd) (j : Nat) (hj : j ≤ 21) (val min max : ℚ)
    (V A B : ℤ) (eV : val = V / 2 ^ j) (eA : min = A / 2 ^ j) (eB : max = B / 2 ^ j) (hV : |V| < 2 ^ 22) (hA : |A| < 2 ^ 22) (hB : |B| < 2 ^ 22) (hAB : min ≤ max) :
    ∃ fuel, ∀ f, fuel ≤ f → wrap rnd f val min max = some (val - (max - min + 1) * ⌊(val - min) / (max - min + 1)⌋) := by
  obtain ⟨r, fuel, e, g1, g2, n, g3⟩ := C185_wrap_partial h j hj val min max V A B eV eA eB hV hA hB hAB
  refine ⟨fuel, fun f hf => ?_⟩
  rw [e f hf]
  have hp : (0 : ℚ) < max - min + 1 := by linarith
  have : ⌊(val - min) / (max - min + 1)⌋ = n := by
    rw [Int.floor_eq_iff, le_div_iff₀ hp, div_lt_iff₀ hp]
    constructor
    · linarith
    · linarith
  rw [this]
  congr 1
  linarith

example {rnd : ℚ → ℚ} (h : Nearest rnd) := C185_wrap_exact h 1 (by norm_num) (5 / 2) 1 2 5 2 4 (by norm_num) (by norm_num) (by norm_num) (by norm_num) (by norm_num) (by norm_num) (by norm_num)

end WrapFloat

namespace StaticString

/-- **C21**: exactly when copying a `string_view` is defined: the capacity is positive, or there is nothing to copy. -/
theorem C21_copy_string_view_exact (cap : Nat) (data : List Byte) (hd : data.length = cap + 1) (s : List Byte) :
    (∃ out, copySv cap data s = .ok out) ↔ (0 < cap ∨ s = []) := by
  constructor
  · rintro ⟨out, e⟩
    rcases Nat.eq_zero_or_pos cap with rfl | h
    · right
      cases s with
      | nil => rfl
      | cons c s =>
        match data, hd with
        | [d], _ => rw [C21_capacity_zero_violated] at e; cases e
    · exact .inl h
  · rintro (h | rfl)
    · obtain ⟨out, e, _⟩ := C21_copy_string_view_partial cap h data hd s
      exact ⟨out, e⟩
    · exact ⟨_, arrSet_lt (by omega)⟩

example := (C21_copy_string_view_exact 0 [7] rfl []).mpr (.inr rfl)

end StaticString

namespace SequentialMap
variable {K V : Type} [DecidableEq K]

/-- **C28**: exactly when assigning a new key on a full map is defined: the map's capacity is not 0. -/
theorem C28_overfull_exact (s : St K V) (hf : isFull s = true) (k : K) (v : V) (hk : contains s k = false) :
    (∃ s', assign s k v = .ok s') ↔ 0 < maxSize s := by
  constructor
  · rintro ⟨s', e⟩
    rcases Nat.eq_zero_or_pos (maxSize s) with h | h
    · exfalso
      obtain ⟨d, b⟩ := s
      have hd : d = [] := List.eq_nil_of_length_eq_zero h
      subst hd
      have hb : b = 0 := of_decide_eq_true hf
      subst hb
      simp [assign, index, FixedVector.toList, search, FixedVector.pushBackForOverwrite, FixedVector.maxSize] at e
    · exact h
  · intro h
    obtain ⟨s', e, _⟩ := C28_overfull_partial s hf h k v hk
    exact ⟨s', e⟩

example := (C28_overfull_exact (⟨[(1, 10), (2, 20)], 2⟩ : St Nat Nat) (by decide) 3 30 (by decide)).mpr (by decide)

/-- **C122**: exactly when reading a const map is defined: the key is present. -/
theorem C122_const_read_exact (s : St K V) (h : Ok s) (k : K) : (∃ v, readConst s k = .ok v) ↔ contains s k = true := by
  constructor
  · rintro ⟨v, e⟩
    cases hc : contains s k
    · rw [C122_const_read_absent_violated s k hc] at e; cases e
    · rfl
  · intro hc
    obtain ⟨v, e, _⟩ := C122_const_read_partial s h k hc
    exact ⟨v, e⟩

example := (C122_const_read_exact (⟨[(1, 10), (2, 20)], 2⟩ : St Nat Nat) (by unfold Ok; decide) 2).mpr (by decide)

end SequentialMap

namespace FilteredInterp
variable {N : Nat} {φ : Type}

/-- The counter after `k` gets is `k` modulo 2^32; nothing else but the outputs changes. -/
theorem get_iter (s : FilteredInterp N φ) (hc : s.count = 0) (n : Nat) (hn : s.num = n) (hn32 : n < 4294967296) (v c0 st : Fin N → ℚ) (hv : ∀ i, (s.interps i).target = v i) (hst : ∀ i, (s.interps i).step = st i)
    (h0 : ∀ i, s.out i = c0 i) (k : Nat) :
    (get^[k] s).count = k % 4294967296 ∧ (get^[k] s).num = n ∧ (∀ i, ((get^[k] s).interps i).target = v i) ∧ (∀ i, ((get^[k] s).interps i).step = st i) ∧
    ∀ i, (get^[k] s).out i = if k < n ∨ k = 0 then c0 i + k * st i else if n ≤ k % 4294967296 then v i else v i + (k % 4294967296 + 1 : Nat) * st i := by
  induction k with
  | zero => exact ⟨by simpa using hc, hn, hv, hst, fun i => by simpa using h0 i⟩
  | succ k ih =>
    rw [Function.iterate_succ_apply']
    obtain ⟨t, ht⟩ : ∃ t, get^[k] s = t := ⟨_, rfl⟩
    rw [ht] at ih ⊢
    obtain ⟨i1, i2, i3, i4, i5⟩ := ih
    have hcount : (t.count + 1) % 2 ^ 32 = (k + 1) % 4294967296 := by rw [i1]; omega
    refine ⟨hcount, i2, ?_, ?_, ?_⟩
    · intro i
      show (if (t.count + 1) % 2 ^ 32 ≥ t.num then (t.interps i).snap else (t.interps i).next).target = v i
      split <;> exact i3 i
    · intro i
      show (if (t.count + 1) % 2 ^ 32 ≥ t.num then (t.interps i).snap else (t.interps i).next).step = st i
      split <;> exact i4 i
    · intro i
      show (if (t.count + 1) % 2 ^ 32 ≥ t.num then (t.interps i).snap else (t.interps i).next).cur = _
      rw [hcount, i2]
      have hcur := i5 i
      unfold out at hcur
      by_cases hlt : k + 1 < n
      · rw [if_neg (by omega), if_pos (.inl hlt)]
        show (t.interps i).cur + (t.interps i).step = _
        rw [hcur, i4, if_pos (.inl (by omega))]
        push_cast; ring
      · rw [if_neg (by omega : ¬ (k + 1 < n ∨ k + 1 = 0))]
        by_cases hge : n ≤ (k + 1) % 4294967296
        · rw [if_pos hge, if_pos hge]
          exact i3 i
        · rw [if_neg hge, if_neg hge]
          show (t.interps i).cur + (t.interps i).step = _
          rw [hcur, i4]
          by_cases hk : k < n ∨ k = 0
          · exfalso
            omega
          · rw [if_neg hk]
            by_cases hk2 : n ≤ k % 4294967296
            · have : (k + 1) % 4294967296 = 0 := by omega
              rw [if_pos hk2, this]
              push_cast; ring
            · have : (k + 1) % 4294967296 = k % 4294967296 + 1 := by omega
              rw [if_neg hk2, this]
              push_cast; ring

/-- **C105** (FilteredInterpArray), exactly, for any number `k > 0` of updates after new readings: on the way there, k steps from the start; from the n-th update on, the reading, except in the `n` updates from every 2^32-th on, where the output
walks away from it: v + (j + 1) steps in the j-th of these. -/
theorem C105_array_exact (addVal : φ → ℚ → φ × ℚ) (s : FilteredInterp N φ) (hr : s.ready = true) (read : Fin N → ℚ) (n : Nat) (hn : n = if s.count > 0 then s.count else s.num) (hp : 0 < n) (hn32 : n < 2 ^ 32)
    (k : Nat) (hk : 0 < k) (i : Fin N) (v d : ℚ) (hv : v = (addVal (s.filters i) (read i)).2) (hd : d = (v - s.out i) / n) :
    (get^[k] (s.add addVal read)).out i = if k < n then s.out i + k * d else if n ≤ k % 2 ^ 32 then v else v + (k % 2 ^ 32 + 1 : Nat) * d := by
  have he : s.add addVal read = { interps := fun i => (s.interps i).setNew (addVal (s.filters i) (read i)).2 n
                                  filters := fun i => (addVal (s.filters i) (read i)).1
                                  ready := false, count := 0, num := n } := by
    unfold add; rw [hr, hn]; rfl
  have hset : ∀ (p : InterpParamVar) (x : ℚ), p.setNew x n = ⟨p.cur, x, (x - p.cur) / n⟩ := by
    intro p x; unfold InterpParamVar.setNew; simp only; rw [if_pos hp]
  rw [he]
  have h := (get_iter
    (s := { interps := fun i => (s.interps i).setNew (addVal (s.filters i) (read i)).2 n, filters := fun i => (addVal (s.filters i) (read i)).1, ready := false, count := 0, num := n })
    (hc := rfl) (n := n) (hn := rfl) (hn32 := by norm_num at hn32; omega) (v := fun i => (addVal (s.filters i) (read i)).2) (c0 := s.out)
    (st := fun i => ((addVal (s.filters i) (read i)).2 - s.out i) / (n : ℚ))
    (hv := fun i => by simp only [hset]) (hst := fun i => by simp only [hset]; rfl) (h0 := fun i => by unfold out; simp only [hset]) (k := k)).2.2.2.2 i
  rw [h, hd, hv]
  norm_num
  by_cases h1 : k < n
  · rw [if_pos (.inl h1), if_pos h1]
  · rw [if_neg (by omega), if_neg h1]

example := C105_array_exact (N := 1) (φ := Unit) (fun _ x => ((), x)) ((init ()).setNum 4).mark rfl (fun _ => 8) 4 rfl (by decide) (by decide) 3 (by decide) 0 8 2 rfl (by norm_num [out, init, setNum, mark, InterpParamVar.init])

end FilteredInterp
