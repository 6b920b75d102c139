import Verif.Model.DiffInt
import Verif.Props.WrapInt
import Mathlib.Algebra.Order.Group.Abs
/-! # Property C181: distances and latched parameters of machine integer types -/

namespace DiffInt
open ParamsInt

/-- The largest value of the type. -/
def top (t : Ty) : Int := if t.signed then 2 ^ (t.w - 1) - 1 else 2 ^ t.w - 1

/-- What the type makes of a distance `d`: itself if it is a value; otherwise the type is signed, and it is undefined from 32 bits on and `d - 2^w` (negative) below. -/
def seen (t : Ty) (d : Int) : R Int := if d ≤ top t then .ok d else if 32 ≤ t.w then .ub else .ok (d - 2 ^ t.w)

theorem two_pow (t : Ty) (hw : 0 < t.w) : (2 : Int) ^ t.w = 2 * 2 ^ (t.w - 1) := by
  obtain ⟨k, hk⟩ := Nat.exists_eq_succ_of_ne_zero (Nat.pos_iff_ne_zero.mp hw)
  rw [hk, Nat.succ_sub_one, pow_succ]
  exact Int.mul_comm _ _

theorem op_dist (t : Ty) (hw : 0 < t.w) (x y : Int) (hx : InTy t x) (hy : InTy t y) (h : y ≤ x) : op t (x - y) = seen t (x - y) := by
  have e := two_pow t hw
  have p : (0 : Int) < 2 ^ (t.w - 1) := by positivity
  unfold seen
  by_cases hd : x - y ≤ top t
  · rw [if_pos hd]
    apply op_id hw
    unfold InTy top at *
    cases hs : t.signed <;> simp only [hs, Bool.false_eq_true, if_false, if_true] at * <;> constructor <;> omega
  · rw [if_neg hd]
    cases hs : t.signed
    · exfalso
      unfold InTy top at *
      simp only [hs, Bool.false_eq_true, if_false] at *
      omega
    · have hn : ¬ InTy t (x - y) := by
        unfold InTy top at *
        simp only [hs, if_true] at *
        omega
      unfold op
      by_cases h32 : 32 ≤ t.w
      · rw [if_pos ⟨hs, h32, hn⟩, if_pos h32]
      · rw [if_neg (fun g => h32 g.2.1), if_neg h32]
        unfold conv
        unfold InTy top at *
        simp only [hs, if_true] at *
        congr 1
        rw [show x - y + 2 ^ (t.w - 1) = (x - y - 2 ^ (t.w - 1)) + 2 ^ t.w by omega, Int.add_emod_right, Int.emod_eq_of_lt (by omega) (by omega)]
        omega

/-- **C181**: in every integer type, `abs_diff` and `diff` of any two values are their distance if that is a value of the type (always, if it is unsigned); if not, the call is undefined in signed types from 32 bits on, and in narrower ones gives
the distance less 2^w, a negative number. Both are symmetric. -/
theorem C181_distance (t : Ty) (hw : 0 < t.w) (x y : Int) (hx : InTy t x) (hy : InTy t y) :
    absDiff t x y = seen t |x - y| ∧ diff t x y = seen t |x - y| ∧ (t.signed = false → absDiff t x y = .ok |x - y| ∧ diff t x y = .ok |x - y|) := by
  have a : ∀ x y, InTy t x → InTy t y → y ≤ x → op t (x - y) = seen t |x - y| := by
    intro x y hx hy h
    rw [abs_of_nonneg (by omega)]
    exact op_dist t hw x y hx hy h
  have k1 : absDiff t x y = seen t |x - y| := by
    unfold absDiff
    by_cases h : x ≥ y
    · rw [if_pos h, a x y hx hy h]
    · rw [if_neg h, a y x hy hx (by omega), abs_sub_comm]
  have k2 : diff t x y = seen t |x - y| := by
    unfold diff
    by_cases h : x > y
    · rw [if_pos h, a x y hx hy (by omega)]
    · rw [if_neg h, a y x hy hx (by omega), abs_sub_comm]
  refine ⟨k1, k2, fun hs => ?_⟩
  have k3 : |x - y| ≤ top t := by
    unfold InTy top at *
    simp only [hs, Bool.false_eq_true, if_false] at *
    rw [abs_le]
    constructor <;> omega
  rw [k1, k2]
  unfold seen
  rw [if_pos k3]
  exact ⟨rfl, rfl⟩

example : absDiff ⟨16, true⟩ (-20000) 10000 = .ok 30000 ∧ absDiff ⟨32, false⟩ 0 4294967295 = .ok 4294967295 := by decide

/-- **C181**: `between(x, low, high)` is empty exactly if x is not in the range, and otherwise x - low as the type sees it. -/
theorem C181_between (t : Ty) (hw : 0 < t.w) (x low high : Int) (hx : InTy t x) (hl : InTy t low) :
    (¬ (low ≤ x ∧ x ≤ high) → between t x low high = .ok none) ∧
    (low ≤ x ∧ x ≤ high → (x - low ≤ top t → between t x low high = .ok (some (x - low))) ∧
      (¬ x - low ≤ top t → between t x low high = if 32 ≤ t.w then .ub else .ok (some (x - low - 2 ^ t.w)))) := by
  refine ⟨fun h => by unfold between; rw [if_neg h], fun h => ?_⟩
  have k := op_dist t hw x low hx hl h.1
  unfold between
  rw [if_pos (show x ≥ low ∧ x ≤ high from h), k]
  unfold seen
  constructor
  · intro h; rw [if_pos h]
  · intro h
    rw [if_neg h]
    by_cases h32 : 32 ≤ t.w
    · rw [if_pos h32, if_pos h32]
    · rw [if_neg h32, if_neg h32]

example : between ⟨8, false⟩ 200 100 210 = .ok (some 100) := by decide

/-- **C181, violated** for signed types: distances beyond the largest value are negative (`int8_t`) or undefined (`int`). -/
theorem C181_distance_violated : absDiff ⟨8, true⟩ 100 (-100) = .ok (-56) ∧ diff ⟨8, true⟩ 100 (-100) = .ok (-56) ∧ between ⟨8, true⟩ 100 (-100) 100 = .ok (some (-56)) ∧ absDiff ⟨32, true⟩ 2000000000 (-2000000000) = .ub := by decide

/-- **C181**: the threshold is numerator / denominator rounded down, if both are values of the type. -/
theorem C181_threshold (t : Ty) (hw : 0 < t.w) (num den : Nat) (hn : InTy t num) (hd : InTy t den) (h0 : 0 < den) : minChange t num den = .ok ((num / den : Nat) : Int) := by
  unfold minChange
  rw [conv_id hw hn, conv_id hw hd, if_neg (by omega)]
  have e : ((num : Int).tdiv den) = ((num / den : Nat) : Int) := by
    rw [Int.tdiv_eq_ediv_of_nonneg (by omega)]; rfl
  rw [e]
  apply op_id hw
  refine inTy_between (inTy_zero t) hn ?_
  have h1 : ((num / den : Nat) : Int) ≤ num := by exact_mod_cast Nat.div_le_self num den
  have h2 : (0 : Int) ≤ ((num / den : Nat) : Int) := Int.natCast_nonneg _
  generalize ((num / den : Nat) : Int) = c at h1 h2
  omega

example : minChange ⟨8, true⟩ 100 7 = .ok 14 := by decide

/-- **C181, violated**: with `int8_t` the threshold 200 is -56: every value is accepted as a change, also the one stored already. -/
theorem C181_threshold_violated : minChange ⟨8, true⟩ 200 1 = .ok (-56) ∧ store ⟨8, true⟩ (-56) ⟨7, false⟩ 7 = .ok (⟨7, true⟩, true) := by decide

/-- **C181** (partial): `store_changed(x)` accepts x exactly if it is at least the threshold away from the value (a value accepted is stored, one refused changes nothing), if the distance is a value of the type, as it always is in an
unsigned type. Missing: larger distances in signed types. -/
theorem C181_store_partial (t : Ty) (hw : 0 < t.w) (m : Int) (p : Latched) (x : Int) (hp : InTy t p.val) (hx : InTy t x) (hd : t.signed = false ∨ |x - p.val| ≤ top t) :
    store t m p x = .ok (if m ≤ |x - p.val| then (⟨x, true⟩, true) else (p, false)) := by
  obtain ⟨k1, _, k3⟩ := C181_distance t hw x p.val hx hp
  have k : absDiff t x p.val = .ok |x - p.val| := by
    rcases hd with hd | hd
    · exact (k3 hd).1
    · rw [k1]; unfold seen; rw [if_pos hd]
  unfold store
  rw [k]

example : store ⟨8, false⟩ 5 ⟨250, false⟩ 0 = .ok (⟨0, true⟩, true) ∧ store ⟨8, false⟩ 5 ⟨250, false⟩ 254 = .ok (⟨250, false⟩, false) := by decide

theorem stores_spec (t : Ty) (hw : 0 < t.w) (m : Int) (P : Int → Prop) (hP : ∀ a, P a → InTy t a) (hd : ∀ a b, P a → P b → t.signed = false ∨ |a - b| ≤ top t) (l : List Int) :
    ∀ (p : Latched), P p.val → (∀ x ∈ l, P x) →
    ∃ q, stores t m p l = .ok q ∧ P q.val ∧ (∀ h : l ≠ [], q.val = l.getLast h ∨ |l.getLast h - q.val| < m) := by
  induction l with
  | nil => intro p hp _; exact ⟨p, rfl, hp, fun h => absurd rfl h⟩
  | cons x l ih =>
    intro p hp hl
    have hx := hl x (by simp)
    have hs := C181_store_partial t hw m p x (hP _ hp) (hP _ hx) (hd _ _ hx hp)
    have key : ∀ q0 : Latched, P q0.val → (q0.val = x ∨ |x - q0.val| < m) → (∃ b, store t m p x = .ok (q0, b)) →
        ∃ q, stores t m p (x :: l) = .ok q ∧ P q.val ∧ (∀ h : x :: l ≠ [], q.val = (x :: l).getLast h ∨ |(x :: l).getLast h - q.val| < m) := by
      rintro q0 h0 h1 ⟨b, hb⟩
      obtain ⟨q, g1, g2, g3⟩ := ih q0 h0 (fun y hy => hl y (by simp [hy]))
      refine ⟨q, by unfold stores; rw [hb]; exact g1, g2, fun h => ?_⟩
      cases l with
      | nil => cases g1; simpa using h1
      | cons y l => simpa using g3 (by simp)
    by_cases hm : m ≤ |x - p.val|
    · rw [if_pos hm] at hs
      exact key ⟨x, true⟩ hx (.inl rfl) ⟨true, hs⟩
    · rw [if_neg hm] at hs
      exact key p hp (.inr (by omega)) ⟨false, hs⟩

/-- **C181** (partial): over every history of values offered, the latched value is the last one offered or less than the threshold away from it, in every unsigned type, and in a signed one if all values lie between bounds whose distance
is a value of the type. Missing: wider histories in signed types. -/
theorem C181_history_partial (t : Ty) (hw : 0 < t.w) (m lo hi : Int) (p : Latched) (l : List Int) (hne : l ≠ []) (hp : InTy t p.val) (hl : ∀ x ∈ l, InTy t x)
    (hr : t.signed = false ∨ (hi - lo ≤ top t ∧ (lo ≤ p.val ∧ p.val ≤ hi) ∧ ∀ x ∈ l, lo ≤ x ∧ x ≤ hi)) :
    ∃ q, stores t m p l = .ok q ∧ (q.val = l.getLast hne ∨ |l.getLast hne - q.val| < m) := by
  rcases hr with hr | ⟨h0, h1, h2⟩
  · obtain ⟨q, g1, _, g3⟩ := stores_spec t hw m (InTy t) (fun _ h => h) (fun _ _ _ _ => .inl hr) l p hp hl
    exact ⟨q, g1, g3 hne⟩
  · obtain ⟨q, g1, _, g3⟩ := stores_spec t hw m (fun a => InTy t a ∧ lo ≤ a ∧ a ≤ hi) (fun _ h => h.1) (fun a b ha hb => .inr (by rw [abs_le]; constructor <;> omega)) l p ⟨hp, h1⟩ (fun x hx => ⟨hl x hx, h2 x hx⟩)
    exact ⟨q, g1, g3 hne⟩

example : stores ⟨16, true⟩ 10 ⟨0, false⟩ [5, 12, 20, -3] = .ok ⟨-3, true⟩ := by decide

/-- **C181, violated**: a `LatchedParam<int8_t, 5>` at -100 refuses 100. -/
theorem C181_store_violated : store ⟨8, true⟩ 5 ⟨-100, false⟩ 100 = .ok (⟨-100, false⟩, false) := by decide

end DiffInt
