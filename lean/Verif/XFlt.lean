import Verif.Basic
import Verif.Flt
/-!
# Binary32 with infinities and NaN

A value is NaN, an infinity or a finite number. Finite results are rounded by `rnd` (a `Flt.Nearest` function gives binary32) as if the
exponent were unbounded, and become infinite from `2^128` on, which is how IEEE 754 defines overflow. NaN carries no payload. Zero carries no
sign: a division by zero takes the zero as positive (that is the sign of `x - x`).
-/
namespace XFlt

/-- A binary32 value. -/
inductive XF where
  | nan
  | inf (neg : Bool)
  | fin (x : ℚ)
  deriving DecidableEq

/-- 2^128: the first magnitude that is not finite. -/
def big : ℚ := 2 ^ 128

/-- A result rounded, with overflow. -/
def ofQ (rnd : ℚ → ℚ) (q : ℚ) : XF :=
  if big ≤ rnd q then .inf false else if rnd q ≤ -big then .inf true else .fin (rnd q)

/-- Addition. -/
def add (rnd : ℚ → ℚ) : XF → XF → XF
  | .nan, _ => .nan
  | _, .nan => .nan
  | .inf a, .inf b => if a = b then .inf a else .nan
  | .inf a, .fin _ => .inf a
  | .fin _, .inf b => .inf b
  | .fin x, .fin y => ofQ rnd (x + y)

/-- Negation (exact). -/
def neg : XF → XF
  | .nan => .nan
  | .inf a => .inf (!a)
  | .fin x => .fin (-x)

/-- Subtraction. -/
def sub (rnd : ℚ → ℚ) (a b : XF) : XF := add rnd a (neg b)

/-- Multiplication. -/
def mul (rnd : ℚ → ℚ) : XF → XF → XF
  | .nan, _ => .nan
  | _, .nan => .nan
  | .inf a, .inf b => .inf (a != b)
  | .inf a, .fin y => if y = 0 then .nan else .inf (a != decide (y < 0))
  | .fin x, .inf b => if x = 0 then .nan else .inf (b != decide (x < 0))
  | .fin x, .fin y => ofQ rnd (x * y)

/-- Division; a zero divisor is positive. -/
def div (rnd : ℚ → ℚ) : XF → XF → XF
  | .nan, _ => .nan
  | _, .nan => .nan
  | .inf _, .inf _ => .nan
  | .inf a, .fin y => .inf (a != decide (y < 0))
  | .fin _, .inf _ => .fin 0
  | .fin x, .fin y => if y = 0 then (if x = 0 then .nan else .inf (decide (x < 0))) else ofQ rnd (x / y)

/-- `<`: false if either side is NaN. -/
def lt : XF → XF → Bool
  | .nan, _ => false
  | _, .nan => false
  | .inf a, .inf b => a && !b
  | .inf a, .fin _ => a
  | .fin _, .inf b => !b
  | .fin x, .fin y => decide (x < y)

/-- `<=`: false if either side is NaN. -/
def le : XF → XF → Bool
  | .nan, _ => false
  | _, .nan => false
  | .inf a, .inf b => a || !b
  | .inf a, .fin _ => a
  | .fin _, .inf b => !b
  | .fin x, .fin y => decide (x ≤ y)

/-- `==`: false if either side is NaN. -/
def eq : XF → XF → Bool
  | .nan, _ => false
  | _, .nan => false
  | a, b => decide (a = b)

/-- Magnitude (`std::abs`). -/
def abs : XF → XF
  | .nan => .nan
  | .inf _ => .inf false
  | .fin x => .fin |x|

/-- Conversion to an unsigned type of `w` bits: truncates; undefined for NaN, infinities and values out of range. -/
def toUnsigned (w : Nat) : XF → R Nat
  | .fin x => if -1 < x ∧ x < 2 ^ w then .ok ⌊x⌋.toNat else .ub
  | _ => .ub

/-- Truncation. -/
def trunc (x : ℚ) : ℤ := if 0 ≤ x then ⌊x⌋ else ⌈x⌉

/-- Conversion to a signed type of `w` bits: truncates; undefined for NaN, infinities and values out of range. -/
def toSigned (w : Nat) : XF → R Int
  | .fin x => if -2 ^ (w - 1) - 1 < x ∧ x < 2 ^ (w - 1) then .ok (trunc x) else .ub
  | _ => .ub

/-- Finite. -/
def Fin : XF → Prop
  | .fin _ => True
  | _ => False

/-- A value of the type `float`. -/
def IsFloat : XF → Prop
  | .fin x => Flt.F32 x ∧ |x| < big
  | _ => True

/-! ### Facts -/

theorem big_pos : 0 < big := by norm_num [big]

theorem f32_big : Flt.F32 big := Flt.f32_pow2 128

theorem ofQ_fin {rnd : ℚ → ℚ} {q : ℚ} (h : |rnd q| < big) : ofQ rnd q = .fin (rnd q) := by
  obtain ⟨h1, h2⟩ := abs_lt.mp h
  rw [ofQ, if_neg (not_le.mpr h2), if_neg (not_le.mpr h1)]

theorem ofQ_isFloat {rnd : ℚ → ℚ} (hr : Flt.Nearest rnd) (q : ℚ) : IsFloat (ofQ rnd q) := by
  unfold ofQ
  split
  · trivial
  · split
    · trivial
    · next h1 h2 => exact ⟨hr.f32 q, abs_lt.mpr ⟨not_le.mp h2, not_le.mp h1⟩⟩

/-- A float result needs no rounding. -/
theorem ofQ_exact {rnd : ℚ → ℚ} (hr : Flt.Nearest rnd) {q : ℚ} (h : Flt.F32 q) (hb : |q| < big) : ofQ rnd q = .fin q := by
  have := hr.fix h
  rw [ofQ_fin (by rwa [this]), this]

/-- The largest float. -/
def maxF : ℚ := (2 ^ 24 - 1) * 2 ^ 104

theorem f32_maxF : Flt.F32 maxF := ⟨2 ^ 24 - 1, 104, by norm_num, by norm_num, by norm_num [maxF]⟩

theorem maxF_lt : maxF < big := by norm_num [maxF, big]

/-- Every finite float is at most the largest. -/
theorem le_maxF {x : ℚ} (h : Flt.F32 x) (hb : |x| < big) : |x| ≤ maxF := by
  by_cases hs : |x| < 2 ^ 127
  · exact le_of_lt (lt_of_lt_of_le hs (by norm_num [maxF]))
  · obtain ⟨n, hn⟩ := Flt.f32_multiple h 104 (by rw [not_lt] at hs; exact le_trans (by norm_num) hs)
    have hpos : (0 : ℚ) < 2 ^ (104 : ℤ) := by positivity
    have habs : |x| = |(n : ℚ)| * 2 ^ (104 : ℤ) := by rw [hn, abs_mul, abs_of_pos hpos]
    have hlt : |(n : ℚ)| < 2 ^ 24 := by
      rw [habs] at hb
      by_contra hc
      rw [not_lt] at hc
      have : (2 : ℚ) ^ 24 * 2 ^ (104 : ℤ) ≤ |(n : ℚ)| * 2 ^ (104 : ℤ) := mul_le_mul_of_nonneg_right hc hpos.le
      have e : (2 : ℚ) ^ 24 * 2 ^ (104 : ℤ) = big := by norm_num [big]
      linarith
    have hint : |n| ≤ 2 ^ 24 - 1 := by
      have : |n| < 2 ^ 24 := by exact_mod_cast hlt
      omega
    have : |(n : ℚ)| ≤ 2 ^ 24 - 1 := by exact_mod_cast hint
    rw [habs]
    calc |(n : ℚ)| * 2 ^ (104 : ℤ) ≤ (2 ^ 24 - 1) * 2 ^ (104 : ℤ) := mul_le_mul_of_nonneg_right this hpos.le
      _ = maxF := by norm_num [maxF]

/-- Results of magnitude at most the largest float stay finite. -/
theorem ofQ_le {rnd : ℚ → ℚ} (hr : Flt.Nearest rnd) {q : ℚ} (h : |q| ≤ maxF) : ofQ rnd q = .fin (rnd q) := by
  apply ofQ_fin
  obtain ⟨h1, h2⟩ := abs_le.mp h
  rw [abs_lt]
  have a := hr.le f32_maxF h2
  have b := hr.ge (Flt.f32_neg f32_maxF) h1
  have := maxF_lt
  constructor <;> linarith

theorem add_isFloat {rnd : ℚ → ℚ} (hr : Flt.Nearest rnd) {a b : XF} (ha : IsFloat a) (hb : IsFloat b) : IsFloat (add rnd a b) := by
  cases a <;> cases b <;> simp only [add] <;> first
    | exact ofQ_isFloat hr _
    | assumption
    | trivial
    | (split <;> trivial)

theorem neg_isFloat {a : XF} (ha : IsFloat a) : IsFloat (neg a) := by
  cases a with
  | nan => trivial
  | inf b => trivial
  | fin x => exact ⟨Flt.f32_neg ha.1, by rw [abs_neg]; exact ha.2⟩

theorem mul_isFloat {rnd : ℚ → ℚ} (hr : Flt.Nearest rnd) (a b : XF) : IsFloat (mul rnd a b) := by
  cases a <;> cases b <;> simp only [mul] <;> first
    | exact ofQ_isFloat hr _
    | trivial
    | (split <;> trivial)

theorem add_nan (rnd : ℚ → ℚ) (a : XF) : add rnd a .nan = .nan := by cases a <;> rfl
theorem nan_add (rnd : ℚ → ℚ) (a : XF) : add rnd .nan a = .nan := by cases a <;> rfl
theorem mul_nan (rnd : ℚ → ℚ) (a : XF) : mul rnd a .nan = .nan := by cases a <;> rfl
theorem nan_mul (rnd : ℚ → ℚ) (a : XF) : mul rnd .nan a = .nan := by cases a <;> rfl
theorem sub_nan (rnd : ℚ → ℚ) (a : XF) : sub rnd a .nan = .nan := add_nan rnd a
theorem nan_sub (rnd : ℚ → ℚ) (a : XF) : sub rnd .nan a = .nan := nan_add rnd _
theorem lt_nan (a : XF) : lt a .nan = false := by cases a <;> rfl
theorem nan_lt (a : XF) : lt .nan a = false := by cases a <;> rfl
theorem le_nan (a : XF) : le a .nan = false := by cases a <;> rfl
theorem nan_le (a : XF) : le .nan a = false := by cases a <;> rfl

/-- Results of magnitude at most a power of two stay so. -/
theorem fin_of_le {rnd : ℚ → ℚ} (hr : Flt.Nearest rnd) (k : Nat) (hk : k ≤ 127) {q : ℚ} (h : |q| ≤ 2 ^ k) : ofQ rnd q = .fin (rnd q) ∧ |rnd q| ≤ 2 ^ k := by
  have f := Flt.f32_pow2 k
  have hk' : (2 : ℚ) ^ k ≤ 2 ^ 127 := pow_le_pow_right₀ (by norm_num) hk
  refine ⟨ofQ_le hr (le_trans h (le_trans hk' (by norm_num [maxF]))), ?_⟩
  obtain ⟨a, b⟩ := abs_le.mp h
  exact abs_le.mpr ⟨hr.ge (Flt.f32_neg f) a, hr.le f b⟩

theorem sub_fin (rnd : ℚ → ℚ) (a b : ℚ) : sub rnd (.fin a) (.fin b) = ofQ rnd (a - b) := by
  show ofQ rnd (a + -b) = _
  rw [← sub_eq_add_neg]

/-! Operations on infinities and NaN are never finite (a quotient may be). -/

theorem mul_special (rnd : ℚ → ℚ) (a b : XF) (h : ¬ Fin a ∨ ¬ Fin b) : ¬ Fin (mul rnd a b) := by
  cases a with
  | nan => rw [nan_mul]; exact fun h => h
  | inf c => cases b with
    | nan => rw [mul_nan]; exact fun h => h
    | inf d => exact fun h => h
    | fin y => simp only [mul]; split <;> exact fun h => h
  | fin x => cases b with
    | nan => rw [mul_nan]; exact fun h => h
    | inf d => simp only [mul]; split <;> exact fun h => h
    | fin y => rcases h with h | h <;> exact absurd trivial h

theorem add_special (rnd : ℚ → ℚ) (a b : XF) (h : ¬ Fin a ∨ ¬ Fin b) : ¬ Fin (add rnd a b) := by
  cases a with
  | nan => rw [nan_add]; exact fun h => h
  | inf c => cases b with
    | nan => rw [add_nan]; exact fun h => h
    | inf d => simp only [add]; split <;> exact fun h => h
    | fin y => exact fun h => h
  | fin x => cases b with
    | nan => rw [add_nan]; exact fun h => h
    | inf d => exact fun h => h
    | fin y => rcases h with h | h <;> exact absurd trivial h

theorem neg_special {a : XF} (h : ¬ Fin a) : ¬ Fin (neg a) := by cases a <;> exact h

theorem sub_special (rnd : ℚ → ℚ) (a b : XF) (h : ¬ Fin a ∨ ¬ Fin b) : ¬ Fin (sub rnd a b) := add_special rnd _ _ (h.imp id neg_special)

/-- A quotient is finite only if the dividend is, and then an infinite divisor makes it 0. -/
theorem div_special (rnd : ℚ → ℚ) (a b : XF) (h : ¬ Fin a) : ¬ Fin (div rnd a b) := by
  cases a with
  | nan => cases b <;> exact fun h => h
  | inf c => cases b <;> exact fun h => h
  | fin x => exact absurd trivial h

theorem div_zero (rnd : ℚ → ℚ) (a : XF) : ¬ Fin (div rnd a (.fin 0)) := by
  cases a with
  | nan => exact fun h => h
  | inf c => exact fun h => h
  | fin x => simp only [div, if_true]; split <;> exact fun h => h

/-- `a` is at most `b` (no NaN). -/
def Le (a b : XF) : Prop := le a b = true

theorem le_refl' {a : XF} (h : a ≠ .nan) : Le a a := by
  cases a with
  | nan => exact absurd rfl h
  | inf b => cases b <;> rfl
  | fin x => simp [Le, le]

theorem le_of_not_lt {a b : XF} (ha : a ≠ .nan) (hb : b ≠ .nan) (h : ¬ lt a b = true) : Le b a := by
  cases a with
  | nan => exact absurd rfl ha
  | inf c => cases b with
    | nan => exact absurd rfl hb
    | inf d => revert h; cases c <;> cases d <;> simp [lt, Le, le]
    | fin y => revert h; cases c <;> simp [lt, Le, le]
  | fin x => cases b with
    | nan => exact absurd rfl hb
    | inf d => revert h; cases d <;> simp [lt, Le, le]
    | fin y => simp only [lt, decide_eq_true_eq] at h; simp only [Le, le, decide_eq_true_eq]; exact not_lt.mp h

theorem le_of_lt' {a b : XF} (h : lt a b = true) : Le a b := by
  cases a with
  | nan => simp [lt] at h
  | inf c => cases b with
    | nan => simp [lt] at h
    | inf d => revert h; cases c <;> cases d <;> simp [lt, Le, le]
    | fin y => revert h; cases c <;> simp [lt, Le, le]
  | fin x => cases b with
    | nan => simp [lt] at h
    | inf d => revert h; cases d <;> simp [lt, Le, le]
    | fin y => simp only [lt, decide_eq_true_eq] at h; simp only [Le, le, decide_eq_true_eq]; exact h.le

theorem le_trans' {a b c : XF} (h1 : Le a b) (h2 : Le b c) : Le a c := by
  revert h1 h2
  cases a with
  | nan => simp [Le, le]
  | inf p => cases b with
    | nan => simp [Le, le]
    | inf q => cases c with
      | nan => simp [Le, le]
      | inf r => cases p <;> cases q <;> cases r <;> simp [Le, le]
      | fin z => cases p <;> cases q <;> simp [Le, le]
    | fin y => cases c with
      | nan => simp [Le, le]
      | inf r => cases p <;> cases r <;> simp [Le, le]
      | fin z => cases p <;> simp [Le, le]
  | fin x => cases b with
    | nan => simp [Le, le]
    | inf q => cases c with
      | nan => simp [Le, le]
      | inf r => cases q <;> cases r <;> simp [Le, le]
      | fin z => cases q <;> simp [Le, le]
    | fin y => cases c with
      | nan => simp [Le, le]
      | inf r => cases r <;> simp [Le, le]
      | fin z => simp only [Le, le, decide_eq_true_eq]; exact le_trans

theorem not_lt_of_le {a b : XF} (h : Le a b) : ¬ lt b a = true := by
  revert h
  cases a with
  | nan => simp [Le, le]
  | inf c => cases b with
    | nan => simp [lt]
    | inf d => cases c <;> cases d <;> simp [lt, Le, le]
    | fin y => cases c <;> simp [lt, Le, le]
  | fin x => cases b with
    | nan => simp [lt]
    | inf d => cases d <;> simp [lt, Le, le]
    | fin y => simp [lt, Le, le]

theorem not_le_of_lt {a b : XF} (h : lt a b = true) : ¬ Le b a := fun h' => not_lt_of_le h' h

end XFlt
