import Verif.Model.XCirc
import Verif.Props.CircAccess
import Verif.Props.CircAccessFloat
/-! # Property C191: CircularBufferAccess::write over any stored value -/
namespace XCirc
open XFlt CircAccess Flt

theorem one_sub_one {rnd : ℚ → ℚ} (hr : Nearest rnd) : sub rnd (.fin 1) (.fin 1) = .fin 0 := by
  show ofQ rnd (1 + -1) = _
  rw [show (1 : ℚ) + -1 = 0 by norm_num, ofQ_exact hr f32_zero (by rw [abs_zero]; exact big_pos)]

/-- The blend at the default phase: the new element if the old one is finite, else NaN. -/
theorem mixX_one {rnd : ℚ → ℚ} (hr : Nearest rnd) {d : XF} (hd : IsFloat d) (old : XF) :
    mixX rnd (.fin 1) d old = match old with | .fin _ => d | _ => .nan := by
  unfold mixX
  rw [one_sub_one hr]
  have hz : ofQ rnd 0 = .fin 0 := ofQ_exact hr f32_zero (by rw [abs_zero]; exact big_pos)
  cases old with
  | nan => rw [nan_mul, add_nan]
  | inf b =>
    simp only [mul, if_true]
    exact add_nan rnd _
  | fin o =>
    simp only [mul, mul_zero, hz]
    cases d with
    | nan => rfl
    | inf b => simp [add, show ¬ (1 : ℚ) < 0 by norm_num]
    | fin x =>
      have hx : ofQ rnd x = .fin x := ofQ_exact hr hd.1 hd.2
      simp only [mul_one, hx, add, add_zero]

/-- **C191** (partial): if every stored element is finite, write() at the default phase stores exactly the new elements (which may be infinite
or NaN), each at its place, and leaves the others alone. Missing: stored elements that are infinite or NaN (see below). -/
theorem C191_replace_partial (rnd : ℚ → ℚ) (hr : Nearest rnd) (s : St XF) (data : List XF) (h : s.wr < s.buf.length)
    (hn : data.length ≤ s.buf.length) (hb : ∀ x ∈ s.buf, Fin x) (hd : ∀ x ∈ data, IsFloat x) :
    ∃ s' wrapped, CircAccess.write (mixX rnd (.fin 1)) s data false = .ok (s', wrapped) ∧ s'.buf.length = s.buf.length ∧
      (∀ i, i < data.length → s'.buf[(s.wr + i) % s.buf.length]? = data[i]?) ∧
      ∀ p, (∀ i : Nat, i < data.length → (s.wr + i) % s.buf.length ≠ p) → s'.buf[p]? = s.buf[p]? := by
  obtain ⟨s', w, h1, h2, h3, h4⟩ := C134_write_blend (mixX rnd (.fin 1)) s data h hn
  refine ⟨s', w, h1, h2, ?_, h4⟩
  intro i hi
  have hlt : (s.wr + i) % s.buf.length < s.buf.length := Nat.mod_lt _ (by omega)
  have hf := hb _ (List.getElem_mem hlt)
  rw [h3 i hi, List.getElem?_eq_getElem hi, mixX_one hr (hd _ (List.getElem_mem hi))]
  cases hx : s.buf[(s.wr + i) % s.buf.length] with
  | fin x => rfl
  | nan => rw [hx] at hf; exact hf.elim
  | inf b => rw [hx] at hf; exact hf.elim

example (rnd : ℚ → ℚ) (hr : Nearest rnd) := C191_replace_partial rnd hr ⟨[.fin 1, .fin 2, .fin 3], 0, 2⟩ [.inf true, .nan] (by decide) (by decide)
  (by intro x hx; simp at hx; rcases hx with rfl | rfl | rfl <;> trivial) (by intro x hx; simp at hx; rcases hx with rfl | rfl <;> trivial)

/-- **C191, violated**: an infinite or NaN element cannot be replaced: whatever is written over it at the default phase, NaN is stored. -/
theorem C191_replace_violated (rnd : ℚ → ℚ) (hr : Nearest rnd) (s : St XF) (data : List XF) (h : s.wr < s.buf.length)
    (hn : data.length ≤ s.buf.length) (hd : ∀ x ∈ data, IsFloat x) (i : Nat) (hi : i < data.length)
    (hbad : s.buf[(s.wr + i) % s.buf.length]? = some .nan ∨ ∃ b, s.buf[(s.wr + i) % s.buf.length]? = some (.inf b)) :
    ∃ s' wrapped, CircAccess.write (mixX rnd (.fin 1)) s data false = .ok (s', wrapped) ∧
      s'.buf[(s.wr + i) % s.buf.length]? = some .nan := by
  obtain ⟨s', w, h1, h2, h3, h4⟩ := C134_write_blend (mixX rnd (.fin 1)) s data h hn
  refine ⟨s', w, h1, ?_⟩
  have hlt : (s.wr + i) % s.buf.length < s.buf.length := Nat.mod_lt _ (by omega)
  rw [List.getElem?_eq_getElem hlt] at hbad
  rw [h3 i hi, mixX_one hr (hd _ (List.getElem_mem hi))]
  rcases hbad with hb | ⟨b, hb⟩
  · rw [Option.some.inj hb]
  · rw [Option.some.inj hb]

example (rnd : ℚ → ℚ) (hr : Nearest rnd) := C191_replace_violated rnd hr ⟨[.fin 1, .inf false], 0, 1⟩ [.fin 7] (by decide) (by decide)
  (by intro x hx; simp at hx; subst hx; exact ⟨by have := f32_int 7 (by norm_num); simpa using this, by norm_num [big]⟩) 0 (by decide) (Or.inr ⟨false, rfl⟩)

theorem mixX_nan (rnd : ℚ → ℚ) (phase d : XF) : mixX rnd phase d .nan = .nan := by
  unfold mixX; rw [nan_mul, add_nan]

theorem stores_nan (rnd : ℚ → ℚ) (phase : XF) (p : Nat) (r : List (Nat × XF)) : ∀ buf : List XF, buf[p]? = some .nan →
    (stores (mixX rnd phase) buf r)[p]? = some .nan := by
  induction r with
  | nil => intro b h; exact h
  | cons a r ih =>
    intro b h
    simp only [stores]
    apply ih
    cases hb : b[a.1]? with
    | none => exact h
    | some old =>
      simp only
      by_cases hp : a.1 = p
      · rw [hp] at hb ⊢
        rw [h] at hb
        obtain rfl := Option.some.inj hb
        rw [List.getElem?_set_self (List.getElem?_eq_some_iff.mp h).1, mixX_nan]
      · rw [List.getElem?_set_ne hp]; exact h

/-- A call keeps a NaN where it is, unless it is clear(). -/
theorem step_nan (bits : Nat) (rnd : ℚ → ℚ) (s : St XF) (o : Op) (ho : o ≠ .clear) (p : Nat) (hs : s.wr < s.buf.length) (hb : s.buf.length < 2 ^ bits)
    (h : s.buf[p]? = some .nan) (hp : ∀ q, o = .setWr q → q < s.buf.length) :
    ∃ s', step bits rnd s o = .ok s' ∧ s'.buf.length = s.buf.length ∧ s'.wr < s'.buf.length ∧ s'.buf[p]? = some .nan := by
  cases o with
  | clear => exact absurd rfl ho
  | setWr q => exact ⟨_, rfl, rfl, hp q rfl, h⟩
  | write data phase =>
    refine ⟨_, by rw [step, write_spec (mixX rnd phase) data s false hs]; rfl, stores_length .., ?_, stores_nan rnd phase p _ _ h⟩
    show _ % _ < (stores _ _ _).length
    rw [stores_length]
    exact Nat.mod_lt _ (by omega)
  | writeReverse data phase =>
    refine ⟨_, by rw [step, writeReverse_spec bits (mixX rnd phase) data s false hs hb]; rfl, stores_length .., ?_, stores_nan rnd phase p _ _ h⟩
    show Int.toNat _ < (stores _ _ _).length
    rw [stores_length]
    have h1 := Int.emod_lt_of_pos ((s.wr : Int) - data.length) (show (0 : Int) < s.buf.length by omega)
    have h2 := Int.emod_nonneg ((s.wr : Int) - data.length) (show (s.buf.length : Int) ≠ 0 by omega)
    omega

/-- **C191, violated** for good: once an element is NaN it stays NaN through every sequence of writes, forward or backward, at any phases and
positions; only clear() removes it. -/
theorem C191_forever_violated (bits : Nat) (rnd : ℚ → ℚ) (ops : List Op) : ∀ (s : St XF) (p : Nat), s.wr < s.buf.length → s.buf.length < 2 ^ bits →
    s.buf[p]? = some .nan → (∀ o ∈ ops, o ≠ .clear ∧ ∀ q, o = .setWr q → q < s.buf.length) →
    ∃ s', run bits rnd s ops = .ok s' ∧ s'.buf[p]? = some .nan := by
  induction ops with
  | nil => intro s p _ _ h _; exact ⟨s, rfl, h⟩
  | cons o l ih =>
    intro s p hs hb h hops
    obtain ⟨s', h1, h2, h3, h4⟩ := step_nan bits rnd s o (hops o (by simp)).1 p hs hb h (hops o (by simp)).2
    obtain ⟨s'', g1, g2⟩ := ih s' p h3 (by omega) h4 (fun o' ho' => by rw [h2]; exact hops o' (by simp [ho']))
    exact ⟨s'', by rw [run, h1, R.bind_ok, g1], g2⟩

example (rnd : ℚ → ℚ) := C191_forever_violated 32 rnd [.setWr 0, .write [.fin 3, .fin 4] (.fin 1), .writeReverse [.fin 5] (.fin (1 / 2))]
  ⟨[.nan, .fin 1], 0, 1⟩ 0 (by decide) (by decide) rfl (by intro o ho; simp at ho; rcases ho with rfl | rfl | rfl <;> simp)

/-- **C191**: after clear() every element is zero, and the next write stores what it is given. -/
theorem C191_clear (rnd : ℚ → ℚ) (s : St XF) : ∃ s', step bits rnd s .clear = .ok s' ∧ s'.buf = List.replicate s.buf.length (.fin 0) ∧ s'.wr = s.wr :=
  ⟨_, rfl, by simp [CircAccess.clear, List.map_const'], rfl⟩

/-- **C191**: blends of finite elements of magnitude at most 2^126 at a phase between 0 and 1 are finite, and are those of C172. -/
theorem C191_blend_finite (rnd : ℚ → ℚ) (hr : Nearest rnd) (p d old : ℚ) (h0 : 0 ≤ p) (h1 : p ≤ 1) (hd : |d| ≤ 2 ^ 126) (ho : |old| ≤ 2 ^ 126) :
    mixX rnd (.fin p) (.fin d) (.fin old) = .fin (mixF rnd p d old) := by
  have f126 : F32 ((2 : ℚ) ^ 126) := f32_pow2 126
  have hmax : (2 : ℚ) ^ 127 ≤ maxF := by norm_num [maxF]
  have habs : ∀ x : ℚ, |x| ≤ 2 ^ 126 → |rnd x| ≤ 2 ^ 126 := by
    intro x hx
    obtain ⟨a, b⟩ := abs_le.mp hx
    exact abs_le.mpr ⟨hr.ge (f32_neg f126) a, hr.le f126 b⟩
  have hq : sub rnd (.fin 1) (.fin p) = .fin (rnd (1 - p)) := by
    show ofQ rnd (1 + -p) = _
    rw [← sub_eq_add_neg]
    exact ofQ_le hr (by rw [abs_of_nonneg (by linarith)]; have : (1 : ℚ) ≤ maxF := by norm_num [maxF]
                        linarith)
  obtain ⟨q, hqe⟩ : ∃ q, q = rnd (1 - p) := ⟨_, rfl⟩
  have hq0 : 0 ≤ q := by rw [hqe]; exact hr.ge f32_zero (by linarith)
  have hq1 : q ≤ 1 := by rw [hqe]; exact hr.le f32_one (by linarith)
  have hdp : |d * p| ≤ 2 ^ 126 := by
    rw [abs_mul, abs_of_nonneg h0]
    calc |d| * p ≤ |d| * 1 := mul_le_mul_of_nonneg_left h1 (abs_nonneg _)
      _ ≤ 2 ^ 126 := by linarith
  have hoq : |old * q| ≤ 2 ^ 126 := by
    rw [abs_mul, abs_of_nonneg hq0]
    calc |old| * q ≤ |old| * 1 := mul_le_mul_of_nonneg_left hq1 (abs_nonneg _)
      _ ≤ 2 ^ 126 := by linarith
  unfold mixX mixF
  rw [hq, ← hqe]
  simp only [mul]
  have small : (2 : ℚ) ^ 126 ≤ maxF := by norm_num [maxF]
  rw [ofQ_le hr (le_trans hdp small), ofQ_le hr (le_trans hoq small)]
  simp only [add]
  apply ofQ_le hr
  refine le_trans (abs_add_le _ _) ?_
  have := habs _ hdp
  have := habs _ hoq
  have e : (2 : ℚ) ^ 127 = 2 ^ 126 + 2 ^ 126 := by norm_num
  linarith

example (rnd : ℚ → ℚ) (hr : Nearest rnd) := C191_blend_finite rnd hr (1 / 3) 1000 (-7) (by norm_num) (by norm_num) (by norm_num) (by norm_num)

/-- **C191, violated** for 32-bit integer elements: writing a value above 2^31 - 64 at the default phase is undefined behaviour, because the float
nearest to it is 2^31, which does not convert back; smaller values up to 2^24 are stored exactly. -/
theorem C191_int32_violated (rnd : ℚ → ℚ) (hr : Nearest rnd) (d old : Int) (ho : |old| ≤ 2 ^ 31) :
    (2 ^ 31 - 64 < d → d < 2 ^ 31 → mixIntX rnd 32 (.fin 1) d old = .ub) ∧
    (|d| < 2 ^ 24 → mixIntX rnd 32 (.fin 1) d old = .ok d) := by
  have ho' : |(old : ℚ)| ≤ 2 ^ 31 := by exact_mod_cast ho
  have hofin : ofQ rnd old = .fin (rnd old) := ofQ_le hr (le_trans ho' (by norm_num [maxF]))
  have hmix : ∀ x : ℚ, IsFloat (.fin x) → mixX rnd (.fin 1) (.fin x) (.fin (rnd old)) = .fin x := by
    intro x hx; rw [mixX_one hr hx]
  constructor
  · intro h1 h2
    have h1' : (2 : ℚ) ^ 31 - 64 < d := by exact_mod_cast h1
    have h2' : (d : ℚ) < 2 ^ 31 := by exact_mod_cast h2
    have hn := hr.nearest d (2 ^ 31) (f32_pow2 31)
    rw [abs_of_pos (show (0 : ℚ) < 2 ^ 31 - d by linarith)] at hn
    obtain ⟨n1, n2⟩ := abs_le.mp hn
    have hge : (2 : ℚ) ^ 30 ≤ rnd d := by
      have e : (2 : ℚ) ^ 31 = 2 ^ 30 + 2 ^ 30 := by norm_num
      have : (128 : ℚ) ≤ 2 ^ 30 := by norm_num
      linarith
    obtain ⟨n, hnm⟩ := f32_multiple (hr.f32 d) 7 (by
      rw [abs_of_nonneg (by linarith [show (0 : ℚ) ≤ 2 ^ 30 by norm_num])]
      exact le_trans (by norm_num) hge)
    have hr31 : rnd d = 2 ^ 31 := by
      have e : (2 : ℚ) ^ (7 : ℤ) = 128 := by norm_num
      rw [e] at hnm
      have a : (16777215 : ℚ) < n := by
        have : (2 : ℚ) ^ 31 = 128 * 16777216 := by norm_num
        linarith
      have b : (n : ℚ) < 16777217 := by
        have : (2 : ℚ) ^ 31 = 128 * 16777216 := by norm_num
        linarith
      have a' : (16777215 : Int) < n := by exact_mod_cast a
      have b' : n < (16777217 : Int) := by exact_mod_cast b
      have : n = 16777216 := by omega
      rw [hnm, this]; norm_num
    have hd : ofQ rnd d = .fin (2 ^ 31) := by
      rw [ofQ_le hr (by rw [abs_of_nonneg (by linarith [show (0 : ℚ) ≤ 2 ^ 31 - 64 by norm_num])]; have : (2 : ℚ) ^ 31 ≤ maxF := by norm_num [maxF]
                        linarith), hr31]
    unfold mixIntX
    rw [hd, hofin, hmix _ ⟨f32_pow2 31, by norm_num [big]⟩, toSigned, if_neg (by norm_num)]
  · intro h
    have hf := f32_int d h
    have h' : |(d : ℚ)| < 2 ^ 24 := by exact_mod_cast h
    have hb : |(d : ℚ)| < big := lt_of_lt_of_le h' (by norm_num [big])
    unfold mixIntX
    obtain ⟨a, b⟩ := abs_lt.mp h'
    rw [ofQ_exact hr hf hb, hofin, hmix _ ⟨hf, hb⟩, toSigned, if_pos (by constructor <;> norm_num at a b ⊢ <;> linarith)]
    congr 1
    unfold XFlt.trunc
    split
    · exact Int.floor_intCast d
    · exact Int.ceil_intCast d

example (rnd : ℚ → ℚ) (hr : Nearest rnd) := (C191_int32_violated rnd hr 2147483600 5 (by norm_num)).1 (by norm_num) (by norm_num)

end XCirc
