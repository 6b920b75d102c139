import Verif.Model.PollTypes
import Verif.Props.Poll
import Verif.Lemmas.FltErr
/-! # Property C189: PollEvent with narrow signed and float clocks -/
namespace PollTypes
open ParamsInt

/-- A time of a signed clock as the number of ticks from the smallest value. -/
def ofMin (w : Nat) (x : Int) : Nat := (x + 2 ^ (w - 1)).toNat

theorem two_pow (w : Nat) (hw : 0 < w) : (2 : Int) ^ w = 2 * 2 ^ (w - 1) := by
  obtain ⟨k, hk⟩ : ∃ k, w = k + 1 := ⟨w - 1, by omega⟩
  rw [hk, Nat.add_sub_cancel, Int.pow_succ, Int.mul_comm]

/-- A narrow signed clock behaves as the unsigned clock that counts from its smallest value. -/
theorem pollNarrow_eq (w : Nat) (period last now : Int) (hw : 0 < w) (hl : InTy ⟨w, true⟩ last) (hn : InTy ⟨w, true⟩ now) (hp0 : 0 ≤ period) :
    (pollNarrow w period last now).1 = (PollEvent.poll (2 ^ w) period.toNat (ofMin w last) (ofMin w now)).1 ∧
    ofMin w (pollNarrow w period last now).2 = (PollEvent.poll (2 ^ w) period.toNat (ofMin w last) (ofMin w now)).2 ∧
    ((pollNarrow w period last now).2 = last ∨ (pollNarrow w period last now).2 = now) := by
  simp only [InTy, if_true] at hl hn
  have hpos : (0 : Int) < 2 ^ w := by positivity
  have hcast : ((2 ^ w : Nat) : Int) = 2 ^ w := by push_cast; rfl
  have hc : conv ⟨w, true⟩ (last + period) = (((ofMin w last + period.toNat) % 2 ^ w : Nat) : Int) - 2 ^ (w - 1) := by
    simp only [conv, if_true]
    push_cast
    rw [show ((ofMin w last : Nat) : Int) = last + 2 ^ (w - 1) by unfold ofMin; omega, show ((period.toNat : Nat) : Int) = period by omega]
    congr 2; ring
  have e : (if now < last then (if now ≥ conv ⟨w, true⟩ (last + period) then true else false) else if now - last ≥ period then true else false) =
      (if ofMin w now < ofMin w last then (if ofMin w now ≥ (ofMin w last + period.toNat) % 2 ^ w then true else false)
        else if ofMin w now - ofMin w last ≥ period.toNat then true else false) := by
    rw [hc]
    generalize (ofMin w last + period.toNat) % 2 ^ w = d
    have hA : ((ofMin w now : Nat) : Int) = now + 2 ^ (w - 1) := by unfold ofMin; omega
    have hB : ((ofMin w last : Nat) : Int) = last + 2 ^ (w - 1) := by unfold ofMin; omega
    generalize ofMin w now = A at *
    generalize ofMin w last = B at *
    by_cases h : now < last
    · simp only [if_pos h, if_pos (show A < B by omega)]
      exact if_congr (by omega) rfl rfl
    · simp only [if_neg h, if_neg (show ¬ A < B by omega)]
      exact if_congr (by omega) rfl rfl
  unfold pollNarrow PollEvent.poll
  simp only [e]
  generalize (if ofMin w now < ofMin w last then (if ofMin w now ≥ (ofMin w last + period.toNat) % 2 ^ w then true else false)
        else if ofMin w now - ofMin w last ≥ period.toNat then true else false) = b
  cases b
  · exact ⟨rfl, rfl, Or.inl rfl⟩
  · exact ⟨rfl, rfl, Or.inr rfl⟩

/-- **C189** (partial): with a signed clock of fewer bits than `int`, which wraps, the action runs exactly if the period has elapsed (modulo 2^w), except when the clock has wrapped since the last run although the due time lay before the wrap. -/
theorem C189_narrow_partial (w : Nat) (period last now : Int) (hw : 0 < w) (hl : InTy ⟨w, true⟩ last) (hn : InTy ⟨w, true⟩ now) (hp0 : 0 ≤ period) (hp : InTy ⟨w, true⟩ period) :
    (pollNarrow w period last now).1 = true ↔ (now - last) % 2 ^ w ≥ period ∧ ¬ (now < last ∧ last + period < 2 ^ (w - 1)) := by
  rw [(pollNarrow_eq w period last now hw hl hn hp0).1]
  simp only [InTy, if_true] at hl hn hp
  have e := two_pow w hw
  have hcast : ((2 ^ w : Nat) : Int) = 2 ^ w := by push_cast; rfl
  rw [(PollEvent.C70_poll_partial (2 ^ w) period.toNat (ofMin w last) (ofMin w now) (by unfold ofMin; omega) (by unfold ofMin; omega) (by omega)).1]
  have he : ((PollEvent.Spec.elapsed (2 ^ w) (ofMin w last) (ofMin w now) : Nat) : Int) = (now - last) % 2 ^ w := by
    unfold PollEvent.Spec.elapsed
    rw [Int.natCast_emod, hcast]
    have : ((ofMin w now + 2 ^ w - ofMin w last : Nat) : Int) = (now - last) + 2 ^ w := by
      unfold ofMin; omega
    rw [this, Int.add_emod_right]
  generalize (now - last) % 2 ^ w = z at *
  unfold ofMin
  constructor
  · rintro ⟨h1, h2⟩; exact ⟨by unfold ofMin at he; omega, by omega⟩
  · rintro ⟨h1, h2⟩; exact ⟨by unfold ofMin at he; omega, by omega⟩

example := C189_narrow_partial 16 10 32760 (-32760) (by decide) (by decide) (by decide) (by decide) (by decide)

theorem pollsNarrow_eq (w : Nat) (period : Int) (hw : 0 < w) (hp0 : 0 ≤ period) : ∀ (l : List Int) (last : Int), InTy ⟨w, true⟩ last → (∀ x ∈ l, InTy ⟨w, true⟩ x) →
    pollsNarrow w period last l = PollEvent.polls (2 ^ w) period.toNat (ofMin w last) (l.map (ofMin w)) := by
  intro l
  induction l with
  | nil => intro last _ _; rfl
  | cons now l ih =>
    intro last h1 h2
    obtain ⟨e1, e2, e3⟩ := pollNarrow_eq w period last now hw h1 (h2 now (List.mem_cons_self)) hp0
    rw [pollsNarrow, List.map_cons, PollEvent.polls, ih _ ?_ (fun x hx => h2 x (List.mem_cons_of_mem _ hx)), e1, e2]
    rcases e3 with h | h
    · rw [h]; exact h1
    · rw [h]; exact h2 now (List.mem_cons_self)

/-- **C189** (partial): polled at every tick of the wrapping signed clock from time 1 on, for ever, the action runs exactly at the multiples of the period. -/
theorem C189_every_tick_partial (w : Nat) (period : Int) (hw : 0 < w) (hp0 : 0 < period) (hp : InTy ⟨w, true⟩ period) (n k : Nat) (hk : k < n) :
    (pollsNarrow w period 0 ((List.range n).map fun i : Nat => conv ⟨w, true⟩ ((i : Int) + 1)))[k]? = some (decide (((k : Int) + 1) % period = 0)) := by
  have e := two_pow w hw
  have hpos : (0 : Int) < 2 ^ (w - 1) := by positivity
  have hcast : ((2 ^ w : Nat) : Int) = 2 ^ w := by push_cast; rfl
  have hcast2 : ((2 ^ (w - 1) : Nat) : Int) = 2 ^ (w - 1) := by push_cast; rfl
  simp only [InTy, if_true] at hp
  have hconv : ∀ x : Int, InTy ⟨w, true⟩ (conv ⟨w, true⟩ x) := by
    intro x
    have h0 : (0 : Int) < 2 ^ w := by positivity
    simp only [conv, InTy, if_true]
    have := Int.emod_nonneg (x + 2 ^ (w - 1)) (Int.ne_of_gt h0)
    have := Int.emod_lt_of_pos (x + 2 ^ (w - 1)) h0
    constructor <;> omega
  rw [pollsNarrow_eq w period hw (by omega) _ 0 (by simp [InTy, hpos]) (by
    intro x hx
    obtain ⟨i, _, rfl⟩ := List.mem_map.mp hx
    exact hconv _), List.map_map]
  have ht : (List.range n).map (ofMin w ∘ fun i : Nat => conv ⟨w, true⟩ ((i : Int) + 1)) = PollEvent.ticks (2 ^ w) (2 ^ (w - 1) + 1) n := by
    unfold PollEvent.ticks
    apply List.map_congr_left
    intro i _
    simp only [Function.comp, ofMin, conv, if_true]
    rw [show ((i : Int) + 1 + 2 ^ (w - 1)) % 2 ^ w - 2 ^ (w - 1) + 2 ^ (w - 1) = ((i : Int) + 1 + 2 ^ (w - 1)) % 2 ^ w by omega]
    apply Int.ofNat_inj.mp
    rw [Int.toNat_of_nonneg (Int.emod_nonneg _ (by positivity))]
    push_cast
    congr 1; ring
  have h1 : ofMin w 0 = 2 ^ (w - 1) % 2 ^ w := by
    rw [Nat.mod_eq_of_lt (by omega)]; unfold ofMin; omega
  rw [ht, h1, PollEvent.polls_ticks (2 ^ w) period.toNat (by omega) (by omega) n (2 ^ (w - 1) + 1) (2 ^ (w - 1)) (by omega) (by omega) k hk]
  congr 1
  apply decide_eq_decide.mpr
  rw [show 2 ^ (w - 1) + 1 + k - 2 ^ (w - 1) = k + 1 by omega]
  obtain ⟨p, rfl⟩ : ∃ p : Nat, period = p := ⟨period.toNat, by omega⟩
  rw [Int.toNat_natCast]
  constructor
  · intro h; exact_mod_cast congrArg (fun x : Nat => (x : Int)) h
  · intro h; exact_mod_cast h

example := C189_every_tick_partial 3 3 (by decide) (by decide) (by decide) 12 5 (by decide)

/-- **C189** (violated): `int8_t` clock, last run at 72, period 50 (due at 122), polled every 8 ticks: not at 120, and not at -128, 56 ticks after the last run. -/
theorem C189_narrow_violated : (pollNarrow 8 50 72 120).1 = false ∧ (pollNarrow 8 50 72 (-128)).1 = false ∧ ((-128 : Int) - 72) % 2 ^ 8 = 56 := by decide +kernel

/-- **C189**: with a float clock that does not go back, the action runs if the period has elapsed, and does not run if less than the period less its 2^24th part has. -/
theorem C189_float {rnd : ℚ → ℚ} (h : Flt.Nearest rnd) (period last now : ℚ) (hp : Flt.F32 period) (hl : Flt.F32 last) (hn : Flt.F32 now) (hle : last ≤ now) :
    (period ≤ now - last → pollFloat rnd period last now = (true, now)) ∧ (now - last + (now - last) / 2 ^ 24 < period → pollFloat rnd period last now = (false, last)) := by
  constructor
  · intro h1
    have : period ≤ rnd (now - last) := h.ge hp h1
    unfold pollFloat
    simp only [if_neg (not_lt.mpr hle), ge_iff_le, if_pos this, if_true]
  · intro h1
    have h2 := (abs_le.mp (h.sub_rel hn hl)).2
    rw [abs_of_nonneg (by linarith)] at h2
    have : ¬ period ≤ rnd (now - last) := by linarith
    unfold pollFloat
    simp only [if_neg (not_lt.mpr hle), ge_iff_le, if_neg this]
    rfl

/-- **C189**: if the float clock goes back, the action does not run before the clock has passed the last run again. -/
theorem C189_float_back {rnd : ℚ → ℚ} (h : Flt.Nearest rnd) (period last now : ℚ) (hp0 : 0 ≤ period) (hl : Flt.F32 last) (hlt : now < last) :
    pollFloat rnd period last now = (false, last) := by
  have h1 : last ≤ rnd (last + period) := h.ge hl (by linarith)
  have : ¬ rnd (last + period) ≤ now := by linarith
  unfold pollFloat
  simp only [if_pos hlt, ge_iff_le, if_neg this]
  rfl

/-- **C189**: at whatever float times it is polled, two runs that follow each other (the first counted from the start of the object, at 0) are at least the period less its 2^24th part apart. -/
theorem C189_float_runs {rnd : ℚ → ℚ} (h : Flt.Nearest rnd) (period : ℚ) (hp : Flt.F32 period) (hp0 : 0 ≤ period) (times : List ℚ) (ht : ∀ t ∈ times, Flt.F32 t) :
    List.IsChain (fun a b => period ≤ (b - a) + (b - a) / 2 ^ 24) (0 :: runsFloat rnd period 0 times) := by
  have key : ∀ (times : List ℚ) (last : ℚ), Flt.F32 last → (∀ t ∈ times, Flt.F32 t) → List.IsChain (fun a b => period ≤ (b - a) + (b - a) / 2 ^ 24) (last :: runsFloat rnd period last times) := by
    intro times
    induction times with
    | nil => intro last _ _; simp [runsFloat]
    | cons now l ih =>
      intro last hl ht
      have hn := ht now (List.mem_cons_self)
      have hrest := fun t (h : t ∈ l) => ht t (List.mem_cons_of_mem _ h)
      have hcases : pollFloat rnd period last now = (true, now) ∨ pollFloat rnd period last now = (false, last) := by
        unfold pollFloat; simp only
        generalize (if now < last then (if now ≥ rnd (last + period) then true else false) else if rnd (now - last) ≥ period then true else false) = e
        cases e <;> simp
      rcases hcases with hc | hc
      · rw [runsFloat, hc]
        simp only [if_true]
        refine List.isChain_cons_cons.mpr ⟨?_, ih now hn hrest⟩
        by_contra hcon
        rcases lt_or_ge now last with hlt | hge
        · rw [C189_float_back h period last now hp0 hl hlt] at hc; cases hc
        · rw [(C189_float h period last now hp hl hn hge).2 (not_le.mp hcon)] at hc; cases hc
      · rw [runsFloat, hc]
        exact ih last hl hrest
  exact key times 0 Flt.f32_zero ht

/-- **C189** (violated by rounding): the float clock can run early: with period 2^24 + 2, the last run at 1/4 and polled at 2^24 + 2, a quarter before it is due, the elapsed time rounds to the period and the action runs. -/
theorem C189_early_violated {rnd : ℚ → ℚ} (h : Flt.Nearest rnd) : Flt.F32 (2 ^ 24 + 2) ∧ Flt.F32 (1 / 4) ∧ (2 ^ 24 + 2 : ℚ) - 1 / 4 < 2 ^ 24 + 2 ∧
    pollFloat rnd (2 ^ 24 + 2) (1 / 4) (2 ^ 24 + 2) = (true, 2 ^ 24 + 2) := by
  have r : rnd ((2 ^ 24 + 2) - 1 / 4) = 2 ^ 24 + 2 := by
    have := h.eq_of_close ((2 ^ 24 + 2) - 1 / 4) (2 ^ 23 + 1) 1 (by norm_num) (by norm_num) (by norm_num) (by norm_num)
    rw [this]; norm_num
  have f1 : Flt.F32 (2 ^ 24 + 2) := by
    have := Flt.f32_grid (2 ^ 23 + 1) 1 (by norm_num) (by norm_num)
    norm_num at this ⊢; exact this
  have f2 : Flt.F32 (1 / 4) := by
    have := Flt.f32_grid 1 (-2) (by norm_num) (by norm_num)
    norm_num at this ⊢; exact this
  refine ⟨f1, f2, by norm_num, ?_⟩
  unfold pollFloat
  simp only [r]
  norm_num

/-- Cases that meet the hypotheses: an `int16_t` clock just before and after it wraps; a float clock in seconds. -/
example : InTy ⟨16, true⟩ 32760 ∧ InTy ⟨16, true⟩ (-32760) ∧ InTy ⟨16, true⟩ 10 ∧ pollNarrow 16 10 32760 (-32760) = (true, -32760) := by decide +kernel
example : pollsNarrow 3 3 0 ((List.range 12).map fun i : Nat => conv ⟨3, true⟩ ((i : Int) + 1)) = [false, false, true, false, false, true, false, false, true, false, false, true] := by decide +kernel
example : ∃ rnd, Flt.Nearest rnd ∧ pollFloat rnd (1 / 2) (1 / 4) (3 / 4) = (true, 3 / 4) ∧ runsFloat rnd (1 / 2) 0 [1 / 4, 1 / 2, 3 / 4, 1] = [1 / 2, 1] := by
  obtain ⟨rnd, h⟩ := Flt.exists_nearest
  have f1 : rnd (1 / 4) = 1 / 4 := h.fix (by have := Flt.f32_grid 1 (-2) (by norm_num) (by norm_num); norm_num at this ⊢; exact this)
  have f2 : rnd (1 / 2) = 1 / 2 := h.fix (by have := Flt.f32_grid 1 (-1) (by norm_num) (by norm_num); norm_num at this ⊢; exact this)
  norm_num at f1 f2
  refine ⟨rnd, h, ?_, ?_⟩
  · unfold pollFloat; norm_num [f2]
  · unfold runsFloat runsFloat runsFloat runsFloat runsFloat pollFloat; norm_num [f1, f2]

end PollTypes
