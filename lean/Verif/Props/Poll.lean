import Verif.Spec.Poll
/-! # Properties C70 to C73: polling, encoder -/

namespace PollEvent
open Spec

/-- **C70** (partial): for an unsigned clock, the action runs exactly if the period has elapsed, except when the clock has wrapped since the
last run although the due time (last run + period) lay before the wrap: then it does not run. -/
theorem C70_poll_partial (W period last now : Nat) (hl : last < W) (hn : now < W) (hp : period < W) :
    ((poll W period last now).1 = true ↔ elapsed W last now ≥ period ∧ ¬ (now < last ∧ last + period < W)) ∧
    ((poll W period last now).2 = if (poll W period last now).1 then now else last) := by
  have key : (if now < last then (if now ≥ (last + period) % W then true else false) else if now - last ≥ period then true else false) = true ↔
      elapsed W last now ≥ period ∧ ¬ (now < last ∧ last + period < W) := by
    unfold elapsed
    by_cases h1 : now < last
    · rw [if_pos h1, Nat.mod_eq_of_lt (show now + W - last < W by omega)]
      by_cases h2 : last + period < W
      · rw [Nat.mod_eq_of_lt h2]
        simp; omega
      · rw [show (last + period) % W = last + period - W by
          rw [Nat.mod_eq_sub_mod (by omega), Nat.mod_eq_of_lt (by omega)]]
        simp; omega
    · rw [if_neg h1, show now + W - last = (now - last) + W by omega, Nat.add_mod_right, Nat.mod_eq_of_lt (by omega)]
      simp; omega
  refine ⟨?_, ?_⟩
  · rw [← key]
    simp only [poll]
    generalize (if now < last then (if now ≥ (last + period) % W then true else false) else if now - last ≥ period then true else false) = e
    cases e <;> simp
  · by_cases e : (if now < last then (if now ≥ (last + period) % W then true else false) else if now - last ≥ period then true else false) = true
    · have hpoll : poll W period last now = (true, now) := by simp only [poll]; rw [if_pos e]
      rw [hpoll]; rfl
    · have hpoll : poll W period last now = (false, last) := by simp only [poll]; rw [if_neg e]
      rw [hpoll]; rfl

/-- period 10 elapsed across a wrap of an 8-bit clock -/
example : (poll 256 10 250 6).1 = true ∧ elapsed 256 250 6 = 12 ∧ (poll 256 10 250 3).1 = false := by decide

/-- **C70, violated**: 8-bit clock, last run at 200, period 10, polled at 5: 61 ticks have elapsed, and the action does not run. -/
theorem C70_poll_violated : elapsed 256 200 5 = 61 ∧ (poll 256 10 200 5).1 = false := by decide

/-- **C70** (partial), signed clock (`long int`, the default): exact while the clock goes forward without overflow from the last run ... -/
theorem C70_signed_partial (w : Nat) (period last now : Int) (h1 : last ≤ now) (h2 : now - last < 2 ^ (w - 1)) :
    pollSigned w period last now = .ok (if now - last ≥ period then (true, now) else (false, last)) := by
  have hp : (0 : Int) < 2 ^ (w - 1) := by
    have : 0 < 2 ^ (w - 1) := Nat.two_pow_pos (w - 1)
    have h2 : ((2 ^ (w - 1) : Nat) : Int) = (2 : Int) ^ (w - 1) := Int.natCast_pow 2 (w - 1)
    rw [← h2]; exact Int.ofNat_lt.mpr this
  rw [pollSigned, if_neg (by omega), sgn, if_pos ⟨by omega, h2⟩, R.bind_ok]
  split <;> rfl

example : pollSigned 32 100 5000 5100 = .ok (true, 5100) := by decide

/-- ... **violated** once it overflows: the due time overflows (undefined behaviour) or, if it does not, the event is missed. -/
theorem C70_signed_violated : pollSigned 32 100 2147483600 (-2147483648) = .ub ∧ pollSigned 32 10 2147483600 (-2147483648) = .ok (false, 2147483600) := by
  decide

/-- The times of a clock polled at every tick: `n` ticks from `t0`. -/
def ticks (W t0 n : Nat) : List Nat := (List.range n).map (fun k => (t0 + k) % W)

theorem ticks_succ (W t0 n : Nat) : ticks W t0 (n + 1) = t0 % W :: ticks W (t0 + 1) n := by
  rw [ticks, List.range_succ_eq_map, List.map_cons, List.map_map, ticks]
  congr 1
  apply List.map_congr_left
  intro k _
  simp only [Function.comp]; congr 1; omega

theorem polls_ticks (W period : Nat) (hp : 0 < period) (hpW : period < W) : ∀ (n t0 last : Nat), last < t0 → t0 ≤ last + period →
    ∀ k, k < n → (polls W period (last % W) (ticks W t0 n))[k]? = some (decide ((t0 + k - last) % period = 0)) := by
  intro n
  induction n with
  | zero => intro t0 last _ _ k hk; omega
  | succ n ih =>
    intro t0 last h1 h2 k hk
    rw [ticks_succ, polls]
    have hpoll : (poll W period (last % W) (t0 % W)).1 = decide (t0 - last = period) := by
      have hW : 0 < W := by omega
      have c := (C70_poll_partial W period (last % W) (t0 % W) (Nat.mod_lt _ hW) (Nat.mod_lt _ hW) hpW).1
      have hel : elapsed W (last % W) (t0 % W) = t0 - last := by
        unfold elapsed
        have hlt := Nat.mod_lt last hW
        have e1 := Nat.div_add_mod last W
        have e2 := Nat.div_add_mod t0 W
        have e3 := Nat.mod_lt t0 hW
        -- t0 and last are at most period < W apart
        have hq : t0 / W = last / W ∨ t0 / W = last / W + 1 := by
          have g1 : last / W ≤ t0 / W := Nat.div_le_div_right (by omega)
          have g2 : t0 / W ≤ (last + W) / W := Nat.div_le_div_right (by omega)
          rw [Nat.add_div_right _ hW] at g2
          omega
        rcases hq with hq | hq
        · rw [hq] at e2
          rw [show t0 % W + W - last % W = (t0 % W - last % W) + W by omega, Nat.add_mod_right, Nat.mod_eq_of_lt (by omega)]
          omega
        · rw [hq, Nat.mul_add, Nat.mul_one] at e2
          rw [Nat.mod_eq_of_lt (by omega)]
          omega
      rw [hel] at c
      rw [Bool.eq_iff_iff, c, decide_eq_true_iff]
      constructor
      · intro h; omega
      · intro h
        refine ⟨by omega, ?_⟩
        rintro ⟨g1, g2⟩
        -- last % W + period < W, so the clock has not wrapped at t0
        have : t0 % W = last % W + period := by
          have e : t0 = last + period := by omega
          rw [e, Nat.add_mod, Nat.mod_eq_of_lt hpW, Nat.mod_eq_of_lt g2]
        omega
    have hnew := (C70_poll_partial W period (last % W) (t0 % W) (Nat.mod_lt _ (by omega)) (Nat.mod_lt _ (by omega)) hpW).2
    rw [hpoll] at hnew
    cases k with
    | zero =>
      rw [List.getElem?_cons_zero, hpoll]
      congr 1
      apply decide_eq_decide.mpr
      rw [Nat.add_zero]
      constructor
      · intro h; rw [h]; exact Nat.mod_self _
      · intro h
        rcases Nat.lt_or_ge (t0 - last) period with g | g
        · rw [Nat.mod_eq_of_lt g] at h; omega
        · omega
    | succ k =>
      rw [List.getElem?_cons_succ, hnew]
      by_cases hd : t0 - last = period
      · rw [if_pos (by simpa using hd), ih (t0 + 1) t0 (by omega) (by omega) k (by omega)]
        congr 1
        apply decide_eq_decide.mpr
        rw [show t0 + (k + 1) - last = (t0 + 1 + k - t0) + period by omega, Nat.add_mod_right]
      · rw [if_neg (by simpa using hd), ih (t0 + 1) last (by omega) (by omega) k (by omega)]
        congr 1
        apply decide_eq_decide.mpr
        rw [show t0 + 1 + k = t0 + (k + 1) by omega]

/-- **C71** (partial): polled at every tick from time 1 on (the last run counting as time 0), for ever and across any number of overflows
of the clock, the action runs exactly at the multiples of the period. Missing: larger gaps between polls (see below). -/
theorem C71_every_tick_partial (W period : Nat) (hp : 0 < period) (hpW : period < W) (n k : Nat) (hk : k < n) :
    (polls W period 0 (ticks W 1 n))[k]? = some (decide ((k + 1) % period = 0)) := by
  have := polls_ticks W period hp hpW n 1 0 (by omega) (by omega) k hk
  rw [Nat.zero_mod] at this
  rw [this, show 1 + k - 0 = k + 1 by omega]

example : polls 8 3 0 (ticks 8 1 12) = [false, false, true, false, false, true, false, false, true, false, false, true] := by decide

/-- A run of polls in real time: `t` the times, each later than the one before by at most `gap`. -/
def Gaps (gap : Nat) : Nat → List Nat → Prop
  | _, [] => True
  | t0, t :: l => t0 < t ∧ t ≤ t0 + gap ∧ Gaps gap t l

/-- **C71, violated** for larger gaps: 8-bit clock, period 50, polled every 10 ticks, last run at time 200 (the due time 250 is before the
overflow at 256, the first poll after it at 259): nothing runs up to time 499, a stall of six periods. -/
theorem C71_gap_violated : let ts := (List.range 30).map (fun k => 209 + 10 * k)
    Gaps 10 200 ts ∧ polls 256 50 200 (ts.map (· % 256)) = List.replicate 30 false := by
  simp only
  constructor
  · simp [List.range, List.range.loop, Gaps]
  · decide +kernel

theorem polls_none (W period last : Nat) : ∀ l : List Nat, (∀ now ∈ l, (poll W period last now).1 = false) → polls W period last l = List.replicate l.length false := by
  intro l
  induction l with
  | nil => intro _; rfl
  | cons now l ih =>
    intro h
    have h1 := h now (List.mem_cons_self)
    have h2 : (poll W period last now).2 = last := by
      unfold poll at h1 ⊢
      simp only at h1 ⊢
      generalize (if now < last then (if now ≥ (last + period) % W then true else false) else if now - last ≥ period then true else false) = e at h1 ⊢
      cases e
      · rfl
      · cases h1
    rw [polls, h1, h2, ih (fun x hx => h x (List.mem_cons_of_mem _ hx)), List.length_cons, List.replicate_succ]

/-- **C71, violated** for ever: polled every g ticks, where g divides the range of the clock, and the due time lies after the last poll before an overflow: the action never runs again. -/
theorem C71_stuck_violated (g m j period n : Nat) (h1 : g * j + period < g * m) (h2 : g * m < g * j + period + g) :
    polls (g * m) period (g * j) ((List.range n).map fun k => (g * j + g * (k + 1)) % (g * m)) = List.replicate n false := by
  have := polls_none (g * m) period (g * j) ((List.range n).map fun k => (g * j + g * (k + 1)) % (g * m)) (by
    intro now hm
    obtain ⟨k, _, rfl⟩ := List.mem_map.mp hm
    rw [← Nat.mul_add, Nat.mul_mod_mul_left]
    have hlt : (j + (k + 1)) % m < m := Nat.mod_lt _ (by
      rcases Nat.eq_zero_or_pos m with h | h
      · rw [h, Nat.mul_zero] at h1; omega
      · exact h)
    have h3 : g * ((j + (k + 1)) % m + 1) ≤ g * m := Nat.mul_le_mul_left g (by omega)
    rw [Nat.mul_add, Nat.mul_one] at h3
    generalize g * ((j + (k + 1)) % m) = now at *
    unfold poll
    simp only
    by_cases hn : now < g * j
    · rw [if_pos hn, Nat.mod_eq_of_lt h1, if_neg (show ¬ now ≥ g * j + period by omega)]; rfl
    · rw [if_neg hn, if_neg (show ¬ now - g * j ≥ period by omega)]; rfl)
  simpa using this

/-- `last_poll` after some polls. -/
def lastAfter (W period : Nat) : Nat → List Nat → Nat
  | last, [] => last
  | last, now :: l => lastAfter W period (poll W period last now).2 l

theorem polls_append (W period : Nat) : ∀ (l l' : List Nat) (last : Nat), polls W period last (l ++ l') = polls W period last l ++ polls W period (lastAfter W period last l) l' := by
  intro l
  induction l with
  | nil => intro l' last; rfl
  | cons now l ih => intro l' last; rw [List.cons_append, polls, ih, polls, List.cons_append, lastAfter]

theorem elapsed_real (W L t : Nat) (h1 : L ≤ t) (h2 : t < L + W) : elapsed W (L % W) (t % W) = t - L ∧ (t % W < L % W ↔ W ≤ L % W + (t - L)) := by
  have hW : 0 < W := by omega
  have e1 := Nat.div_add_mod L W
  have e2 := Nat.div_add_mod t W
  have l1 := Nat.mod_lt L hW
  have l2 := Nat.mod_lt t hW
  have hq : t / W = L / W ∨ t / W = L / W + 1 := by
    have g1 : L / W ≤ t / W := Nat.div_le_div_right h1
    have g2 : t / W ≤ (L + W) / W := Nat.div_le_div_right (by omega)
    rw [Nat.add_div_right _ hW] at g2
    omega
  unfold elapsed
  rcases hq with hq | hq
  · rw [hq] at e2
    rw [show t % W + W - L % W = (t - L) + W by omega, Nat.add_mod_right, Nat.mod_eq_of_lt (by omega)]
    exact ⟨rfl, by omega⟩
  · rw [hq, Nat.mul_add, Nat.mul_one] at e2
    rw [Nat.mod_eq_of_lt (by omega)]
    exact ⟨by omega, by omega⟩

/-- **C71** (partial): polled with gaps of at most g ticks in real time, period + g within the range of the clock: the action runs at the first poll at or after the due time, so less than g ticks late, if the due time is not one of the last g - 1
values of the clock before an overflow. -/
theorem C71_gaps_partial (W period g L : Nat) (pre post : List Nat) (t : Nat) (hW : period + g ≤ W) (hg : 0 < g) (hgap : Gaps g L (pre ++ t :: post))
    (hpre : ∀ x ∈ pre, x < L + period) (ht : L + period ≤ t) (hp : 0 < period) (hdue : L % W + period ≤ W - g ∨ W ≤ L % W + period) :
    t < L + period + g ∧
    polls W period (L % W) ((pre ++ t :: post).map (· % W)) = List.replicate pre.length false ++ true :: polls W period (t % W) (post.map (· % W)) := by
  have hlate : ∀ (pre : List Nat) (s : Nat), Gaps g s (pre ++ t :: post) → s < L + period → (∀ x ∈ pre, x < L + period) → t < L + period + g := by
    intro pre
    induction pre with
    | nil => intro s h hs _; obtain ⟨_, h2, _⟩ := h; omega
    | cons a pre ih => intro s h _ hx; exact ih a h.2.2 (hx a (List.mem_cons_self)) (fun x hx' => hx x (List.mem_cons_of_mem _ hx'))
  have hge : ∀ (pre : List Nat) (s : Nat), Gaps g s (pre ++ t :: post) → ∀ x ∈ pre, s < x := by
    intro pre
    induction pre with
    | nil => intro s _ x hx; cases hx
    | cons a pre ih =>
      intro s h x hx
      obtain ⟨h1, _, h3⟩ := h
      rcases List.mem_cons.mp hx with rfl | hx
      · exact h1
      · have := ih a h3 x hx; omega
  have hl := hlate pre L hgap (by omega) hpre
  refine ⟨hl, ?_⟩
  have hL := Nat.mod_lt L (show 0 < W by omega)
  rw [List.map_append, polls_append, List.map_cons]
  have hnone := polls_none W period (L % W) (pre.map (· % W)) (by
    intro now hm
    obtain ⟨x, hx, rfl⟩ := List.mem_map.mp hm
    have h1 := hge pre L hgap x hx
    have h2 := hpre x hx
    have c := (C70_poll_partial W period (L % W) (x % W) hL (Nat.mod_lt _ (by omega)) (by omega)).1
    rw [(elapsed_real W L x (by omega) (by omega)).1] at c
    rw [Bool.eq_false_iff]
    intro h
    have := c.mp h
    omega)
  have hlast : ∀ l : List Nat, (∀ now ∈ l, (poll W period (L % W) now).1 = false) → lastAfter W period (L % W) l = L % W := by
    intro l
    induction l with
    | nil => intro _; rfl
    | cons now l ih =>
      intro h
      have h1 := h now (List.mem_cons_self)
      rw [lastAfter, show (poll W period (L % W) now).2 = L % W by
        unfold poll at h1 ⊢
        simp only at h1 ⊢
        generalize (if now < L % W then (if now ≥ (L % W + period) % W then true else false) else if now - L % W ≥ period then true else false) = e at h1 ⊢
        cases e
        · rfl
        · cases h1]
      exact ih (fun x hx => h x (List.mem_cons_of_mem _ hx))
  rw [hnone, hlast _ (by
    intro now hm
    obtain ⟨x, hx, rfl⟩ := List.mem_map.mp hm
    have h1 := hge pre L hgap x hx
    have h2 := hpre x hx
    have c := (C70_poll_partial W period (L % W) (x % W) hL (Nat.mod_lt _ (by omega)) (by omega)).1
    rw [(elapsed_real W L x (by omega) (by omega)).1] at c
    rw [Bool.eq_false_iff]
    intro h
    have := c.mp h
    omega), List.length_map]
  have c := C70_poll_partial W period (L % W) (t % W) hL (Nat.mod_lt _ (by omega)) (by omega)
  obtain ⟨e1, e2⟩ := elapsed_real W L t (by omega) (by omega)
  rw [e1, e2] at c
  have c1 := c.1.mpr ⟨by omega, by omega⟩
  have c2 := c.2
  rw [c1, if_pos rfl] at c2
  rw [polls, c1, c2]

/-- The action may run at each of several due times: last run 200, period 30, polls up to 12 apart, over the overflow of an 8-bit clock. -/
example : Gaps 12 200 ([210, 220] ++ 231 :: [240, 250, 262]) ∧ polls 256 30 200 ([210, 220, 231, 240, 250, 262].map (· % 256)) = [false, false, true, false, false, true] := by
  constructor
  · simp [Gaps]
  · decide

/-- **C71, violated** for ever, from the start: a `PollEvent<uint8_t>` with period 50 that is polled every 8 ticks from time 0 runs for the last time at time 1736 (217 polls), though it is polled for ever. -/
theorem C71_stuck_reachable_violated (n : Nat) :
    (polls 256 50 0 ((List.range 217).map fun k => (8 * (k + 1)) % 256)).getLast? = some true ∧
    polls 256 50 0 ((List.range (217 + n)).map fun k => (8 * (k + 1)) % 256) = polls 256 50 0 ((List.range 217).map fun k => (8 * (k + 1)) % 256) ++ List.replicate n false := by
  constructor
  · decide +kernel
  · rw [List.range_add, List.map_append, polls_append, show lastAfter 256 50 0 ((List.range 217).map fun k => (8 * (k + 1)) % 256) = 8 * 25 by decide +kernel, List.map_map]
    congr 1
    rw [← C71_stuck_violated 8 32 25 50 n (by decide) (by decide)]
    congr 1
    apply List.map_congr_left
    intro k _
    simp only [Function.comp]
    omega

end PollEvent

namespace PollChange

/-- **C72**: poll looks at the state exactly if at least update_ticks have elapsed modulo 2^32 since the last look; then the time of the
last look is now, and a change is noted exactly if the state differs from the one seen at the last look. Both overloads agree. -/
theorem C72_poll (ticks : BitVec 32) (p : PollChange) (now : BitVec 32) (state : Bool) :
    (pollFn ticks p now state).2 = poll ticks p now state ∧
    ((pollFn ticks p now state).1 = true ↔ (now.toNat + 4294967296 - p.last.toNat) % 4294967296 ≥ ticks.toNat) ∧
    ((pollFn ticks p now state).1 = true → poll ticks p now state = ⟨state, p.changed || (p.current != state), now⟩) ∧
    ((pollFn ticks p now state).1 = false → poll ticks p now state = p) := by
  have hge : (now - p.last ≥ ticks) ↔ (now.toNat + 4294967296 - p.last.toNat) % 4294967296 ≥ ticks.toNat := by
    rw [ge_iff_le, BitVec.le_def, BitVec.toNat_sub, ge_iff_le]
    have := p.last.isLt
    rw [show 2 ^ 32 - p.last.toNat + now.toNat = now.toNat + 4294967296 - p.last.toNat by omega]
  obtain ⟨c, ch, last⟩ := p
  simp only [pollFn, poll]
  by_cases h : now - last ≥ ticks
  · rw [if_pos h, if_pos h]
    have h' := hge.mp h
    cases c <;> cases state <;> cases ch <;> simp_all
  · rw [if_neg h, if_neg h]
    simp only [true_and]
    refine ⟨?_, by simp, by simp⟩
    rw [← hge]; simpa using h

example := (C72_poll 10#32 ⟨false, false, 4294967290#32⟩ 5#32 true).2.1.mpr (by decide)

/-- A history: looks (polls that look at a state), polls that do not look, calls of reset and of take_change. -/
inductive Ev where
  | look (state : Bool) | reset | take
  deriving DecidableEq, Repr

/-- The effect of an event. -/
def ev (p : PollChange) : Ev → PollChange
  | .look s => { p with current := s, changed := p.changed || (p.current != s) }
  | .reset => p.reset
  | .take => p.takeChange.2

/-- The states looked at. -/
def looks : List Ev → List Bool
  | [] => []
  | .look s :: l => s :: looks l
  | _ :: l => looks l

theorem looks_append (l m : List Ev) : looks (l ++ m) = looks l ++ looks m := by
  induction l with
  | nil => rfl
  | cons e l ih => cases e <;> simp [looks, ih]

/-- **C72**: after any history that is empty or ends with take_change, then any looks and resets: take_change answers true iff there was a reset, or
a look at a state different from the one looked at before (low before the first look). -/
theorem C72_take_change (pre suf : List Ev) (hpre : pre = [] ∨ pre.getLast? = some .take) (hsuf : ∀ e ∈ suf, e ≠ .take) (p : PollChange)
    (hp : p = (pre ++ suf).foldl ev {}) :
    p.current = (looks (pre ++ suf)).getLast?.getD false ∧
    (p.takeChange.1 = true ↔ .reset ∈ suf ∨ ∃ a s b, suf = a ++ .look s :: b ∧ s ≠ (looks (pre ++ a)).getLast?.getD false) := by
  subst hp
  have hcur : ∀ (l : List Ev) (q : PollChange), (l.foldl ev q).current = (looks l).getLast?.getD q.current := by
    intro l
    induction l with
    | nil => intro q; rfl
    | cons e l ih =>
      intro q
      rw [List.foldl_cons, ih]
      cases e with
      | look s => rw [looks, List.getLast?_cons]; rfl
      | reset => rfl
      | take => simp only [ev, takeChange]; split <;> rfl
  have h0 : (pre.foldl ev {}).changed = false := by
    rcases hpre with rfl | h
    · rfl
    · obtain ⟨l, rfl⟩ := List.getLast?_eq_some_iff.mp h
      simp only [List.foldl_append, List.foldl_cons, List.foldl_nil, ev, takeChange]
      split <;> simp_all
  have htake : ∀ q : PollChange, q.takeChange.1 = q.changed := by
    intro q; unfold takeChange; cases h : q.changed <;> simp
  refine ⟨by rw [hcur], ?_⟩
  rw [htake, List.foldl_append]
  have key : ∀ (l m : List Ev), (∀ e ∈ l, e ≠ .take) → ∀ q : PollChange, q.current = (looks m).getLast?.getD false →
      ((l.foldl ev q).changed = true ↔ q.changed = true ∨ .reset ∈ l ∨ ∃ a s b, l = a ++ .look s :: b ∧ s ≠ (looks (m ++ a)).getLast?.getD false) := by
    intro l
    induction l with
    | nil => intro m _ q _; simp
    | cons e l ih =>
      intro m hl q hq
      rw [List.foldl_cons]
      have hl' : ∀ e ∈ l, e ≠ .take := fun x hx => hl x (by simp [hx])
      cases e with
      | take => exact absurd rfl (hl .take (by simp))
      | reset =>
        rw [ih m hl' (ev q .reset) hq]
        simp [ev, reset]
      | look s =>
        have hq' : (ev q (.look s)).current = (looks (m ++ [.look s])).getLast?.getD false := by simp [ev, looks_append, looks]
        rw [ih (m ++ [.look s]) hl' _ hq']
        simp only [ev, Bool.or_eq_true, bne_iff_ne, ne_eq, List.append_assoc, List.singleton_append, List.mem_cons, reduceCtorEq, false_or]
        rw [hq]
        constructor
        · rintro ((h | h) | h | ⟨a, t, b, rfl, h⟩)
          · exact Or.inl h
          · exact Or.inr (Or.inr ⟨[], s, l, rfl, by rw [List.append_nil]; exact fun g => h g.symm⟩)
          · exact Or.inr (Or.inl h)
          · exact Or.inr (Or.inr ⟨.look s :: a, t, b, rfl, h⟩)
        · rintro (h | h | ⟨a, t, b, h1, h2⟩)
          · exact Or.inl (Or.inl h)
          · exact Or.inr (Or.inl h)
          · cases a with
            | nil =>
              simp only [List.nil_append, List.cons.injEq, Ev.look.injEq] at h1
              obtain ⟨rfl, rfl⟩ := h1
              exact Or.inl (Or.inr (by rw [List.append_nil] at h2; exact fun g => h2 g.symm))
            | cons x a =>
              simp only [List.cons_append, List.cons.injEq] at h1
              obtain ⟨rfl, rfl⟩ := h1
              exact Or.inr (Or.inr ⟨a, t, b, rfl, h2⟩)
  have := key suf pre hsuf (pre.foldl ev {}) (hcur pre {})
  rw [this, h0]; simp

/-- **C72** (partial): after force_next_poll the next poll looks if `now` is at least update_ticks; missing: earlier times. -/
theorem C72_force_partial (ticks : BitVec 32) (p : PollChange) (now : BitVec 32) (state : Bool) (h : ticks ≤ now) :
    (pollFn ticks p.forceNextPoll now state).1 = true := by
  rw [(C72_poll ticks p.forceNextPoll now state).2.1]
  have h1 := BitVec.le_def.mp h
  have h2 := now.isLt
  simp only [forceNextPoll, show BitVec.toNat (0 : BitVec 32) = 0 from rfl, Nat.sub_zero, ge_iff_le]
  omega

/-- **C72, violated**: within update_ticks of time 0 (at start or after an overflow), force_next_poll does not make the next poll look. -/
theorem C72_force_violated (ticks : BitVec 32) (p : PollChange) (now : BitVec 32) (state : Bool) (h : now < ticks) :
    (pollFn ticks p.forceNextPoll now state).1 = false := by
  cases hb : (pollFn ticks p.forceNextPoll now state).1 with
  | false => rfl
  | true =>
    rw [(C72_poll ticks p.forceNextPoll now state).2.1] at hb
    have h1 := BitVec.lt_def.mp h
    have h2 := now.isLt
    simp only [forceNextPoll, show BitVec.toNat (0 : BitVec 32) = 0 from rfl, Nat.sub_zero, ge_iff_le] at hb
    omega

example : (pollFn 100 ⟨false, false, 4294967290⟩ 95 true).1 = true ∧ (pollFn 100 ⟨false, false, 4294967290⟩ 93 true).1 = false ∧
    (poll 100 ⟨false, false, 4294967290⟩ 95 true).takeChange.1 = true ∧ ((5 : BitVec 32) < 100) := by decide

end PollChange

namespace Quad
open Spec

/-- A pin state as two bits. -/
def code (s : Bool × Bool) : Nat := s.1.toNat + 2 * s.2.toNat

theorem code_lt (s : Bool × Bool) : code s < 4 := by
  obtain ⟨a, b⟩ := s; cases a <;> cases b <;> decide

theorem code_inj (s t : Bool × Bool) : code s = code t ↔ s = t := by
  obtain ⟨a, b⟩ := s; obtain ⟨c, d⟩ := t
  cases a <;> cases b <;> cases c <;> cases d <;> decide

theorem cur_eq (a b : Bool) : (BitVec.ofNat 8 a.toNat ||| (BitVec.ofNat 8 b.toNat <<< 1)) = BitVec.ofNat 8 (code (a, b)) := by
  cases a <;> cases b <;> decide

/-- What `prev_state` holds: the last four distinct states. -/
def holds (d : List (Bool × Bool)) : Nat :=
  code (d.getD 0 (false, false)) + 4 * code (d.getD 1 (false, false)) + 16 * code (d.getD 2 (false, false)) + 64 * code (d.getD 3 (false, false))

theorem holds_cons (s : Bool × Bool) (d : List (Bool × Bool)) : holds (s :: d) = code s + 4 * (holds d % 64) := by
  have h0 := code_lt (d.getD 0 (false, false))
  have h1 := code_lt (d.getD 1 (false, false))
  have h2 := code_lt (d.getD 2 (false, false))
  simp only [holds, List.getD_cons_zero, List.getD_cons_succ]
  omega

theorem holds_lt (d : List (Bool × Bool)) : holds d < 256 := by
  have h0 := code_lt (d.getD 0 (false, false))
  have h1 := code_lt (d.getD 1 (false, false))
  have h2 := code_lt (d.getD 2 (false, false))
  have h3 := code_lt (d.getD 3 (false, false))
  simp only [holds]; omega

theorem pattern_iff (invert : Bool) (d : List (Bool × Bool)) :
    (BitVec.ofNat 8 (holds d) = validCw invert ↔ lastFour d = cwPattern invert) ∧
    (BitVec.ofNat 8 (holds d) = validCcw invert ↔ lastFour d = ccwPattern invert) := by
  unfold holds lastFour
  obtain ⟨a0, a1⟩ := d.getD 0 (false, false)
  obtain ⟨b0, b1⟩ := d.getD 1 (false, false)
  obtain ⟨c0, c1⟩ := d.getD 2 (false, false)
  obtain ⟨d0, d1⟩ := d.getD 3 (false, false)
  revert invert a0 a1 b0 b1 c0 c1 d0 d1
  decide +kernel

theorem getMotion_spec (invert : Bool) (d : List (Bool × Bool)) (s : Bool × Bool) :
    getMotion invert (BitVec.ofNat 8 (holds d)) s.1 s.2 =
      if s = d.headD (false, false) then (.none, BitVec.ofNat 8 (holds d))
      else (if lastFour (s :: d) = cwPattern invert then .cw else if lastFour (s :: d) = ccwPattern invert then .ccw else .none,
        BitVec.ofNat 8 (holds (s :: d))) := by
  have hlow : BitVec.ofNat 8 (holds d) &&& 0b11 = BitVec.ofNat 8 (code (d.headD (false, false))) := by
    apply BitVec.eq_of_toNat_eq
    have h0 := code_lt (d.getD 0 (false, false))
    have hh : d.headD (false, false) = d.getD 0 (false, false) := by cases d <;> rfl
    rw [hh]
    simp only [BitVec.toNat_and, BitVec.toNat_ofNat]
    rw [Nat.mod_eq_of_lt (holds_lt d), show BitVec.toNat (3 : BitVec 8) = 2 ^ 2 - 1 from rfl, Nat.and_two_pow_sub_one_eq_mod]
    simp only [holds]; omega
  have hshift : (BitVec.ofNat 8 (holds d) <<< 2) ||| BitVec.ofNat 8 (code s) = BitVec.ofNat 8 (holds (s :: d)) := by
    apply BitVec.eq_of_toNat_eq
    have hs := code_lt s
    rw [holds_cons]
    simp only [BitVec.toNat_or, BitVec.toNat_shiftLeft, BitVec.toNat_ofNat]
    rw [Nat.mod_eq_of_lt (holds_lt d), Nat.mod_eq_of_lt (show code s < 2 ^ 8 by omega)]
    have e : holds d <<< 2 % 2 ^ 8 = (holds d % 64) <<< 2 := by
      rw [Nat.shiftLeft_eq, Nat.shiftLeft_eq]; omega
    rw [e, ← Nat.shiftLeft_add_eq_or_of_lt (by omega), Nat.shiftLeft_eq]
    omega
  unfold getMotion
  simp only [cur_eq]
  rw [hlow, hshift]
  have hne : (BitVec.ofNat 8 (code (d.headD (false, false))) = BitVec.ofNat 8 (code (s.1, s.2))) ↔ s = d.headD (false, false) := by
    constructor
    · intro h
      have := congrArg BitVec.toNat h
      simp only [BitVec.toNat_ofNat] at this
      have h1 := code_lt (d.headD (false, false))
      have h2 := code_lt (s.1, s.2)
      rw [Nat.mod_eq_of_lt (by omega), Nat.mod_eq_of_lt (by omega)] at this
      exact ((code_inj _ _).mp this).symm
    · intro h; rw [← h]
  by_cases h : s = d.headD (false, false)
  · rw [if_pos (hne.mpr h), if_pos h]
  · rw [if_neg (fun g => h (hne.mp g)), if_neg h]
    have p := pattern_iff invert (s :: d)
    by_cases h1 : lastFour (s :: d) = cwPattern invert
    · rw [if_pos (p.1.mpr h1), if_pos h1]
    · rw [if_neg (fun g => h1 (p.1.mp g)), if_neg h1]
      by_cases h2 : lastFour (s :: d) = ccwPattern invert
      · rw [if_pos (p.2.mpr h2), if_pos h2]
      · rw [if_neg (fun g => h2 (p.2.mp g)), if_neg h2]

theorem after_spec (invert : Bool) : ∀ (l : List (Bool × Bool)) (d : List (Bool × Bool)),
    after invert (BitVec.ofNat 8 (holds d)) l = BitVec.ofNat 8 (holds (distinct d l)) := by
  intro l
  induction l with
  | nil => intro d; rfl
  | cons s l ih =>
    intro d
    rw [after, getMotion_spec, distinct]
    split
    · exact ih d
    · exact ih (s :: d)

/-- **C73**: after any pin history, get_motion(s) is None if the pins have not changed since the last call; otherwise CW (CCW) exactly if the
last four distinct consecutive pin states, this one included, are the clockwise (counterclockwise) pattern. -/
theorem C73_motion (invert : Bool) (hist : List (Bool × Bool)) (s : Bool × Bool) (d : List (Bool × Bool)) (hd : d = distinct [] hist) :
    (getMotion invert (after invert 0 hist) s.1 s.2).1 =
      if s = d.headD (false, false) then .none
      else if lastFour (s :: d) = cwPattern invert then .cw
      else if lastFour (s :: d) = ccwPattern invert then .ccw
      else .none := by
  have h0 : (0 : BitVec 8) = BitVec.ofNat 8 (holds []) := rfl
  rw [h0, after_spec, ← hd, getMotion_spec]
  split <;> rfl

example := C73_motion false [(true, false), (true, true), (false, true)] (false, false) _ rfl

/-- Samples of a held pin state, as many as `k + 1`. -/
def held (s : Bool × Bool) (k : Nat) : List (Bool × Bool) := List.replicate (k + 1) s

/-- A clockwise turn from one rest to the next, every state held for any number of samples. -/
def cwTurn (invert : Bool) (ks : Nat × Nat × Nat × Nat) : List (Bool × Bool) :=
  held (true != invert, false != invert) ks.1 ++ held (false != invert, false != invert) ks.2.1 ++ held (false != invert, true != invert) ks.2.2.1 ++
    held (true != invert, true != invert) ks.2.2.2

/-- The same counterclockwise. -/
def ccwTurn (invert : Bool) (ks : Nat × Nat × Nat × Nat) : List (Bool × Bool) :=
  held (false != invert, true != invert) ks.1 ++ held (false != invert, false != invert) ks.2.1 ++ held (true != invert, false != invert) ks.2.2.1 ++
    held (true != invert, true != invert) ks.2.2.2

theorem motions_append (invert : Bool) : ∀ (l m : List (Bool × Bool)) (p : BitVec 8), motions invert p (l ++ m) = motions invert p l ++ motions invert (after invert p l) m := by
  intro l
  induction l with
  | nil => intro m p; rfl
  | cons s l ih => intro m p; simp [motions, after, ih]

theorem after_append (invert : Bool) : ∀ (l m : List (Bool × Bool)) (p : BitVec 8), after invert p (l ++ m) = after invert (after invert p l) m := by
  intro l
  induction l with
  | nil => intro m p; rfl
  | cons s l ih => intro m p; simp [after, ih]

theorem same_state (invert : Bool) (s : Bool × Bool) (d : List (Bool × Bool)) (hd : s = d.headD (false, false)) : ∀ k,
    motions invert (BitVec.ofNat 8 (holds d)) (List.replicate k s) = List.replicate k .none ∧
    after invert (BitVec.ofNat 8 (holds d)) (List.replicate k s) = BitVec.ofNat 8 (holds d) := by
  intro k
  induction k with
  | zero => exact ⟨rfl, rfl⟩
  | succ k ih =>
    have := getMotion_spec invert d s
    rw [if_pos hd] at this
    rw [List.replicate_succ, List.replicate_succ, motions, after, this]
    exact ⟨by rw [ih.1], ih.2⟩

theorem held_spec (invert : Bool) (s : Bool × Bool) (k : Nat) (d : List (Bool × Bool)) (hd : s ≠ d.headD (false, false)) :
    motions invert (BitVec.ofNat 8 (holds d)) (held s k) =
      (if lastFour (s :: d) = cwPattern invert then .cw else if lastFour (s :: d) = ccwPattern invert then .ccw else .none) :: List.replicate k .none ∧
    after invert (BitVec.ofNat 8 (holds d)) (held s k) = BitVec.ofNat 8 (holds (s :: d)) := by
  have h1 := getMotion_spec invert d s
  rw [if_neg hd] at h1
  have h2 := same_state invert s (s :: d) rfl k
  rw [held, List.replicate_succ, motions, after, h1]
  exact ⟨by rw [h2.1], h2.2⟩

/-- How often a direction is reported. -/
def cnt (x : Direction) (l : List Direction) : Nat := l.count x

theorem lastFour_cons4 (a b c d : Bool × Bool) (l : List (Bool × Bool)) : lastFour (d :: c :: b :: a :: l) = [a, b, c, d] := rfl

theorem turn_spec (invert cwise : Bool) (d : List (Bool × Bool)) (hd : d.headD (false, false) = (true != invert, true != invert)) (ks : Nat × Nat × Nat × Nat) :
    ∃ d', after invert (BitVec.ofNat 8 (holds d)) (if cwise then cwTurn invert ks else ccwTurn invert ks) = BitVec.ofNat 8 (holds d') ∧
      d'.headD (false, false) = (true != invert, true != invert) ∧
      (motions invert (BitVec.ofNat 8 (holds d)) (if cwise then cwTurn invert ks else ccwTurn invert ks)).count .cw = (if cwise then 1 else 0) ∧
      (motions invert (BitVec.ofNat 8 (holds d)) (if cwise then cwTurn invert ks else ccwTurn invert ks)).count .ccw = (if cwise then 0 else 1) := by
  obtain ⟨k1, k2, k3, k4⟩ := ks
  -- the four states of the turn
  obtain ⟨s1, hs1⟩ : ∃ s, (if cwise then (true != invert, false != invert) else (false != invert, true != invert)) = s := ⟨_, rfl⟩
  obtain ⟨s3, hs3⟩ : ∃ s, (if cwise then (false != invert, true != invert) else (true != invert, false != invert)) = s := ⟨_, rfl⟩
  have hturn : (if cwise then cwTurn invert (k1, k2, k3, k4) else ccwTurn invert (k1, k2, k3, k4)) =
      held s1 k1 ++ (held (false != invert, false != invert) k2 ++ (held s3 k3 ++ held (true != invert, true != invert) k4)) := by
    rw [← hs1, ← hs3]
    cases cwise <;> simp [cwTurn, ccwTurn]
  rw [hturn]
  have g1 := held_spec invert s1 k1 d (by rw [hd, ← hs1]; cases cwise <;> cases invert <;> decide)
  have g2 := held_spec invert (false != invert, false != invert) k2 (s1 :: d) (by simp only [List.headD_cons]; rw [← hs1]; cases cwise <;> cases invert <;> decide)
  have g3 := held_spec invert s3 k3 ((false != invert, false != invert) :: s1 :: d) (by simp only [List.headD_cons]; rw [← hs3]; cases cwise <;> cases invert <;> decide)
  have g4 := held_spec invert (true != invert, true != invert) k4 (s3 :: (false != invert, false != invert) :: s1 :: d)
    (by simp only [List.headD_cons]; rw [← hs3]; cases cwise <;> cases invert <;> decide)
  refine ⟨(true != invert, true != invert) :: s3 :: (false != invert, false != invert) :: s1 :: d, ?_, rfl, ?_, ?_⟩
  · rw [after_append, g1.2, after_append, g2.2, after_append, g3.2, g4.2]
  all_goals
    rw [motions_append, g1.2, motions_append, g2.2, motions_append, g3.2, g1.1, g2.1, g3.1, g4.1]
    have e1 : lastFour (s1 :: d) ≠ cwPattern invert ∧ lastFour (s1 :: d) ≠ ccwPattern invert := by
      constructor <;> (intro h; have := congrArg (·[3]?) h; rw [← hs1] at this; revert this; cases cwise <;> cases invert <;> simp [lastFour, cwPattern, ccwPattern])
    have e2 : lastFour ((false != invert, false != invert) :: s1 :: d) ≠ cwPattern invert ∧ lastFour ((false != invert, false != invert) :: s1 :: d) ≠ ccwPattern invert := by
      constructor <;> (intro h; have := congrArg (·[3]?) h; revert this; cases invert <;> simp [lastFour, cwPattern, ccwPattern])
    have e3 : lastFour (s3 :: (false != invert, false != invert) :: s1 :: d) ≠ cwPattern invert ∧ lastFour (s3 :: (false != invert, false != invert) :: s1 :: d) ≠ ccwPattern invert := by
      constructor <;> (intro h; have := congrArg (·[3]?) h; rw [← hs3] at this; revert this; cases cwise <;> cases invert <;> simp [lastFour, cwPattern, ccwPattern])
    rw [if_neg e1.1, if_neg e1.2, if_neg e2.1, if_neg e2.2, if_neg e3.1, if_neg e3.2, lastFour_cons4]
    simp only [List.count_append, List.count_cons, List.count_replicate, ← hs1, ← hs3]
    cases cwise <;> cases invert <;> simp [cwPattern, ccwPattern]

/-- **C73**: from power-up, with the pins at rest (held for any number of samples) and then any number of full turns in either direction, every
pin state held for any number of samples: exactly one CW per clockwise turn and one CCW per counterclockwise turn. -/
theorem C73_turns (invert : Bool) (k0 : Nat) (turns : List (Bool × (Nat × Nat × Nat × Nat))) (pins : List (Bool × Bool))
    (hpins : pins = held (true != invert, true != invert) k0 ++ (turns.map (fun t => if t.1 then cwTurn invert t.2 else ccwTurn invert t.2)).flatten) :
    (motions invert 0 pins).count .cw = turns.countP (·.1) ∧ (motions invert 0 pins).count .ccw = turns.countP (fun t => !t.1) := by
  have key : ∀ (turns : List (Bool × (Nat × Nat × Nat × Nat))) (d : List (Bool × Bool)), d.headD (false, false) = (true != invert, true != invert) →
      (motions invert (BitVec.ofNat 8 (holds d)) (turns.map (fun t => if t.1 then cwTurn invert t.2 else ccwTurn invert t.2)).flatten).count .cw = turns.countP (·.1) ∧
      (motions invert (BitVec.ofNat 8 (holds d)) (turns.map (fun t => if t.1 then cwTurn invert t.2 else ccwTurn invert t.2)).flatten).count .ccw = turns.countP (fun t => !t.1) := by
    intro turns
    induction turns with
    | nil => intro d _; simp [motions]
    | cons t turns ih =>
      intro d hd
      obtain ⟨d', h1, h2, h3, h4⟩ := turn_spec invert t.1 d hd t.2
      obtain ⟨i1, i2⟩ := ih d' h2
      rw [List.map_cons, List.flatten_cons, motions_append, List.count_append, List.count_append, h1, h3, h4, i1, i2, List.countP_cons, List.countP_cons]
      cases t.1 <;> simp <;> omega
  subst hpins
  have h0 : (0 : BitVec 8) = BitVec.ofNat 8 (holds []) := rfl
  rw [motions_append, h0]
  cases invert with
  | false =>
    have g := held_spec false (true, true) k0 [] (by decide)
    have e : lastFour [(true, true)] ≠ cwPattern false ∧ lastFour [(true, true)] ≠ ccwPattern false := by decide
    rw [if_neg e.1, if_neg e.2] at g
    simp only [Bool.bne_false] at g ⊢
    rw [g.1, g.2]
    have := key turns [(true, true)] rfl
    simpa [List.count_cons, List.count_replicate] using this
  | true =>
    have g := same_state true (false, false) [] rfl (k0 + 1)
    have e : held (true != true, true != true) k0 = List.replicate (k0 + 1) (false, false) := rfl
    rw [e, g.1, g.2]
    have := key turns [] rfl
    simpa [List.count_replicate] using this

example : motions false 0 (held (true, true) 1 ++ cwTurn false (0, 1, 0, 2)) =
    [.none, .none, .none, .none, .none, .none, .cw, .none, .none] := by decide

end Quad
