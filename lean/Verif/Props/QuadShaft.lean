import Verif.Spec.QuadShaft
/-! # C220: an encoder under every movement of its shaft -/

namespace Quad.Shaft

/-! ### The byte in `prev_state`, position and run: a finite system -/

def clip (r : Int) : Int := if r > 3 then 3 else if r < -3 then -3 else r

def allMoves : List Move := [.fwd, .back, .stay]

/-- One reading, in the finite system (byte, position modulo 4, clipped run). -/
def nxt (invert : Bool) (t : BitVec 8 × Int × Int) (m : Move) : BitVec 8 × Int × Int :=
  let x := (t.2.1 + m.by) % 4
  ((getMotion invert t.1 (pinsAt invert x).1 (pinsAt invert x).2).2, x, clip (newRun t.2.2 m))

def start (invert : Bool) (x : Int) : BitVec 8 × Int × Int := ((getMotion invert 0 (pinsAt invert x).1 (pinsAt invert x).2).2, x, 0)

def grow (invert : Bool) (l : List (BitVec 8 × Int × Int)) : List (BitVec 8 × Int × Int) :=
  (l ++ l.flatMap fun t => allMoves.map (nxt invert t)).eraseDups

def reach (invert : Bool) : Nat → List (BitVec 8 × Int × Int)
  | 0 => [0, 1, 2, 3].map (start invert)
  | k + 1 => grow invert (reach invert k)

def answer (t : BitVec 8 × Int × Int) (m : Move) : Direction :=
  if (t.2.1 + m.by) % 4 = 0 ∧ m = .fwd ∧ newRun t.2.2 m ≥ 3 then Direction.cw
  else if (t.2.1 + m.by) % 4 = 0 ∧ m = .back ∧ newRun t.2.2 m ≤ -3 then Direction.ccw
  else Direction.none

def okAt (invert : Bool) (set : List (BitVec 8 × Int × Int)) (t : BitVec 8 × Int × Int) (m : Move) : Bool :=
  set.contains (nxt invert t m) &&
    (getMotion invert t.1 (pinsAt invert (t.2.1 + m.by)).1 (pinsAt invert (t.2.1 + m.by)).2).1 == answer t m

set_option maxRecDepth 20000 in
theorem closed (invert : Bool) : ((reach invert 5).all fun t => allMoves.all (okAt invert (reach invert 5) t)) = true := by
  cases invert <;> decide +kernel

set_option maxRecDepth 20000 in
theorem starts (invert : Bool) : ([0, 1, 2, 3].all fun x => (reach invert 5).contains (start invert x)) = true := by
  cases invert <;> decide +kernel

theorem pins_mod (invert : Bool) (x : Int) : pinsAt invert (x % 4) = pinsAt invert x := by
  unfold pinsAt; rw [Int.emod_emod_of_dvd x (by decide)]

theorem clip_run (r : Int) (m : Move) : clip (newRun (clip r) m) = clip (newRun r m) := by
  cases m <;> simp only [newRun, clip] <;> repeat' split <;> omega

theorem run_ge (r : Int) (m : Move) : (newRun (clip r) m ≥ 3 ↔ newRun r m ≥ 3) ∧ (newRun (clip r) m ≤ -3 ↔ newRun r m ≤ -3) := by
  cases m <;> simp only [newRun, clip] <;> constructor <;> repeat' split <;> omega

/-- What is known of the encoder when the shaft is at `x`, the last run being `r`. -/
def Known (invert : Bool) (p : BitVec 8) (x r : Int) : Prop := (p, x % 4, clip r) ∈ reach invert 5

theorem known_step (invert : Bool) (p : BitVec 8) (x r : Int) (h : Known invert p x r) (m : Move) :
    Known invert (getMotion invert p (pinsAt invert (x + m.by)).1 (pinsAt invert (x + m.by)).2).2 (x + m.by) (newRun r m) ∧
    (getMotion invert p (pinsAt invert (x + m.by)).1 (pinsAt invert (x + m.by)).2).1 =
      (if (x + m.by) % 4 = 0 ∧ m = .fwd ∧ newRun r m ≥ 3 then Direction.cw
        else if (x + m.by) % 4 = 0 ∧ m = .back ∧ newRun r m ≤ -3 then Direction.ccw else Direction.none) := by
  have c := List.all_eq_true.mp (closed invert) _ h
  have c := List.all_eq_true.mp c m (by cases m <;> decide)
  simp only [okAt, nxt, answer, Bool.and_eq_true, List.contains_iff_mem, beq_iff_eq] at c
  obtain ⟨c1, c2⟩ := c
  have e0 : (x % 4 + m.by) % 4 = (x + m.by) % 4 := by omega
  have e1 : pinsAt invert (x % 4 + m.by) = pinsAt invert (x + m.by) := by rw [← pins_mod, e0, pins_mod]
  rw [e0, pins_mod, clip_run] at c1
  rw [e0, e1] at c2
  refine ⟨c1, ?_⟩
  rw [c2]
  simp only [(run_ge r m).1, (run_ge r m).2]

theorem known_run (invert : Bool) (l : List Move) : ∀ (p : BitVec 8) (x r : Int), Known invert p x r →
    motions invert p (readings invert x l) = arrivals x r l := by
  induction l with
  | nil => intro p x r _; rfl
  | cons m l ih =>
    intro p x r h
    obtain ⟨h1, h2⟩ := known_step invert p x r h m
    rw [readings, motions, arrivals, h2, ih _ _ _ h1]

theorem stay_motions (invert : Bool) (k : Nat) (l : List Move) (x : Int) : ∀ (p : BitVec 8) (r : Int), Known invert p x r →
    motions invert p (List.replicate k (pinsAt invert x) ++ readings invert x l) = List.replicate k Direction.none ++ arrivals x r l := by
  induction k with
  | zero => intro p r h; exact known_run invert l p x r h
  | succ k ih =>
    intro p r h
    obtain ⟨h1, h2⟩ := known_step invert p x r h .stay
    simp only [Move.by, Int.add_zero, newRun] at h1 h2
    rw [List.replicate_succ, List.cons_append, motions, h2, ih _ _ h1]
    simp [List.replicate_succ]

theorem start_known (invert : Bool) (x : Int) :
    Known invert (getMotion invert 0 (pinsAt invert x).1 (pinsAt invert x).2).2 x 0 ∧ (getMotion invert 0 (pinsAt invert x).1 (pinsAt invert x).2).1 = .none := by
  have hx : x % 4 = 0 ∨ x % 4 = 1 ∨ x % 4 = 2 ∨ x % 4 = 3 := by omega
  have s := List.all_eq_true.mp (starts invert) (x % 4) (by rcases hx with h | h | h | h <;> rw [h] <;> decide)
  simp only [start, List.contains_iff_mem, pins_mod] at s
  refine ⟨s, ?_⟩
  rw [← pins_mod]
  rcases hx with h | h | h | h <;> rw [h] <;> cases invert <;> decide

/-- **C220**, exact: power up with the shaft anywhere, read it any number of times, then let it move in any way, at most a quarter step between
two readings: a step is reported exactly when the shaft arrives at a detent by three quarter steps or more without turning round. -/
theorem C220_exact (invert : Bool) (x : Int) (k : Nat) (l : List Move) :
    motions invert 0 (List.replicate (k + 1) (pinsAt invert x) ++ readings invert x l) = List.replicate (k + 1) Direction.none ++ arrivals x 0 l := by
  obtain ⟨h1, h2⟩ := start_known invert x
  rw [List.replicate_succ, List.cons_append, motions, h2, stay_motions invert k l x _ 0 h1]
  rfl

example : arrivals 0 0 [.fwd, .back, .fwd, .stay, .fwd, .fwd, .fwd, .back, .fwd] =
    [.none, .none, .none, .none, .none, .none, .cw, .none, .none] := by decide

theorem nd_cases (det x : Int) (m : Move) :
    ((x + m.by) % 4 = 0 ∧ newDetent det x m = (x + m.by) / 4) ∨ ((x + m.by) % 4 ≠ 0 ∧ newDetent det x m = det) := by
  unfold newDetent
  by_cases h : (x + m.by) % 4 = 0
  · exact Or.inl ⟨h, if_pos h⟩
  · exact Or.inr ⟨h, if_neg h⟩

theorem calm_changes (l : List Move) : ∀ (det x r : Int),
    (x - 4 * det = 0 ∨ (x - 4 * det = 1 ∧ r ≥ -1) ∨ (x - 4 * det = 2 ∧ r ≥ 1) ∨ (x - 4 * det = 3 ∧ r ≥ 2) ∨
      (x - 4 * det = -1 ∧ r ≤ 1) ∨ (x - 4 * det = -2 ∧ r ≤ -1) ∨ (x - 4 * det = -3 ∧ r ≤ -2)) →
    calm det x l = true → arrivals x r l = changes det x l := by
  induction l with
  | nil => intro det x r _ _; rfl
  | cons m l ih =>
    intro det x r h hc
    simp only [calm, Bool.and_eq_true, Bool.not_eq_true', Bool.and_eq_false_imp, beq_iff_eq, beq_eq_false_iff_ne, ne_eq] at hc
    obtain ⟨⟨c1, c2⟩, c3⟩ := hc
    have k1 : m = .back → x - 4 * det ≠ 3 := fun e h => c1 h e
    have k2 : m = .fwd → x - 4 * det ≠ -3 := fun e h => c2 h e
    clear c1 c2
    rw [arrivals, changes]
    have nd := nd_cases det x m
    rw [ih (newDetent det x m) (x + m.by) (newRun r m) ?_ c3]
    · congr 1
      generalize newDetent det x m = n at nd
      cases m
      · have k2 := k2 rfl
        simp only [newRun, Move.by, true_and, reduceCtorEq, false_and, and_false, if_false] at nd ⊢
        by_cases hr : r > 0
        · rw [if_pos hr]; repeat' split
          all_goals first | rfl | (exfalso; omega)
        · rw [if_neg hr]; repeat' split
          all_goals first | rfl | (exfalso; omega)
      · have k1 := k1 rfl
        simp only [newRun, Move.by, true_and, reduceCtorEq, false_and, and_false, if_false] at nd ⊢
        by_cases hr : r < 0
        · rw [if_pos hr]; repeat' split
          all_goals first | rfl | (exfalso; omega)
        · rw [if_neg hr]; repeat' split
          all_goals first | rfl | (exfalso; omega)
      · simp only [newRun, Move.by, reduceCtorEq, false_and, and_false, if_false] at nd ⊢
        repeat' split
        all_goals first | rfl | (exfalso; omega)
    · generalize newDetent det x m = n at nd
      cases m
      · have k2 := k2 rfl
        simp only [newRun, Move.by] at nd ⊢
        split <;> omega
      · have k1 := k1 rfl
        simp only [newRun, Move.by] at nd ⊢
        split <;> omega
      · simp only [newRun, Move.by] at nd ⊢
        omega

/-- **C220** (partial): from rest at a detent, if the shaft never turns back from the last quarter before the next detent, a step is reported exactly
when the shaft arrives at another detent, however it moves or bounces otherwise. -/
theorem C220_tracks_partial (invert : Bool) (det : Int) (k : Nat) (l : List Move) (h : calm det (4 * det) l = true) :
    motions invert 0 (List.replicate (k + 1) (pinsAt invert (4 * det)) ++ readings invert (4 * det) l) =
      List.replicate (k + 1) Direction.none ++ changes det (4 * det) l := by
  rw [C220_exact, calm_changes l det (4 * det) 0 (Or.inl (by omega)) h]

example : calm 0 0 [.fwd, .back, .fwd, .fwd, .back, .fwd, .stay, .fwd, .fwd, .back, .fwd, .back, .back, .fwd, .fwd] = true := by decide

theorem net_changes (l : List Move) : ∀ (det x : Int), -3 ≤ x - 4 * det → x - 4 * det ≤ 3 → (final x l) % 4 = 0 →
    (l = [] → x = 4 * det) → 4 * (net (changes det x l) + det) = final x l := by
  induction l with
  | nil => intro det x _ _ _ h; simp [net, changes, final, h rfl]
  | cons m l ih =>
    intro det x h1 h2 hf _
    rw [changes, final]
    have hd : -1 ≤ newDetent det x m - det ∧ newDetent det x m - det ≤ 1 ∧ -3 ≤ x + m.by - 4 * newDetent det x m ∧ x + m.by - 4 * newDetent det x m ≤ 3 := by
      have nd := nd_cases det x m
      have hb : m.by = 1 ∨ m.by = -1 ∨ m.by = 0 := by cases m <;> simp [Move.by]
      omega
    have i := ih (newDetent det x m) (x + m.by) hd.2.2.1 hd.2.2.2 hf (by
      intro e; subst e; rw [final, final] at hf
      unfold newDetent; rw [if_pos hf]; omega)
    have cn : ∀ (d : Direction) (t : List Direction), net (d :: t) = net t + (if d = .cw then 1 else if d = .ccw then -1 else 0) := by
      intro d t; cases d <;> simp [net] <;> omega
    rw [cn, ← i]
    rcases (by omega : newDetent det x m = det + 1 ∨ newDetent det x m = det - 1 ∨ newDetent det x m = det) with h | h | h
    · rw [h]; simp; try omega
    · rw [h]
      rw [if_neg (show ¬ (det - 1 = det + 1) by omega)]; simp; omega
    · rw [h]
      rw [if_neg (show ¬ (det = det + 1) by omega), if_neg (show ¬ (det = det - 1) by omega)]; simp

/-- **C220** (partial), summed up: whenever such a shaft is at a detent, the steps reported add up to the detents it has moved by. -/
theorem C220_sum_partial (invert : Bool) (det : Int) (k : Nat) (l : List Move) (h : calm det (4 * det) l = true) (hf : final (4 * det) l % 4 = 0) :
    4 * (net (motions invert 0 (List.replicate (k + 1) (pinsAt invert (4 * det)) ++ readings invert (4 * det) l)) + det) = final (4 * det) l := by
  rw [C220_tracks_partial invert det k l h, ← net_changes l det (4 * det) (by omega) (by omega) hf (fun _ => rfl)]
  simp [net, List.count_append, List.count_replicate]

example := C220_sum_partial true 3 5 [.fwd, .back, .fwd, .fwd, .stay, .fwd, .fwd, .back, .fwd] (by decide) (by decide)

/-- `j` times. -/
def times : Nat → List Move → List Move
  | 0, _ => []
  | j + 1, l => l ++ times j l

/-- **C220**, violated by bounce: if the contact that closes last before the detent bounces (once or more), the step is lost. -/
theorem C220_bounce_violated (invert : Bool) (j : Nat) :
    final 0 ([.fwd, .fwd, .fwd] ++ times (j + 1) [.back, .fwd] ++ [.fwd]) = 4 ∧
    net (motions invert 0 (pinsAt invert 0 :: readings invert 0 ([.fwd, .fwd, .fwd] ++ times (j + 1) [.back, .fwd] ++ [.fwd]))) = 0 := by
  have e := C220_exact invert 0 0 ([.fwd, .fwd, .fwd] ++ times (j + 1) [.back, .fwd] ++ [.fwd])
  simp only [Nat.zero_add, List.replicate_one, List.singleton_append] at e
  rw [e]
  have key : ∀ i, final 3 (times i [.back, .fwd] ++ [.fwd]) = 4 ∧ net (arrivals 3 1 (times i [.back, .fwd] ++ [.fwd])) = 0 := by
    intro i
    induction i with
    | zero => decide
    | succ i ih =>
      obtain ⟨i1, i2⟩ := ih
      refine ⟨by simpa [times, final, Move.by] using i1, ?_⟩
      simpa [times, arrivals, Move.by, newRun, net] using i2
  obtain ⟨k1, k2⟩ := key j
  refine ⟨by simpa [times, final, Move.by] using k1, ?_⟩
  simpa [times, arrivals, Move.by, newRun, net] using k2

/-- **C220**, violated by turning back: a shaft rocked `j` times out of its detent by three quarters and back is where it was, but `j` steps are
reported, so the sum drifts away without limit. -/
theorem C220_drift_violated (invert : Bool) (j : Nat) :
    final 0 (times j [.fwd, .fwd, .fwd, .back, .back, .back]) = 0 ∧
    net (motions invert 0 (pinsAt invert 0 :: readings invert 0 (times j [.fwd, .fwd, .fwd, .back, .back, .back]))) = -j := by
  have e := C220_exact invert 0 0 (times j [.fwd, .fwd, .fwd, .back, .back, .back])
  simp only [Nat.zero_add, List.replicate_one, List.singleton_append] at e
  rw [e]
  have key : ∀ i (r : Int), r ≤ 0 → final 0 (times i [.fwd, .fwd, .fwd, .back, .back, .back]) = 0 ∧
      net (Direction.none :: arrivals 0 r (times i [.fwd, .fwd, .fwd, .back, .back, .back])) = -i := by
    intro i
    induction i with
    | zero => intro r _; exact ⟨rfl, rfl⟩
    | succ i ih =>
      intro r hr
      have hr' : ¬ (0 < r) := by omega
      obtain ⟨i1, i2⟩ := ih (-3) (by omega)
      refine ⟨by simpa [times, final, Move.by] using i1, ?_⟩
      simp only [net, List.count_cons] at i2
      simp [times, arrivals, Move.by, newRun, net, hr'] at i2 ⊢
      omega
  exact key j 0 (by omega)

end Quad.Shaft
