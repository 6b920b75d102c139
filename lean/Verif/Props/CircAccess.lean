import Verif.Lemmas.CircAccess
/-! # Properties C14–C17: CircularBufferAccess and CircularBufferBlock -/
namespace CircAccess
variable {T : Type}

/-- **C14**, reading. -/
theorem C14_read (s : St T) (n : Nat) (h : s.rd < s.buf.length) :
    ∃ s' ds wrapped, read s n false = .ok (s', ds, wrapped) ∧
      ds.length = n ∧ (∀ i, i < n → ds[i]? = s.buf[(s.rd + i) % s.buf.length]?) ∧
      s'.rd = (s.rd + n) % s.buf.length ∧ s'.buf = s.buf ∧ s'.wr = s.wr ∧
      (wrapped = true ↔ s.buf.length ≤ s.rd + n) := by
  obtain ⟨ds, h1, h2, h3⟩ := read_spec n s false h
  exact ⟨_, ds, _, h1, h2, h3, rfl, rfl, rfl, by simp⟩

example := C14_read (⟨[1, 2, 3], 2, 0⟩ : St Nat) 5 (by decide)

/-- What it means that storing `data` at `pos 0, pos 1, …`, later elements winning, turned `b` into `b'`. -/
def StoredAt (b b' : List T) (data : List T) (pos : Nat → Nat) : Prop :=
  b'.length = b.length ∧
  (∀ j d, data[j]? = some d → (∀ j', j < j' → j' < data.length → pos j' ≠ pos j) → b'[pos j]? = some d) ∧
  (∀ p, (∀ j, j < data.length → pos j ≠ p) → b'[p]? = b[p]?)

theorem stores_StoredAt (mix : T → T → T) (hm : ∀ d o, mix d o = d) (b data : List T) (pos : Nat → Nat)
    (hp : ∀ j, j < data.length → pos j < b.length) :
    StoredAt b (stores mix b (data.zipIdx.map fun (d, i) => (pos i, d))) data pos := by
  refine ⟨stores_length .., ?_, ?_⟩
  · intro j d hd hlast
    have hj := (List.getElem?_eq_some_iff.mp hd).1
    have hsplit : data.zipIdx.map (fun (d, i) => (pos i, d)) =
        ((data.zipIdx.map fun (d, i) => (pos i, d)).take j) ++ (pos j, d) :: ((data.zipIdx.map fun (d, i) => (pos i, d)).drop (j + 1)) := by
      have hgen : ∀ (l : List (Nat × T)) (hl : j < l.length), l = l.take j ++ l[j] :: l.drop (j + 1) := by
        intro l hl
        rw [← List.drop_eq_getElem_cons hl, List.take_append_drop]
      have h1 := hgen (data.zipIdx.map fun (d, i) => (pos i, d)) (by simpa using hj)
      have h2 := (List.getElem?_eq_some_iff.mp hd).2
      simpa [h2] using h1
    rw [hsplit]
    refine stores_last mix hm _ _ _ _ _ (hp j hj) ?_
    intro a ha
    obtain ⟨i, hi, rfl⟩ := List.getElem_of_mem ha
    simp only [List.getElem_drop, List.getElem_map, List.getElem_zipIdx]
    simp at hi
    exact hlast _ (by omega) (by omega)
  · intro p h
    refine stores_other mix _ p b ?_
    intro a ha
    obtain ⟨i, hi, rfl⟩ := List.getElem_of_mem ha
    simp at hi
    simp only [List.getElem_map, List.getElem_zipIdx]
    exact h _ (by omega)

/-- **C14 (partial)**, writing at full phase, for element types whose blend at full phase is the new element.
Missing: element types where the single-precision blend loses bits (next theorem). -/
theorem C14_write_partial (mix : T → T → T) (hm : ∀ d old, mix d old = d) (s : St T) (data : List T)
    (h : s.wr < s.buf.length) :
    ∃ s' wrapped, write mix s data false = .ok (s', wrapped) ∧
      StoredAt s.buf s'.buf data (fun i => (s.wr + i) % s.buf.length) ∧
      s'.wr = (s.wr + data.length) % s.buf.length ∧ s'.rd = s.rd ∧
      (wrapped = true ↔ s.buf.length ≤ s.wr + data.length) := by
  refine ⟨_, _, write_spec mix data s false h, ?_, rfl, rfl, by simp⟩
  exact stores_StoredAt mix hm _ _ _ (fun j _ => Nat.mod_lt _ (by omega))

example := C14_write_partial (fun d _ => d) (fun _ _ => rfl) (⟨[1, 2, 3], 2, 0⟩ : St Nat) [7, 8] (by decide)

theorem rnd_fix {rnd : ℚ → ℚ} (hr : rnd = id ∨ Flt.Nearest rnd) {x : ℚ} (hx : Flt.F32 x) : rnd x = x := by
  rcases hr with rfl | hr
  · rfl
  · exact hr.fix hx

/-- The blend at full phase is the new element, at phase 0 the old one (exact and binary32 arithmetic; float elements are
binary32 numbers, integer elements of magnitude up to `2^24`). -/
theorem C14_mix (rnd : ℚ → ℚ) (hr : rnd = id ∨ Flt.Nearest rnd) :
    (∀ d old, Flt.F32 d → Flt.F32 old → mixF rnd 1 d old = d ∧ mixF rnd 0 d old = old) ∧
    ∀ d old : Int, |d| < 2 ^ 24 → |old| < 2 ^ 24 → mixInt rnd 1 d old = d ∧ mixInt rnd 0 d old = old := by
  have h0 : rnd 0 = 0 := rnd_fix hr Flt.f32_zero
  have h1 : rnd 1 = 1 := rnd_fix hr Flt.f32_one
  have hF : ∀ d old, Flt.F32 d → Flt.F32 old → mixF rnd 1 d old = d ∧ mixF rnd 0 d old = old := by
    intro d old hd ho
    constructor
    · simp [mixF, h0, rnd_fix hr hd]
    · simp [mixF, h0, h1, rnd_fix hr ho]
  refine ⟨hF, ?_⟩
  intro d old hd ho
  have fd := Flt.f32_int d hd
  have fo := Flt.f32_int old ho
  simp only [mixInt, rnd_fix hr fd, rnd_fix hr fo, (hF _ _ fd fo).1, (hF _ _ fd fo).2]
  constructor <;> split <;> simp

/-- **C14 is violated** for 32-bit integer elements in binary32 arithmetic: 16777217 written at full phase is not what is stored. -/
theorem C14_write_int32_violated (rnd : ℚ → ℚ) (hr : Flt.Nearest rnd) :
    ∃ x s', write (mixInt rnd 1) ⟨[0, 0], 0, 0⟩ [16777217] false = .ok (s', false) ∧ s'.buf = [x, 0] ∧ x ≠ 16777217 := by
  refine ⟨mixInt rnd 1 16777217 0, ⟨[mixInt rnd 1 16777217 0, 0], 0, 1⟩, rfl, rfl, ?_⟩
  intro h
  have h0 : rnd 0 = 0 := hr.fix Flt.f32_zero
  have hge : (2 : ℚ) ^ 24 ≤ rnd 16777217 := hr.ge (Flt.f32_pow2 24) (by norm_num)
  have hfix : rnd (rnd 16777217) = rnd 16777217 := hr.fix (hr.f32 _)
  obtain ⟨n, hn⟩ := Flt.f32_multiple (hr.f32 16777217) 1 (by rw [abs_of_pos (by linarith [pow_pos (show (0 : ℚ) < 2 by norm_num) 24])]; simpa using hge)
  have hm : mixF rnd 1 (rnd ((16777217 : Int) : ℚ)) (rnd ((0 : Int) : ℚ)) = rnd 16777217 := by
    simp [mixF, h0, hfix]
  unfold mixInt at h
  simp only [hm] at h
  rw [if_pos (by linarith [pow_pos (show (0 : ℚ) < 2 by norm_num) 24]), hn] at h
  have e : ((n : ℚ) * 2 ^ (1 : ℤ)) = ((n * 2 : ℤ) : ℚ) := by push_cast; norm_num
  rw [e, Int.floor_intCast] at h
  omega

example : Flt.F32 (3 / 8) ∧ mixF id (1 / 4) 8 4 = 5 ∧ mixInt id (1 / 4) 9 (-5) = -1 := by
  refine ⟨by have := Flt.f32_div 3 (by norm_num) 3 (by norm_num); norm_num at this ⊢; exact this, by norm_num [mixF], ?_⟩
  have : mixF id (1 / 4) (id ((9 : Int) : ℚ)) (id ((-5 : Int) : ℚ)) = -3 / 2 := by norm_num [mixF]
  unfold mixInt
  simp only [this]
  norm_num

/-- **C134**: a block no longer than the buffer, written at any phase (forward), leaves at every position written the blend of the new
element with the one that was there, and everything else unchanged. -/
theorem C134_write_blend (mix : T → T → T) (s : St T) (data : List T) (h : s.wr < s.buf.length) (hn : data.length ≤ s.buf.length) :
    ∃ s' wrapped, write mix s data false = .ok (s', wrapped) ∧ s'.buf.length = s.buf.length ∧
      (∀ (i : Nat) (hi : i < data.length), s'.buf[(s.wr + i) % s.buf.length]? =
        some (mix data[i] (s.buf[(s.wr + i) % s.buf.length]'(Nat.mod_lt _ (by omega))))) ∧
      ∀ p, (∀ i : Nat, i < data.length → (s.wr + i) % s.buf.length ≠ p) → s'.buf[p]? = s.buf[p]? := by
  refine ⟨_, _, write_spec mix data s false h, stores_length .., ?_, ?_⟩
  · intro i hi
    refine stores_at mix _ _ (fun i => (s.wr + i) % s.buf.length) i hi (Nat.mod_lt _ (by omega)) ?_
    intro j hj hne he
    rcases Nat.lt_or_gt_of_ne hne with hlt | hlt
    · exact add_mod_inj s.wr j i s.buf.length hlt (by omega) he
    · exact add_mod_inj s.wr i j s.buf.length hlt (by omega) he.symm
  · intro p hp
    refine stores_other mix _ p _ ?_
    intro a ha
    obtain ⟨i, hi, rfl⟩ := List.getElem_of_mem ha
    simp at hi
    simp only [List.getElem_map, List.getElem_zipIdx]
    simpa using hp i (by omega)

/-- **C134**, in reverse. -/
theorem C134_write_reverse_blend (bits : Nat) (mix : T → T → T) (s : St T) (data : List T) (h : s.wr < s.buf.length) (hb : s.buf.length < 2 ^ bits)
    (hn : data.length ≤ s.buf.length) :
    ∃ s' wrapped, writeReverse bits mix s data false = .ok (s', wrapped) ∧ s'.buf.length = s.buf.length ∧
      ∀ (i : Nat) (hi : i < data.length) (p : Nat) (hp : (p : Int) = ((s.wr : Int) - i) % s.buf.length) (hpl : p < s.buf.length),
        s'.buf[p]? = some (mix data[i] s.buf[p]) := by
  refine ⟨_, _, writeReverse_spec bits mix data s false h hb, stores_length .., ?_⟩
  intro i hi p hp hpl
  have e : (((s.wr : Int) - i) % s.buf.length).toNat = p := by omega
  have := stores_at mix s.buf data (fun i => (((s.wr : Int) - i) % s.buf.length).toNat) i hi (by simp only [e]; exact hpl) ?_
  · simp only [e] at this; exact this
  · intro j hj hne he
    have hnn : ∀ z : Int, 0 ≤ z % (s.buf.length : Int) := fun z => Int.emod_nonneg z (by omega)
    have h1 := hnn ((s.wr : Int) - i)
    have h2 := hnn ((s.wr : Int) - j)
    have he' : ((s.wr : Int) - j) % s.buf.length = ((s.wr : Int) - i) % s.buf.length := by omega
    have hd := Int.emod_emod_of_dvd
    have h3 := (Int.emod_emod_of_dvd ((s.wr : Int) - j) (dvd_refl (s.buf.length : Int)))
    have h4 : ((s.buf.length : Int)) ∣ ((s.wr : Int) - j) - ((s.wr : Int) - i) := (Int.emod_eq_emod_iff_emod_sub_eq_zero.mp he' |> Int.dvd_of_emod_eq_zero)
    obtain ⟨k, hk⟩ := h4
    have hk0 : k = 0 := by
      by_contra hne0
      rcases lt_or_gt_of_ne hne0 with hlt | hgt
      · have : (s.buf.length : Int) * k ≤ -(s.buf.length : Int) := by nlinarith
        omega
      · have : (s.buf.length : Int) ≤ s.buf.length * k := by nlinarith
        omega
    rw [hk0] at hk
    omega

/-- **C134**: in exact arithmetic the blend lies between the old and the new element, moving linearly with the phase. -/
theorem C134_blend_between (phase d old : ℚ) (h0 : 0 ≤ phase) (h1 : phase ≤ 1) :
    min d old ≤ mixF id phase d old ∧ mixF id phase d old ≤ max d old ∧ mixF id phase d old = old + phase * (d - old) := by
  have e : mixF id phase d old = old + phase * (d - old) := by simp [mixF]; ring
  rw [e]
  refine ⟨?_, ?_, rfl⟩
  · rcases le_total d old with h | h
    · rw [min_eq_left h]; nlinarith
    · rw [min_eq_right h]; nlinarith
  · rcases le_total d old with h | h
    · rw [max_eq_right h]; nlinarith
    · rw [max_eq_left h]; nlinarith

example : write (mixF id (1 / 2)) (⟨[8, 2, 4], 0, 2⟩ : St ℚ) [6, 0] false = .ok (⟨[4, 2, 5], 0, 1⟩, true) := by
  simp [write, arrGet, arrSet, mixF]; norm_num

example : (⟨[10, 11, 12], 2, 0⟩ : St Nat).rd < 3 ∧
    (read (⟨[10, 11, 12], 2, 0⟩ : St Nat) 5 false) = .ok (⟨[10, 11, 12], 1, 0⟩, [12, 10, 11, 12, 10], true) := by decide

example : write (fun d _ => d) (⟨[10, 11, 12], 2, 1⟩ : St Nat) [1, 2, 3, 4] false = .ok (⟨[3, 4, 2], 2, 2⟩, true) := by decide

/-- **C15**, reading in reverse. -/
theorem C15_read_reverse (bits : Nat) (s : St T) (n : Nat) (h : s.rd < s.buf.length) (hb : s.buf.length < 2 ^ bits) :
    ∃ s' ds wrapped, readReverse bits s n false = .ok (s', ds, wrapped) ∧
      ds.length = n ∧ (∀ i : Nat, i < n → ds[i]? = s.buf[(((s.rd : Int) - i) % s.buf.length).toNat]?) ∧
      (s'.rd : Int) = ((s.rd : Int) - n) % s.buf.length ∧ s'.buf = s.buf ∧ s'.wr = s.wr ∧
      (wrapped = true ↔ s.rd < n) := by
  obtain ⟨ds, h1, h2, h3⟩ := readReverse_spec bits n s false h hb
  refine ⟨_, ds, _, h1, h2, h3, ?_, rfl, rfl, by simp⟩
  have := Int.emod_nonneg ((s.rd : Int) - n) (b := s.buf.length) (by omega)
  simp only; omega

/-- **C15**, writing in reverse: only the positions `wr, wr-1, …` modulo the size change; where the blend at full phase
is the new element (see `C14_mix`), they hold the new elements, later ones winning. -/
theorem C15_write_reverse (bits : Nat) (mix : T → T → T) (s : St T) (data : List T)
    (h : s.wr < s.buf.length) (hb : s.buf.length < 2 ^ bits) :
    ∃ s' wrapped, writeReverse bits mix s data false = .ok (s', wrapped) ∧ s'.buf.length = s.buf.length ∧
      (∀ p, (∀ i : Nat, i < data.length → (((s.wr : Int) - i) % s.buf.length).toNat ≠ p) → s'.buf[p]? = s.buf[p]?) ∧
      ((∀ d old, mix d old = d) → StoredAt s.buf s'.buf data (fun i => (((s.wr : Int) - i) % s.buf.length).toNat)) ∧
      (s'.wr : Int) = ((s.wr : Int) - data.length) % s.buf.length ∧ s'.rd = s.rd ∧
      (wrapped = true ↔ s.wr < data.length) := by
  have hnn : ∀ z : Int, 0 ≤ z % (s.buf.length : Int) := fun z => Int.emod_nonneg z (by omega)
  have hlt : ∀ z : Int, z % (s.buf.length : Int) < s.buf.length := fun z => Int.emod_lt_of_pos z (by omega)
  refine ⟨_, _, writeReverse_spec bits mix data s false h hb, stores_length .., ?_, ?_, ?_, rfl, by simp⟩
  · intro p hp
    refine stores_other mix _ p _ ?_
    intro a ha
    obtain ⟨i, hi, rfl⟩ := List.getElem_of_mem ha
    simp at hi
    simp only [List.getElem_map, List.getElem_zipIdx]
    exact hp _ (by omega)
  · intro hm
    exact stores_StoredAt mix hm _ _ (fun i => (((s.wr : Int) - i) % s.buf.length).toNat)
      (fun j _ => by have := hnn ((s.wr : Int) - j); have := hlt ((s.wr : Int) - j); omega)
  · have := hnn ((s.wr : Int) - data.length)
    simp only; omega

/-- **C15**, mirror image: read `n` elements forward, step one position back, read `n` elements in reverse: the same
elements in reversed order. -/
theorem C15_reverse_mirrors_forward (bits : Nat) (s : St T) (n : Nat) (h : s.rd < s.buf.length) (hb : s.buf.length < 2 ^ bits) :
    ∃ s1 ds w1 s2 w2, read s n false = .ok (s1, ds, w1) ∧
      readReverse bits (setRdPos s1 ((s1.rd + (s.buf.length - 1)) % s.buf.length)) n false = .ok (s2, ds.reverse, w2) := by
  obtain ⟨ds, h1, h2, h3⟩ := read_spec n s false h
  have hp : (((s.rd + n) % s.buf.length) + (s.buf.length - 1)) % s.buf.length < s.buf.length := Nat.mod_lt _ (by omega)
  obtain ⟨ds2, g1, g2, g3⟩ := readReverse_spec bits n
    (setRdPos { s with rd := (s.rd + n) % s.buf.length } ((((s.rd + n) % s.buf.length) + (s.buf.length - 1)) % s.buf.length))
    false hp hb
  have : ds2 = ds.reverse := by
    apply List.ext_getElem?
    intro i
    by_cases hi : i < n
    · rw [g3 i hi, List.getElem?_reverse (by omega), h3 _ (by omega)]
      simp only [setRdPos]
      congr 1
      rw [mod_add_mod', h2]
      have hN : 0 < s.buf.length := by omega
      have : ((((s.rd + n + (s.buf.length - 1)) % s.buf.length : Nat) : Int) - i) % s.buf.length
          = (((s.rd + (n - 1 - i)) % s.buf.length : Nat) : Int) := by
        rw [Int.natCast_emod, Int.natCast_emod, Int.emod_sub_emod]
        rw [show (((s.rd + n + (s.buf.length - 1) : Nat) : Int) - i) = ((s.rd + (n - 1 - i) : Nat) : Int) + s.buf.length by omega]
        simp
      rw [this, Int.toNat_natCast]
    · rw [List.getElem?_eq_none (by omega), List.getElem?_eq_none (by simp; omega)]
  rw [this] at g1
  exact ⟨_, ds, _, _, _, h1, g1⟩

example : readReverse 32 (⟨[10, 11, 12], 1, 0⟩ : St Nat) 3 false = .ok (⟨[10, 11, 12], 1, 0⟩, [11, 10, 12], true) := by decide

example : writeReverse 32 (fun d _ => d) (⟨[10, 11, 12], 1, 0⟩ : St Nat) [1, 2] false = .ok (⟨[1, 11, 2], 1, 1⟩, true) := by decide

/-- **C16**: for blocks no longer than the buffer, `read_check_crossed(marker)` is true iff the element at the marker was
read. -/
theorem C16_read_check_crossed (s : St T) (n marker : Nat) (h : s.rd < s.buf.length) (hn : n ≤ s.buf.length)
    (hm : marker < s.buf.length) :
    ∃ s' ds c, readCheckCrossed s n marker = .ok (s', ds, c) ∧
      (c = true ↔ ∃ i, i < n ∧ (s.rd + i) % s.buf.length = marker) := by
  obtain ⟨ds, h1, h2, h3⟩ := read_spec n s false h
  unfold readCheckCrossed
  rw [h1]
  refine ⟨_, _, _, rfl, ?_⟩
  obtain ⟨N, hN⟩ : ∃ N, s.buf.length = N := ⟨_, rfl⟩
  simp only [hN, Bool.false_or] at *
  have hex : (∃ i, i < n ∧ (s.rd + i) % N = marker) ↔ (s.rd ≤ marker ∧ marker < s.rd + n) ∨ marker + N < s.rd + n := by
    constructor
    · rintro ⟨i, hi, e⟩
      by_cases hw : s.rd + i < N
      · rw [Nat.mod_eq_of_lt hw] at e; omega
      · rw [Nat.mod_eq_sub_mod (by omega), Nat.mod_eq_of_lt (by omega)] at e; omega
    · rintro (⟨a, b⟩ | a)
      · exact ⟨marker - s.rd, by omega, by rw [Nat.mod_eq_of_lt (by omega)]; omega⟩
      · exact ⟨marker + N - s.rd, by omega, by
          rw [show s.rd + (marker + N - s.rd) = marker + N by omega, Nat.add_mod_right, Nat.mod_eq_of_lt hm]⟩
  rw [hex]
  by_cases hw : s.rd + n < N
  · rw [Nat.mod_eq_of_lt hw]
    by_cases c1 : s.rd ≤ marker <;> by_cases c2 : s.rd + n ≤ marker <;>
      simp [c1, c2, show ¬ N ≤ s.rd + n by omega] <;> omega
  · by_cases hw2 : s.rd + n < N + N
    · rw [Nat.mod_eq_sub_mod (by omega), Nat.mod_eq_of_lt (by omega)]
      by_cases c1 : s.rd ≤ marker <;> by_cases c2 : s.rd + n - N ≤ marker <;>
        simp [c1, c2, show N ≤ s.rd + n by omega] <;> omega
    · omega

example := C16_read_check_crossed (⟨[1, 2, 3], 2, 0⟩ : St Nat) 2 1 (by decide) (by decide) (by decide)

/-- **C16**: `read_reverse_check_crossed(marker)` is true iff the position moved from past the marker to at or before
it, i.e. the element just after the marker (modulo the size) was read. -/
theorem C16_read_reverse_check_crossed (bits : Nat) (s : St T) (n marker : Nat) (h : s.rd < s.buf.length) (hb : s.buf.length < 2 ^ bits)
    (hn : n ≤ s.buf.length) (hm : marker < s.buf.length) :
    ∃ s' ds c, readReverseCheckCrossed bits s n marker = .ok (s', ds, c) ∧
      (c = true ↔ ∃ i : Nat, i < n ∧ (((s.rd : Int) - i) % s.buf.length).toNat = (marker + 1) % s.buf.length) := by
  obtain ⟨ds, h1, h2, h3⟩ := readReverse_spec bits n s false h hb
  unfold readReverseCheckCrossed
  rw [h1]
  refine ⟨_, _, _, rfl, ?_⟩
  obtain ⟨N, hN⟩ : ∃ N, s.buf.length = N := ⟨_, rfl⟩
  simp only [hN, Bool.false_or] at *
  have hpos : ∀ j : Nat, j ≤ N → (((s.rd : Int) - j) % N).toNat = if j ≤ s.rd then s.rd - j else s.rd + N - j := by
    intro j hj
    split
    · rw [Int.emod_eq_of_lt (by omega) (by omega)]; omega
    · rw [show ((s.rd : Int) - j) = (s.rd + N - j) - N by omega, Int.sub_emod_right, Int.emod_eq_of_lt (by omega) (by omega)]
      omega
  have hmk : (marker + 1) % N = if marker + 1 = N then 0 else marker + 1 := by
    split
    · next e => rw [e]; simp
    · rw [Nat.mod_eq_of_lt (by omega)]
  have hex : (∃ i : Nat, i < n ∧ (((s.rd : Int) - i) % N).toNat = (marker + 1) % N) ↔
      (marker < s.rd ∧ s.rd < marker + 1 + n) ∨ (s.rd + N < marker + 1 + n) := by
    constructor
    · rintro ⟨i, hi, e⟩
      rw [hpos i (by omega), hmk] at e
      split at e <;> split at e <;> omega
    · rintro (⟨a, b⟩ | a)
      · refine ⟨s.rd - (marker + 1), by omega, ?_⟩
        rw [hpos _ (by omega), hmk, if_pos (by omega)]
        split <;> omega
      · refine ⟨s.rd + N - (marker + 1), by omega, ?_⟩
        rw [hpos _ (by omega), hmk]
        split <;> split <;> omega
  rw [hex, hpos n hn]
  by_cases hw : n ≤ s.rd
  · rw [if_pos hw]
    by_cases c1 : s.rd ≤ marker <;> by_cases c2 : s.rd - n ≤ marker <;>
      simp [c1, c2, show ¬ s.rd < n by omega] <;> omega
  · rw [if_neg hw]
    by_cases c1 : s.rd ≤ marker <;> by_cases c2 : s.rd + N - n ≤ marker <;>
      simp [c1, c2, show s.rd < n by omega] <;> omega

/-- **C16**: `write_check_crossed(marker)` is true iff the element just before the marker (modulo the size) was
written. -/
theorem C16_write_check_crossed (mix : T → T → T) (s : St T) (data : List T) (marker : Nat) (h : s.wr < s.buf.length)
    (hn : data.length ≤ s.buf.length) (hm : marker < s.buf.length) :
    ∃ s' c, writeCheckCrossed mix s data marker = .ok (s', c) ∧
      (c = true ↔ ∃ i, i < data.length ∧ (s.wr + i + 1) % s.buf.length = marker) := by
  unfold writeCheckCrossed
  rw [write_spec mix data s false h]
  refine ⟨_, _, rfl, ?_⟩
  obtain ⟨N, hN⟩ : ∃ N, s.buf.length = N := ⟨_, rfl⟩
  obtain ⟨n, hn'⟩ : ∃ n, data.length = n := ⟨_, rfl⟩
  simp only [hN, hn', Bool.false_or] at *
  have hex : (∃ i, i < n ∧ (s.wr + i + 1) % N = marker) ↔ (s.wr < marker ∧ marker ≤ s.wr + n) ∨ marker + N ≤ s.wr + n := by
    constructor
    · rintro ⟨i, hi, e⟩
      by_cases hw : s.wr + i + 1 < N
      · rw [Nat.mod_eq_of_lt hw] at e; omega
      · rw [Nat.mod_eq_sub_mod (by omega), Nat.mod_eq_of_lt (by omega)] at e; omega
    · rintro (⟨a, b⟩ | a)
      · exact ⟨marker - s.wr - 1, by omega, by rw [Nat.mod_eq_of_lt (by omega)]; omega⟩
      · exact ⟨marker + N - s.wr - 1, by omega, by
          rw [show s.wr + (marker + N - s.wr - 1) + 1 = marker + N by omega, Nat.add_mod_right, Nat.mod_eq_of_lt hm]⟩
  rw [hex]
  by_cases hw : s.wr + n < N
  · rw [Nat.mod_eq_of_lt hw]
    by_cases c1 : s.wr < marker <;> by_cases c2 : s.wr + n < marker <;>
      simp [c1, c2, show ¬ N ≤ s.wr + n by omega] <;> omega
  · rw [Nat.mod_eq_sub_mod (by omega), Nat.mod_eq_of_lt (by omega)]
    by_cases c1 : s.wr < marker <;> by_cases c2 : s.wr + n - N < marker <;>
      simp [c1, c2, show N ≤ s.wr + n by omega] <;> omega

/-- The restriction to blocks no longer than the buffer is needed: reading four elements of a buffer of three, which
passes the marker twice, is reported as not crossed. -/
theorem C16_longer_blocks_miscount :
    (readCheckCrossed (⟨[10, 11, 12], 1, 0⟩ : St Nat) 4 1) = .ok (⟨[10, 11, 12], 2, 0⟩, [11, 12, 10, 11], false) := by decide

example : readCheckCrossed (⟨[10, 11, 12], 2, 0⟩ : St Nat) 2 0 = .ok (⟨[10, 11, 12], 1, 0⟩, [12, 10], true) := by decide
example : readReverseCheckCrossed 32 (⟨[10, 11, 12], 0, 0⟩ : St Nat) 1 1 = .ok (⟨[10, 11, 12], 2, 0⟩, [10], false) := by decide
example : writeCheckCrossed (fun d _ => d) (⟨[10, 11, 12], 2, 1⟩ : St Nat) [5] 2 = .ok (⟨[10, 5, 12], 2, 2⟩, true) := by decide

/-- `clear()` zeroes every element and moves no position; `wr_pos(p)`/`rd_pos(p)` set the positions. -/
theorem C14_clear_and_positions (zero : T) (s : St T) (p : Nat) (b : List T) (off : Nat) :
    (clear zero s).buf = List.replicate s.buf.length zero ∧ (clear zero s).rd = s.rd ∧ (clear zero s).wr = s.wr ∧
    setRdPos s p = ⟨s.buf, p, s.wr⟩ ∧ setWrPos s p = ⟨s.buf, s.rd, p⟩ ∧ init b off = ⟨b, 0, off⟩ := by
  refine ⟨?_, rfl, rfl, rfl, rfl, rfl⟩
  simp [clear, List.map_const']

end CircAccess

namespace CircBlock

/-- **C17 (partial)**: for one-byte elements, and blocks no longer than SIZE = 2^k, `write(block, start)` stores
`block[i]` at `(start + i) mod SIZE` and leaves the other elements alone.  Missing: wider elements (next theorem). -/
theorem C17_write_bytes_partial (k : Nat) (data block : List Byte) (start : Nat) (hd : data.length = 2 ^ k)
    (hb : block.length ≤ 2 ^ k) :
    ∃ out, write (2 ^ k) 1 data block start = .ok out ∧ out.length = 2 ^ k ∧
      (∀ (i : Nat) b, block[i]? = some b → out[(start + i) % 2 ^ k]? = some b) ∧
      (∀ p, p < 2 ^ k → (∀ i, i < block.length → (start + i) % 2 ^ k ≠ p) → out[p]? = data[p]?) := by
  unfold write
  simp only [Nat.div_one, Nat.mul_one, and_mask]
  have hpos := Nat.two_pow_pos k
  generalize 2 ^ k = N at hpos hd hb ⊢
  have hoff : start % N < N := Nat.mod_lt _ hpos
  have hst : ∀ i, (start + i) % N = (start % N + i) % N := fun i => by simp
  obtain ⟨o, ho⟩ : ∃ o, start % N = o := ⟨_, rfl⟩
  rw [ho] at hoff
  simp only [hst, ho]
  split
  · next hc =>
    obtain ⟨out, hout⟩ : ∃ out, memcpy data o block block.length = .ok out := ⟨_, memcpy_ok (by omega) (by omega)⟩
    have hg := fun j => memcpy_getElem? hout j
    refine ⟨out, hout, by rw [(hg 0).1, hd], ?_, ?_⟩
    · intro i b hib
      have hi := (List.getElem?_eq_some_iff.mp hib).1
      rw [Nat.mod_eq_of_lt (by omega), (hg _).2, if_pos (by omega)]
      simpa using hib
    · intro p hp hne
      rw [(hg p).2, if_neg]
      rintro ⟨h1, h2⟩
      exact hne (p - o) (by omega) (by rw [Nat.mod_eq_of_lt (by omega)]; omega)
  · next hc =>
    obtain ⟨m1, hm1⟩ : ∃ out, memcpy data o block (N - o) = .ok out := ⟨_, memcpy_ok (by omega) (by omega)⟩
    have hg1 := fun j => memcpy_getElem? hm1 j
    have hl1 : m1.length = N := by rw [(hg1 0).1, hd]
    obtain ⟨out, hout⟩ : ∃ out, memcpy m1 0 (block.drop (N - o)) (block.length - (N - o)) = .ok out :=
      ⟨_, memcpy_ok (by omega) (by simp)⟩
    have hg := fun j => memcpy_getElem? hout j
    refine ⟨out, by rw [hm1]; simpa using hout, by rw [(hg 0).1, hl1], ?_, ?_⟩
    · intro i b hib
      have hi := (List.getElem?_eq_some_iff.mp hib).1
      by_cases hw : o + i < N
      · rw [Nat.mod_eq_of_lt hw, (hg _).2, if_neg (by omega), (hg1 _).2, if_pos (by omega)]
        simpa using hib
      · rw [Nat.mod_eq_sub_mod (by omega), Nat.mod_eq_of_lt (by omega), (hg _).2, if_pos (by omega), List.getElem?_drop,
          show N - o + (o + i - N - 0) = i by omega]
        exact hib
    · intro p hp hne
      rw [(hg p).2, if_neg, (hg1 p).2, if_neg]
      · rintro ⟨h1, h2⟩
        exact hne (p - o) (by omega) (by rw [Nat.mod_eq_of_lt (by omega)]; omega)
      · rintro ⟨h1, h2⟩
        exact hne (p + (N - o)) (by omega) (by rw [Nat.mod_eq_sub_mod (by omega), Nat.mod_eq_of_lt (by omega)]; omega)

/-- **C17**, exactly what happens for elements of any width: of a block of n elements, a of which fit before the end of the buffer, the first a *bytes* are written from the start position on and n - a bytes, starting with the first of element
a, are written to the beginning of the buffer. All other bytes keep their values. -/
theorem C17_write_wide_exact (k sz n : Nat) (data block : List Byte) (start : Nat) (hsz : 0 < sz) (hd : data.length = 2 ^ k * sz)
    (hb : block.length = n * sz) (hn : n ≤ 2 ^ k) :
    ∃ out, write (2 ^ k) sz data block start = .ok out ∧ out.length = data.length ∧
      ∀ j, out[j]? = if start % 2 ^ k * sz ≤ j ∧ j < start % 2 ^ k * sz + min n (2 ^ k - start % 2 ^ k) then block[j - start % 2 ^ k * sz]?
        else if j < n - min n (2 ^ k - start % 2 ^ k) then block[min n (2 ^ k - start % 2 ^ k) * sz + j]? else data[j]? := by
  unfold write
  have hpos := Nat.two_pow_pos k
  simp only [and_mask, hb, Nat.mul_div_cancel n hsz]
  generalize 2 ^ k = N at *
  have hoff : start % N < N := Nat.mod_lt _ hpos
  generalize start % N = o at *
  have l1 : n ≤ n * sz := Nat.le_mul_of_pos_right n hsz
  have l2 : o + 1 ≤ N := hoff
  have l3 : (o + (N - o)) * sz = o * sz + (N - o) * sz := Nat.add_mul _ _ _
  rw [show o + (N - o) = N by omega] at l3
  have l4 : N - o ≤ (N - o) * sz := Nat.le_mul_of_pos_right _ hsz
  have l5 : o ≤ o * sz := Nat.le_mul_of_pos_right o hsz
  split
  · next hc =>
    obtain ⟨out, hout⟩ : ∃ out, memcpy data (o * sz) block n = .ok out := ⟨_, memcpy_ok (by omega) (by omega)⟩
    have hg := fun j => memcpy_getElem? hout j
    refine ⟨out, hout, (hg 0).1, fun j => ?_⟩
    rw [(hg j).2, show min n (N - o) = n by omega, Nat.sub_self]
    split
    · rfl
    · rw [if_neg (by omega)]
  · next hc =>
    obtain ⟨m1, hm1⟩ : ∃ out, memcpy data (o * sz) block (N - o) = .ok out := ⟨_, memcpy_ok (by omega) (by omega)⟩
    have hg1 := fun j => memcpy_getElem? hm1 j
    have l6 : (N - o + (n - (N - o))) * sz = (N - o) * sz + (n - (N - o)) * sz := Nat.add_mul _ _ _
    rw [show N - o + (n - (N - o)) = n by omega] at l6
    have l7 : n - (N - o) ≤ (n - (N - o)) * sz := Nat.le_mul_of_pos_right _ hsz
    obtain ⟨out, hout⟩ : ∃ out, memcpy m1 0 (block.drop ((N - o) * sz)) (n - (N - o)) = .ok out :=
      ⟨_, memcpy_ok (by rw [(hg1 0).1]; omega) (by rw [List.length_drop]; omega)⟩
    have hg := fun j => memcpy_getElem? hout j
    refine ⟨out, by rw [hm1, R.bind_ok, hout], by rw [(hg 0).1, (hg1 0).1], fun j => ?_⟩
    rw [(hg j).2, (hg1 j).2, show min n (N - o) = N - o by omega]
    by_cases h1 : o * sz ≤ j ∧ j < o * sz + (N - o)
    · rw [if_neg (by omega), if_pos h1, if_pos h1]
    · rw [if_neg h1, if_neg h1]
      by_cases h2 : j < n - (N - o)
      · rw [if_pos (by omega), if_pos h2, List.getElem?_drop, Nat.sub_zero]
      · rw [if_neg (by omega), if_neg h2]

/-- **C17 is violated** for all wider elements: the last byte of the last element of a block is never written. -/
theorem C17_write_wide_violated (k sz n : Nat) (data block : List Byte) (start : Nat) (hsz : 2 ≤ sz) (hd : data.length = 2 ^ k * sz) (hb : block.length = n * sz) (hn0 : 0 < n) (hn : n ≤ 2 ^ k) :
    ∃ out, write (2 ^ k) sz data block start = .ok out ∧ out[(start + (n - 1)) % 2 ^ k * sz + (sz - 1)]? = data[(start + (n - 1)) % 2 ^ k * sz + (sz - 1)]? := by
  obtain ⟨out, h1, _, h3⟩ := C17_write_wide_exact k sz n data block start (by omega) hd hb hn
  refine ⟨out, h1, ?_⟩
  rw [h3, ← Nat.mod_add_mod start (2 ^ k) (n - 1)]
  have hpos := Nat.two_pow_pos k
  generalize 2 ^ k = N at *
  have hoff : start % N < N := Nat.mod_lt _ hpos
  generalize start % N = o at *
  by_cases hw : o + (n - 1) < N
  · rw [Nat.mod_eq_of_lt hw, show min n (N - o) = n by omega, Nat.sub_self, Nat.add_mul]
    have : (n - 1) * 2 ≤ (n - 1) * sz := Nat.mul_le_mul_left _ hsz
    rw [if_neg (by omega), if_neg (by omega)]
  · rw [Nat.mod_eq_sub_mod (by omega), Nat.mod_eq_of_lt (by omega), show min n (N - o) = N - o by omega]
    have e1 : (o + (n - 1) - N) * 2 ≤ (o + (n - 1) - N) * sz := Nat.mul_le_mul_left _ hsz
    have e2 : (o + (n - 1) - N + 1) * sz ≤ o * sz := Nat.mul_le_mul_right sz (by omega)
    rw [Nat.add_mul, Nat.one_mul] at e2
    rw [if_neg (by omega), if_neg (by omega)]

example : ∃ out, write 4 2 (List.replicate 8 0) [1, 2, 3, 4] 0 = .ok out ∧ elemBytes 2 out 1 ≠ elemBytes 2 [1, 2, 3, 4] 1 ∧ elemBytes 2 out 1 = [0, 0] :=
  ⟨_, rfl, by decide, by decide⟩

example : write 4 1 [0, 0, 0, 0] [1, 2, 3] 7 = .ok [2, 3, 0, 1] := by decide

end CircBlock
