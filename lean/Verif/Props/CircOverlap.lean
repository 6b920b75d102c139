import Verif.Lemmas.CircOverlap
/-! # Property C207: reading into, and writing from, the buffer's own memory -/

namespace CircAccess
open Spec

variable {T : Type}

/-- **C207, read, exactly.** `read` into the part of the buffer's own memory that begins at index `b`: always defined; which element of the source arrives at which place, the position afterwards, and the answer. -/
theorem C207_read_exact (s : St T) (b n : Nat) (hp : s.rd < s.buf.length) (hb : b + n ≤ s.buf.length) :
    ∃ s', readInto s b n false = .ok (s', decide (s.buf.length ≤ s.rd + n)) ∧ Copied (fwd s.buf.length s.rd) (b + ·) (repeated ((b + s.buf.length - s.rd) % s.buf.length)) n s.buf s'.buf ∧ s'.rd = fwd s.buf.length s.rd n ∧ s'.wr = s.wr := by
  have ho : ∀ i, i < n → _ := fun i hi => org_read (i := i) hp hb hi
  have hsl : ∀ i, i < n → (fwd s.buf.length s.rd) ((repeated ((b + s.buf.length - s.rd) % s.buf.length)) i) < s.buf.length := fun i _ => Nat.mod_lt _ (by omega)
  have hV := good_copied (src := (fwd s.buf.length s.rd)) (dst := (b + ·)) (org := (repeated ((b + s.buf.length - s.rd) % s.buf.length))) (orig := s.buf) (fun i hi => (show b + i < s.buf.length by omega)) hsl ho
  obtain ⟨s', h1, h2, h3, h4⟩ := readInto_inv hp (by omega) rfl hV (fun j k _ _ e => Nat.add_left_cancel e) n 0 s false (by omega)
    (by rw [fwd_eq hp (by omega)]; simp [hp]) (by simp [hp]) (Inv.zero _ _ _)
  exact ⟨s', h1, copied_of hsl h2, h3, h4⟩

/-- **C207, read, when it is a copy.** The elements that arrive are those that were there before the call, whatever the contents, if and only if the destination does not begin inside the source, behind its first element. -/
theorem C207_read_when (x y : T) (hxy : x ≠ y) (sz p q b n : Nat) (hp : p < sz) (hb : b + n ≤ sz) :
    (∀ (buf : List T) (r : St T × Bool), buf.length = sz → readInto ⟨buf, p, q⟩ b n false = .ok r → Snapshot (fun d _ => d) (fwd sz p) (b + ·) n buf r.1.buf) ↔ ((b + sz - p) % sz) = 0 ∨ n ≤ ((b + sz - p) % sz) := by
  rw [← repeated_all, ← when (src := (fwd sz p)) (dst := (b + ·)) (org := (repeated ((b + sz - p) % sz))) (sz := sz) x y hxy (fun _ => (repeated_le _ _)) (fun i _ => Nat.mod_lt _ (by omega)) (fun i hi => (show b + i < sz by omega)) (fwd_inj hp (by omega)) (fun j k _ _ e => Nat.add_left_cancel e)]
  constructor
  · intro h orig res hl hc
    subst hl
    obtain ⟨s', h1, h2, _⟩ := C207_read_exact (⟨orig, p, q⟩ : St T) b n hp hb
    rw [copied_unique hc h2]
    exact h orig _ rfl h1
  · intro h buf r hl hr
    subst hl
    obtain ⟨s', h1, h2, _⟩ := C207_read_exact (⟨buf, p, q⟩ : St T) b n hp hb
    rw [hr] at h1
    cases h1
    exact h buf _ rfl h2

/-- Eight places, reading from 6 into 0..4: the first two repeat. -/
example : readInto ⟨[0, 1, 2, 3, 4, 5, 6, 7], 6, 0⟩ 0 5 false = .ok (⟨[6, 7, 6, 7, 6, 5, 6, 7], 3, 0⟩, true) := by decide

/-- Reading from 3 into 0..4 is a copy. -/
example : readInto ⟨[0, 1, 2, 3, 4, 5, 6, 7], 3, 0⟩ 0 5 false = .ok (⟨[3, 4, 5, 6, 7, 5, 6, 7], 0, 0⟩, true) ∧ (0 + 8 - 3) % 8 = 5 := by decide

/-- **C207, read reverse, exactly.** `read_reverse` into the same: always defined; which element of the source arrives at which place, the position afterwards, and the answer. -/
theorem C207_read_reverse_exact (bits : Nat) (s : St T) (b n : Nat) (hs : s.buf.length < 2 ^ bits) (hp : s.rd < s.buf.length) (hb : b + n ≤ s.buf.length) :
    ∃ s', readReverseInto bits s b n false = .ok (s', decide (s.rd < n)) ∧ Copied (bwd s.buf.length s.rd) (b + ·) (mirrored s.buf.length ((s.rd + s.buf.length - b) % s.buf.length)) n s.buf s'.buf ∧ s'.rd = bwd s.buf.length s.rd n ∧ s'.wr = s.wr := by
  have ho : ∀ i, i < n → _ := fun i hi => org_read_reverse (i := i) hp hb hi
  have hsl : ∀ i, i < n → (bwd s.buf.length s.rd) ((mirrored s.buf.length ((s.rd + s.buf.length - b) % s.buf.length)) i) < s.buf.length := fun i _ => Nat.mod_lt _ (by omega)
  have hV := good_copied (src := (bwd s.buf.length s.rd)) (dst := (b + ·)) (org := (mirrored s.buf.length ((s.rd + s.buf.length - b) % s.buf.length))) (orig := s.buf) (fun i hi => (show b + i < s.buf.length by omega)) hsl ho
  obtain ⟨s', h1, h2, h3, h4⟩ := readReverseInto_inv (hs := hs) hp (by omega) rfl hV (fun j k _ _ e => Nat.add_left_cancel e) n 0 s false (by omega)
    (by rw [bwd_eq hp (by omega)]; simp [hp]) (by simp [hp]) (Inv.zero _ _ _)
  exact ⟨s', h1, copied_of hsl h2, h3, h4⟩

/-- **C207, read reverse, when it is a copy.** The elements that arrive are those that were there before the call, whatever the contents, if and only if the two meet in neither direction before the end. -/
theorem C207_read_reverse_when (bits : Nat) (x y : T) (hxy : x ≠ y) (sz p q b n : Nat) (hs : sz < 2 ^ bits) (hp : p < sz) (hb : b + n ≤ sz) :
    (∀ (buf : List T) (r : St T × Bool), buf.length = sz → readReverseInto bits ⟨buf, p, q⟩ b n false = .ok r → Snapshot (fun d _ => d) (bwd sz p) (b + ·) n buf r.1.buf) ↔ n ≤ (if ((p + sz - b) % sz) = 0 then sz else ((p + sz - b) % sz)) / 2 + 1 := by
  rw [← (mirrored_all (Nat.mod_lt _ (by omega)) (by omega)), ← when (src := (bwd sz p)) (dst := (b + ·)) (org := (mirrored sz ((p + sz - b) % sz))) (sz := sz) x y hxy (fun _ => (mirrored_le _ _ _)) (fun i _ => Nat.mod_lt _ (by omega)) (fun i hi => (show b + i < sz by omega)) (bwd_inj hp (by omega)) (fun j k _ _ e => Nat.add_left_cancel e)]
  constructor
  · intro h orig res hl hc
    subst hl
    obtain ⟨s', h1, h2, _⟩ := C207_read_reverse_exact bits (⟨orig, p, q⟩ : St T) b n hs hp hb
    rw [copied_unique hc h2]
    exact h orig _ rfl h1
  · intro h buf r hl hr
    subst hl
    obtain ⟨s', h1, h2, _⟩ := C207_read_reverse_exact bits (⟨buf, p, q⟩ : St T) b n hs hp hb
    rw [hr] at h1
    cases h1
    exact h buf _ rfl h2

/-- Reading backward from 3 into 0..3 turns the first half over and keeps the second. -/
example : readReverseInto 32 ⟨[0, 1, 2, 3, 4, 5, 6, 7], 3, 0⟩ 0 4 false = .ok (⟨[3, 2, 2, 3, 4, 5, 6, 7], 7, 0⟩, true) := by decide

example : readReverseInto 32 ⟨[0, 1, 2, 3, 4, 5, 6, 7], 7, 0⟩ 0 4 false = .ok (⟨[7, 6, 5, 4, 4, 5, 6, 7], 3, 0⟩, false) ∧ 4 ≤ (if (7 + 8 - 0) % 8 = 0 then 8 else (7 + 8 - 0) % 8) / 2 + 1 := by decide

/-- **C207, write, exactly.** `write` (phase 1, so that `mix d old` is `d`) of the part of the buffer's own memory that begins at index `a`: always defined; which element of the source arrives at which place, the position afterwards, and the answer. -/
theorem C207_write_exact (s : St T) (a n : Nat) (hp : s.wr < s.buf.length) (ha : a + n ≤ s.buf.length) :
    ∃ s', writeFrom (fun d _ => d) s a n false = .ok (s', decide (s.buf.length ≤ s.wr + n)) ∧ Copied (a + ·) (fwd s.buf.length s.wr) (repeated ((s.wr + s.buf.length - a) % s.buf.length)) n s.buf s'.buf ∧ s'.wr = fwd s.buf.length s.wr n ∧ s'.rd = s.rd := by
  have ho : ∀ i, i < n → _ := fun i hi => org_write (i := i) hp ha hi
  have hsl : ∀ i, i < n → (a + ·) ((repeated ((s.wr + s.buf.length - a) % s.buf.length)) i) < s.buf.length := fun i hi => (show a + (repeated ((s.wr + s.buf.length - a) % s.buf.length)) i < s.buf.length by have : (repeated ((s.wr + s.buf.length - a) % s.buf.length)) i ≤ i := (repeated_le _ _); omega)
  have hV := good_copied (src := (a + ·)) (dst := (fwd s.buf.length s.wr)) (org := (repeated ((s.wr + s.buf.length - a) % s.buf.length))) (orig := s.buf) (fun i _ => Nat.mod_lt _ (by omega)) hsl ho
  obtain ⟨s', h1, h2, h3, h4⟩ := writeFrom_inv hp (by omega) rfl hV (fwd_inj hp (by omega)) n 0 s false (by omega)
    (by rw [fwd_eq hp (by omega)]; simp [hp]) (by simp [hp]) (Inv.zero _ _ _)
  exact ⟨s', h1, copied_of hsl h2, h3, h4⟩

/-- **C207, write, when it is a copy.** The elements that arrive are those that were there before the call, whatever the contents, if and only if the destination does not begin inside the source, behind its first element. -/
theorem C207_write_when (x y : T) (hxy : x ≠ y) (sz p q a n : Nat) (hp : p < sz) (ha : a + n ≤ sz) :
    (∀ (buf : List T) (r : St T × Bool), buf.length = sz → writeFrom (fun d _ => d) ⟨buf, q, p⟩ a n false = .ok r → Snapshot (fun d _ => d) (a + ·) (fwd sz p) n buf r.1.buf) ↔ ((p + sz - a) % sz) = 0 ∨ n ≤ ((p + sz - a) % sz) := by
  rw [← repeated_all, ← when (src := (a + ·)) (dst := (fwd sz p)) (org := (repeated ((p + sz - a) % sz))) (sz := sz) x y hxy (fun _ => (repeated_le _ _)) (fun i hi => (show a + i < sz by omega)) (fun i _ => Nat.mod_lt _ (by omega)) (fun j k _ _ e => Nat.add_left_cancel e) (fwd_inj hp (by omega))]
  constructor
  · intro h orig res hl hc
    subst hl
    obtain ⟨s', h1, h2, _⟩ := C207_write_exact (⟨orig, q, p⟩ : St T) a n hp ha
    rw [copied_unique hc h2]
    exact h orig _ rfl h1
  · intro h buf r hl hr
    subst hl
    obtain ⟨s', h1, h2, _⟩ := C207_write_exact (⟨buf, q, p⟩ : St T) a n hp ha
    rw [hr] at h1
    cases h1
    exact h buf _ rfl h2

/-- **C207, write (partial), with any blend.** In those cases each place gets the blend of what was at the source and at that place before the call. Missing: the cases of `C207_write_when` in which the call is not a copy. -/
theorem C207_write_blend_partial (mix : T → T → T) (s : St T) (a n : Nat) (hp : s.wr < s.buf.length) (ha : a + n ≤ s.buf.length) (hc : ((s.wr + s.buf.length - a) % s.buf.length) = 0 ∨ n ≤ ((s.wr + s.buf.length - a) % s.buf.length)) :
    ∃ s', writeFrom mix s a n false = .ok (s', decide (s.buf.length ≤ s.wr + n)) ∧ Snapshot mix (a + ·) (fwd s.buf.length s.wr) n s.buf s'.buf ∧ s'.wr = fwd s.buf.length s.wr n ∧ s'.rd = s.rd := by
  have ho : ∀ i, i < n → _ := fun i hi => org_write (i := i) hp ha hi
  have hz := no_hazard (fun _ => (repeated_le _ _)) ho (repeated_all.mpr hc)
  have hV := good_snapshot (mix := mix) (src := (a + ·)) (dst := (fwd s.buf.length s.wr)) (orig := s.buf) (fun i _ => Nat.mod_lt _ (by omega)) (fun i hi => (show a + i < s.buf.length by omega)) hz
  obtain ⟨s', h1, h2, h3, h4⟩ := writeFrom_inv hp (by omega) rfl hV (fwd_inj hp (by omega)) n 0 s false (by omega)
    (by rw [fwd_eq hp (by omega)]; simp [hp]) (by simp [hp]) (Inv.zero _ _ _)
  exact ⟨s', h1, snapshot_of (fun i _ => Nat.mod_lt _ (by omega)) (fun i hi => (show a + i < s.buf.length by omega)) h2, h3, h4⟩

/-- Writing 0..3 at 1 fills with the first. -/
example : writeFrom (fun d _ => d) ⟨[0, 1, 2, 3, 4, 5, 6, 7], 0, 1⟩ 0 4 false = .ok (⟨[0, 0, 0, 0, 0, 5, 6, 7], 0, 5⟩, false) := by decide

/-- A blend that adds, writing 1..3 at 6. -/
example : writeFrom (· + ·) ⟨[0, 1, 2, 3, 4, 5, 6, 7], 0, 6⟩ 1 3 false = .ok (⟨[3, 1, 2, 3, 4, 5, 7, 9], 0, 1⟩, true) ∧ 3 ≤ (6 + 8 - 1) % 8 := by decide

/-- **C207, write reverse, exactly.** `write_reverse` of the same: always defined; which element of the source arrives at which place, the position afterwards, and the answer. -/
theorem C207_write_reverse_exact (bits : Nat) (s : St T) (a n : Nat) (hs : s.buf.length < 2 ^ bits) (hp : s.wr < s.buf.length) (ha : a + n ≤ s.buf.length) :
    ∃ s', writeReverseFrom bits (fun d _ => d) s a n false = .ok (s', decide (s.wr < n)) ∧ Copied (a + ·) (bwd s.buf.length s.wr) (mirrored s.buf.length ((s.wr + s.buf.length - a) % s.buf.length)) n s.buf s'.buf ∧ s'.wr = bwd s.buf.length s.wr n ∧ s'.rd = s.rd := by
  have ho : ∀ i, i < n → _ := fun i hi => org_write_reverse (i := i) hp ha hi
  have hsl : ∀ i, i < n → (a + ·) ((mirrored s.buf.length ((s.wr + s.buf.length - a) % s.buf.length)) i) < s.buf.length := fun i hi => (show a + (mirrored s.buf.length ((s.wr + s.buf.length - a) % s.buf.length)) i < s.buf.length by have : (mirrored s.buf.length ((s.wr + s.buf.length - a) % s.buf.length)) i ≤ i := (mirrored_le _ _ _); omega)
  have hV := good_copied (src := (a + ·)) (dst := (bwd s.buf.length s.wr)) (org := (mirrored s.buf.length ((s.wr + s.buf.length - a) % s.buf.length))) (orig := s.buf) (fun i _ => Nat.mod_lt _ (by omega)) hsl ho
  obtain ⟨s', h1, h2, h3, h4⟩ := writeReverseFrom_inv (hs := hs) hp (by omega) rfl hV (bwd_inj hp (by omega)) n 0 s false (by omega)
    (by rw [bwd_eq hp (by omega)]; simp [hp]) (by simp [hp]) (Inv.zero _ _ _)
  exact ⟨s', h1, copied_of hsl h2, h3, h4⟩

/-- **C207, write reverse, when it is a copy.** The elements that arrive are those that were there before the call, whatever the contents, if and only if the two meet in neither direction before the end. -/
theorem C207_write_reverse_when (bits : Nat) (x y : T) (hxy : x ≠ y) (sz p q a n : Nat) (hs : sz < 2 ^ bits) (hp : p < sz) (ha : a + n ≤ sz) :
    (∀ (buf : List T) (r : St T × Bool), buf.length = sz → writeReverseFrom bits (fun d _ => d) ⟨buf, q, p⟩ a n false = .ok r → Snapshot (fun d _ => d) (a + ·) (bwd sz p) n buf r.1.buf) ↔ n ≤ (if ((p + sz - a) % sz) = 0 then sz else ((p + sz - a) % sz)) / 2 + 1 := by
  rw [← (mirrored_all (Nat.mod_lt _ (by omega)) (by omega)), ← when (src := (a + ·)) (dst := (bwd sz p)) (org := (mirrored sz ((p + sz - a) % sz))) (sz := sz) x y hxy (fun _ => (mirrored_le _ _ _)) (fun i hi => (show a + i < sz by omega)) (fun i _ => Nat.mod_lt _ (by omega)) (fun j k _ _ e => Nat.add_left_cancel e) (bwd_inj hp (by omega))]
  constructor
  · intro h orig res hl hc
    subst hl
    obtain ⟨s', h1, h2, _⟩ := C207_write_reverse_exact bits (⟨orig, q, p⟩ : St T) a n hs hp ha
    rw [copied_unique hc h2]
    exact h orig _ rfl h1
  · intro h buf r hl hr
    subst hl
    obtain ⟨s', h1, h2, _⟩ := C207_write_reverse_exact bits (⟨buf, q, p⟩ : St T) a n hs hp ha
    rw [hr] at h1
    cases h1
    exact h buf _ rfl h2

/-- **C207, write reverse (partial), with any blend.** In those cases each place gets the blend of what was at the source and at that place before the call. Missing: the cases of `C207_write_reverse_when` in which the call is not a copy. -/
theorem C207_write_reverse_blend_partial (bits : Nat) (mix : T → T → T) (s : St T) (a n : Nat) (hs : s.buf.length < 2 ^ bits) (hp : s.wr < s.buf.length) (ha : a + n ≤ s.buf.length) (hc : n ≤ (if ((s.wr + s.buf.length - a) % s.buf.length) = 0 then s.buf.length else ((s.wr + s.buf.length - a) % s.buf.length)) / 2 + 1) :
    ∃ s', writeReverseFrom bits mix s a n false = .ok (s', decide (s.wr < n)) ∧ Snapshot mix (a + ·) (bwd s.buf.length s.wr) n s.buf s'.buf ∧ s'.wr = bwd s.buf.length s.wr n ∧ s'.rd = s.rd := by
  have ho : ∀ i, i < n → _ := fun i hi => org_write_reverse (i := i) hp ha hi
  have hz := no_hazard (fun _ => (mirrored_le _ _ _)) ho ((mirrored_all (Nat.mod_lt _ (by omega)) (by omega)).mpr hc)
  have hV := good_snapshot (mix := mix) (src := (a + ·)) (dst := (bwd s.buf.length s.wr)) (orig := s.buf) (fun i _ => Nat.mod_lt _ (by omega)) (fun i hi => (show a + i < s.buf.length by omega)) hz
  obtain ⟨s', h1, h2, h3, h4⟩ := writeReverseFrom_inv (hs := hs) hp (by omega) rfl hV (bwd_inj hp (by omega)) n 0 s false (by omega)
    (by rw [bwd_eq hp (by omega)]; simp [hp]) (by simp [hp]) (Inv.zero _ _ _)
  exact ⟨s', h1, snapshot_of (fun i _ => Nat.mod_lt _ (by omega)) (fun i hi => (show a + i < s.buf.length by omega)) h2, h3, h4⟩

/-- Writing 0..3 backward from 3. -/
example : writeReverseFrom 32 (fun d _ => d) ⟨[0, 1, 2, 3, 4, 5, 6, 7], 0, 3⟩ 0 4 false = .ok (⟨[0, 1, 1, 0, 4, 5, 6, 7], 0, 7⟩, true) := by decide

example : writeReverseFrom 32 (· + ·) ⟨[0, 1, 2, 3, 4, 5, 6, 7], 0, 7⟩ 0 3 false = .ok (⟨[0, 1, 2, 3, 4, 7, 7, 7], 0, 4⟩, false) ∧ 3 ≤ (if (7 + 8 - 0) % 8 = 0 then 8 else (7 + 8 - 0) % 8) / 2 + 1 := by decide

/-- **C207 (the property is false here).** In every buffer of at least three places, writing the first two places at the second one does not copy them: the second of them is lost. -/
theorem C207_write_violated (x y z : T) (l : List T) : ∃ s', writeFrom (fun d _ => d) ⟨x :: y :: z :: l, 0, 1⟩ 0 2 false = .ok s' ∧ s'.1.buf = x :: x :: x :: l := by
  refine ⟨(⟨x :: x :: x :: l, 0, if 3 ≥ l.length + 3 then 0 else 3⟩, if 3 ≥ l.length + 3 then true else false), ?_, rfl⟩
  cases l with
  | nil => rfl
  | cons a l =>
    simp only [writeFrom, arrGet, arrSet, List.getElem?_cons_zero, List.getElem?_cons_succ, R.bind_ok, List.length_cons, List.set_cons_succ, List.set_cons_zero]
    simp [R.bind_ok, R.pure_eq]

end CircAccess
