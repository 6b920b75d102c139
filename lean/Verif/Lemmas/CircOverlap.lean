import Verif.Model.CircOverlap
import Verif.Lemmas.CircAccess
import Verif.Spec.CircOverlap
/-! # Lemmas for C207 -/

namespace CircAccess
open Spec

variable {T : Type}

/-- `V i` is what the `i`-th step puts. -/
def Good (mix : T → T → T) (src dst : Nat → Nat) (n : Nat) (orig : List T) (V : Nat → Option T) : Prop :=
  ∀ i, i < n → ∃ d o, orig[dst i]? = some o ∧ V i = some (mix d o) ∧
    ((∃ k, k < i ∧ dst k = src i ∧ V k = some d) ∨ ((∀ k, k < i → dst k ≠ src i) ∧ orig[src i]? = some d))

/-- After `i` steps. -/
def Inv (dst : Nat → Nat) (orig : List T) (V : Nat → Option T) (i : Nat) (buf : List T) : Prop :=
  buf.length = orig.length ∧ (∀ j, j < i → buf[dst j]? = V j) ∧ ∀ x, (∀ j, j < i → dst j ≠ x) → buf[x]? = orig[x]?

theorem Inv.zero (dst : Nat → Nat) (orig : List T) (V : Nat → Option T) : Inv dst orig V 0 orig :=
  ⟨rfl, fun _ h => absurd h (Nat.not_lt_zero _), fun _ _ => rfl⟩

theorem Inv.step {mix : T → T → T} {src dst : Nat → Nat} {n : Nat} {orig : List T} {V : Nat → Option T} (hV : Good mix src dst n orig V)
    (hinj : ∀ j k, j < n → k < n → dst j = dst k → j = k) {i : Nat} (hi : i < n) {buf : List T} (h : Inv dst orig V i buf) :
    ∃ d o, buf[src i]? = some d ∧ buf[dst i]? = some o ∧ dst i < buf.length ∧ Inv dst orig V (i + 1) (buf.set (dst i) (mix d o)) := by
  obtain ⟨d, o, ho, hv, hd⟩ := hV i hi
  obtain ⟨hl, h1, h2⟩ := h
  have hold : buf[dst i]? = some o := by
    rw [h2 _ fun j hj e => absurd (hinj j i (by omega) hi e) (by omega), ho]
  have hsrc : buf[src i]? = some d := by
    rcases hd with ⟨k, hk, e, hvk⟩ | ⟨hno, e⟩
    · rw [← e, h1 k hk, hvk]
    · rw [h2 _ hno, e]
  have hlt : dst i < buf.length := by
    rcases Nat.lt_or_ge (dst i) buf.length with h | h
    · exact h
    · rw [List.getElem?_eq_none h] at hold; cases hold
  refine ⟨d, o, hsrc, hold, hlt, by rw [List.length_set, hl], ?_, ?_⟩
  · intro j hj
    by_cases e : j = i
    · subst e
      rw [List.getElem?_set_self hlt, hv]
    · rw [List.getElem?_set_ne (fun e' => e (hinj i j hi (by omega) e').symm), h1 j (by omega)]
  · intro x hx
    rw [List.getElem?_set_ne (hx i (by omega)), h2 x fun j hj => hx j (by omega)]

theorem arrGet_of {l : List T} {x : Nat} {d : T} (h : l[x]? = some d) : arrGet l x = .ok d := by
  unfold arrGet; rw [h]

theorem arrSet_of {l : List T} {x : Nat} {d : T} (h : x < l.length) : arrSet l x d = .ok (l.set x d) := by
  unfold arrSet; rw [if_pos h]

theorem fwd_lt {sz : Nat} (p i : Nat) (h : 0 < sz) : fwd sz p i < sz := Nat.mod_lt _ h

theorem fwd_self {sz p i : Nat} (h : p + i < sz) : fwd sz p i = p + i := Nat.mod_eq_of_lt h

theorem bwd_eq {sz p i : Nat} (hp : p < sz) (hi : i ≤ sz) : bwd sz p i = if i ≤ p then p - i else p + sz - i := by
  unfold bwd
  split
  · rw [show p + (sz - i) = (p - i) + sz from by omega, Nat.add_mod_right, Nat.mod_eq_of_lt (by omega)]
  · rw [Nat.mod_eq_of_lt (by omega)]; omega

theorem fwd_eq {sz p i : Nat} (hp : p < sz) (hi : i ≤ sz) : fwd sz p i = if p + i < sz then p + i else p + i - sz := by
  unfold fwd
  split
  · exact Nat.mod_eq_of_lt (by omega)
  · rw [Nat.mod_eq_sub_mod (by omega), Nat.mod_eq_of_lt (by omega)]

theorem wrap_fwd {sz p i : Nat} (hp : p < sz) (hi : i < sz) (w : Bool) (hw : w = decide (sz ≤ p + i)) :
    (if fwd sz p i + 1 ≥ sz then (0, true) else (fwd sz p i + 1, w)) = (fwd sz p (i + 1), decide (sz ≤ p + (i + 1))) := by
  subst hw
  rw [fwd_eq hp (by omega), fwd_eq hp (by omega)]
  split <;> split <;> split <;> simp <;> omega

theorem wrap_bwd {bits sz p i : Nat} (hp : p < sz) (hi : i < sz) (hs : sz < 2 ^ bits) (w : Bool) (hw : w = decide (p < i)) :
    (if dec bits (bwd sz p i) ≥ sz then (sz - 1, true) else (dec bits (bwd sz p i), w)) = (bwd sz p (i + 1), decide (p < i + 1)) := by
  subst hw
  have e := bwd_eq (i := i) hp (by omega)
  rw [bwd_eq (i := i + 1) hp (by omega)]
  generalize bwd sz p i = q at *
  by_cases hq : q = 0
  · subst hq
    rw [dec_zero, if_pos (by omega)]
    split at e <;> split <;> simp <;> omega
  · rw [dec_pos (by omega) (by split at e <;> omega)]
    split at e <;> split <;> split <;> simp <;> omega

theorem readInto_inv {sz p c n : Nat} {orig : List T} {V : Nat → Option T} (hp : p < sz) (hn : n ≤ sz) (hsz : orig.length = sz)
    (hV : Good (fun d _ => d) (fwd sz p) (c + ·) n orig V) (hinj : ∀ j k, j < n → k < n → (c + ·) j = (c + ·) k → j = k) :
    ∀ (m i : Nat) (s : St T) (w : Bool), i + m = n → s.rd = fwd sz p i → w = decide (sz ≤ p + i) → Inv (c + ·) orig V i s.buf →
      ∃ s', readInto s (c + i) m w = .ok (s', decide (sz ≤ p + n)) ∧ Inv (c + ·) orig V n s'.buf ∧ s'.rd = fwd sz p n ∧ s'.wr = s.wr := by
  intro m
  induction m with
  | zero =>
    intro i s w hi hr hw h
    have e : i = n := by omega
    subst e hw
    exact ⟨s, rfl, h, hr, rfl⟩
  | succ m ih =>
    intro i s w hi hr hw h
    obtain ⟨d, o, h1, h2, h3, h4⟩ := Inv.step hV hinj (show i < n by omega) h
    have hl : s.buf.length = sz := by rw [h.1, hsz]
    have hwr := wrap_fwd hp (by omega) w hw
    rw [← hr] at h1 hwr
    rw [readInto, arrGet_of h1, R.bind_ok, arrSet_of h3, R.bind_ok]
    simp only [hl, hwr]
    exact ih (i + 1) { s with buf := s.buf.set (c + i) d, rd := fwd sz p (i + 1) } _ (by omega) rfl rfl h4

theorem readReverseInto_inv {bits : Nat} {sz p c n : Nat} (hs : sz < 2 ^ bits) {orig : List T} {V : Nat → Option T} (hp : p < sz) (hn : n ≤ sz) (hsz : orig.length = sz)
    (hV : Good (fun d _ => d) (bwd sz p) (c + ·) n orig V) (hinj : ∀ j k, j < n → k < n → (c + ·) j = (c + ·) k → j = k) :
    ∀ (m i : Nat) (s : St T) (w : Bool), i + m = n → s.rd = bwd sz p i → w = decide (p < i) → Inv (c + ·) orig V i s.buf →
      ∃ s', readReverseInto bits s (c + i) m w = .ok (s', decide (p < n)) ∧ Inv (c + ·) orig V n s'.buf ∧ s'.rd = bwd sz p n ∧ s'.wr = s.wr := by
  intro m
  induction m with
  | zero =>
    intro i s w hi hr hw h
    have e : i = n := by omega
    subst e hw
    exact ⟨s, rfl, h, hr, rfl⟩
  | succ m ih =>
    intro i s w hi hr hw h
    obtain ⟨d, o, h1, h2, h3, h4⟩ := Inv.step hV hinj (show i < n by omega) h
    have hl : s.buf.length = sz := by rw [h.1, hsz]
    have hwr := wrap_bwd hp (by omega) hs w hw
    rw [← hr] at h1 hwr
    rw [readReverseInto, arrGet_of h1, R.bind_ok, arrSet_of h3, R.bind_ok]
    simp only [hl, hwr]
    exact ih (i + 1) { s with buf := s.buf.set (c + i) d, rd := bwd sz p (i + 1) } _ (by omega) rfl rfl h4

theorem writeFrom_inv {mix : T → T → T} {sz p c n : Nat} {orig : List T} {V : Nat → Option T} (hp : p < sz) (hn : n ≤ sz) (hsz : orig.length = sz)
    (hV : Good mix (c + ·) (fwd sz p) n orig V) (hinj : ∀ j k, j < n → k < n → (fwd sz p) j = (fwd sz p) k → j = k) :
    ∀ (m i : Nat) (s : St T) (w : Bool), i + m = n → s.wr = fwd sz p i → w = decide (sz ≤ p + i) → Inv (fwd sz p) orig V i s.buf →
      ∃ s', writeFrom mix s (c + i) m w = .ok (s', decide (sz ≤ p + n)) ∧ Inv (fwd sz p) orig V n s'.buf ∧ s'.wr = fwd sz p n ∧ s'.rd = s.rd := by
  intro m
  induction m with
  | zero =>
    intro i s w hi hr hw h
    have e : i = n := by omega
    subst e hw
    exact ⟨s, rfl, h, hr, rfl⟩
  | succ m ih =>
    intro i s w hi hr hw h
    obtain ⟨d, o, h1, h2, h3, h4⟩ := Inv.step hV hinj (show i < n by omega) h
    have hl : s.buf.length = sz := by rw [h.1, hsz]
    have hwr := wrap_fwd hp (by omega) w hw
    rw [← hr] at h2 h3 h4 hwr
    rw [writeFrom, arrGet_of h1, R.bind_ok, arrGet_of h2, R.bind_ok, arrSet_of h3, R.bind_ok]
    simp only [hl, hwr]
    exact ih (i + 1) { s with buf := s.buf.set s.wr (mix d o), wr := fwd sz p (i + 1) } _ (by omega) rfl rfl h4

theorem writeReverseFrom_inv {bits : Nat} {mix : T → T → T} {sz p c n : Nat} (hs : sz < 2 ^ bits) {orig : List T} {V : Nat → Option T} (hp : p < sz) (hn : n ≤ sz) (hsz : orig.length = sz)
    (hV : Good mix (c + ·) (bwd sz p) n orig V) (hinj : ∀ j k, j < n → k < n → (bwd sz p) j = (bwd sz p) k → j = k) :
    ∀ (m i : Nat) (s : St T) (w : Bool), i + m = n → s.wr = bwd sz p i → w = decide (p < i) → Inv (bwd sz p) orig V i s.buf →
      ∃ s', writeReverseFrom bits mix s (c + i) m w = .ok (s', decide (p < n)) ∧ Inv (bwd sz p) orig V n s'.buf ∧ s'.wr = bwd sz p n ∧ s'.rd = s.rd := by
  intro m
  induction m with
  | zero =>
    intro i s w hi hr hw h
    have e : i = n := by omega
    subst e hw
    exact ⟨s, rfl, h, hr, rfl⟩
  | succ m ih =>
    intro i s w hi hr hw h
    obtain ⟨d, o, h1, h2, h3, h4⟩ := Inv.step hV hinj (show i < n by omega) h
    have hl : s.buf.length = sz := by rw [h.1, hsz]
    have hwr := wrap_bwd hp (by omega) hs w hw
    rw [← hr] at h2 h3 h4 hwr
    rw [writeReverseFrom, arrGet_of h1, R.bind_ok, arrGet_of h2, R.bind_ok, arrSet_of h3, R.bind_ok]
    simp only [hl, hwr]
    exact ih (i + 1) { s with buf := s.buf.set s.wr (mix d o), wr := bwd sz p (i + 1) } _ (by omega) rfl rfl h4

theorem good_copied {src dst org : Nat → Nat} {n : Nat} {orig : List T} (hd : ∀ i, i < n → dst i < orig.length) (hs : ∀ i, i < n → src (org i) < orig.length)
    (ho : ∀ i, i < n → (∃ k, k < i ∧ dst k = src i ∧ org i = org k) ∨ ((∀ k, k < i → dst k ≠ src i) ∧ org i = i)) :
    Good (fun d _ => d) src dst n orig (fun i => orig[src (org i)]?) := by
  intro i hi
  refine ⟨orig[src (org i)]'(hs i hi), orig[dst i]'(hd i hi), List.getElem?_eq_getElem _, List.getElem?_eq_getElem _, ?_⟩
  rcases ho i hi with ⟨k, hk, e, e2⟩ | ⟨hno, e⟩
  · refine Or.inl ⟨k, hk, e, ?_⟩
    show orig[src (org k)]? = _
    rw [← e2]
    exact List.getElem?_eq_getElem _
  · refine Or.inr ⟨hno, ?_⟩
    have := List.getElem?_eq_getElem (hs i hi)
    rw [← this, e]

theorem copied_of {src dst org : Nat → Nat} {n : Nat} {orig res : List T} (hs : ∀ i, i < n → src (org i) < orig.length)
    (h : Inv dst orig (fun i => orig[src (org i)]?) n res) : Copied src dst org n orig res :=
  ⟨h.1, fun j hj => ⟨orig[src (org j)]'(hs j hj), List.getElem?_eq_getElem _, by rw [h.2.1 j hj]; exact List.getElem?_eq_getElem _⟩, h.2.2⟩

/-- What the `i`-th step puts if nothing is taken from a place overwritten before. -/
def plainV (mix : T → T → T) (src dst : Nat → Nat) (orig : List T) (i : Nat) : Option T :=
  match orig[src i]?, orig[dst i]? with
  | some d, some o => some (mix d o)
  | _, _ => none

theorem good_snapshot {mix : T → T → T} {src dst : Nat → Nat} {n : Nat} {orig : List T} (hd : ∀ i, i < n → dst i < orig.length) (hs : ∀ i, i < n → src i < orig.length)
    (hz : ¬ Hazard src dst n) : Good mix src dst n orig (plainV mix src dst orig) := by
  intro i hi
  refine ⟨orig[src i]'(hs i hi), orig[dst i]'(hd i hi), List.getElem?_eq_getElem _, ?_, Or.inr ⟨fun k hk e => hz ⟨i, k, hk, hi, e⟩, List.getElem?_eq_getElem _⟩⟩
  unfold plainV
  rw [List.getElem?_eq_getElem (hs i hi), List.getElem?_eq_getElem (hd i hi)]

theorem snapshot_of {mix : T → T → T} {src dst : Nat → Nat} {n : Nat} {orig res : List T} (hd : ∀ i, i < n → dst i < orig.length) (hs : ∀ i, i < n → src i < orig.length)
    (h : Inv dst orig (plainV mix src dst orig) n res) : Snapshot mix src dst n orig res := by
  refine ⟨h.1, fun j hj => ⟨orig[src j]'(hs j hj), orig[dst j]'(hd j hj), List.getElem?_eq_getElem _, List.getElem?_eq_getElem _, ?_⟩, h.2.2⟩
  rw [h.2.1 j hj]
  unfold plainV
  rw [List.getElem?_eq_getElem (hs j hj), List.getElem?_eq_getElem (hd j hj)]

theorem dist_eq {sz p b : Nat} (hp : p < sz) (hb : b < sz) : (b + sz - p) % sz = if p ≤ b then b - p else b + sz - p := by
  split
  · rw [show b + sz - p = (b - p) + sz from by omega, Nat.add_mod_right, Nat.mod_eq_of_lt (by omega)]
  · exact Nat.mod_eq_of_lt (by omega)

theorem back_eq {sz e i : Nat} (he : e < sz) (hi : i ≤ sz) : (e + (sz - i)) % sz = if i ≤ e then e - i else e + sz - i := bwd_eq he hi

theorem repeated_le (d j : Nat) : repeated d j ≤ j := by
  unfold repeated
  split
  · exact Nat.le_refl _
  · exact Nat.mod_le _ _

theorem mirrored_le (sz e j : Nat) : mirrored sz e j ≤ j := Nat.min_le_left _ _

theorem repeated_step {d i : Nat} (hd : 0 < d) (h : d ≤ i) : repeated d i = repeated d (i - d) := by
  unfold repeated
  rw [if_neg (by omega), if_neg (by omega), Nat.mod_eq_sub_mod h]

theorem repeated_self {d i : Nat} (h : d = 0 ∨ i < d) : repeated d i = i := by
  unfold repeated
  split
  · rfl
  · exact Nat.mod_eq_of_lt (by omega)

/-- Forward, from the ring into a span. -/
theorem org_read {sz p b n i : Nat} (hp : p < sz) (hb : b + n ≤ sz) (hi : i < n) :
    (∃ k, k < i ∧ b + k = fwd sz p i ∧ repeated ((b + sz - p) % sz) i = repeated ((b + sz - p) % sz) k) ∨
      ((∀ k, k < i → b + k ≠ fwd sz p i) ∧ repeated ((b + sz - p) % sz) i = i) := by
  have hf := fwd_eq (i := i) hp (by omega)
  have hdq := dist_eq (b := b) hp (by omega)
  generalize (b + sz - p) % sz = d at *
  by_cases hd : 0 < d ∧ d ≤ i
  · refine Or.inl ⟨i - d, by omega, ?_, repeated_step hd.1 hd.2⟩
    rw [hf]; split at hdq <;> split <;> omega
  · refine Or.inr ⟨fun k hk => ?_, repeated_self (by omega)⟩
    rw [hf]; split at hdq <;> split <;> omega

/-- Forward, from a span into the ring. -/
theorem org_write {sz p a n i : Nat} (hp : p < sz) (ha : a + n ≤ sz) (hi : i < n) :
    (∃ k, k < i ∧ fwd sz p k = a + i ∧ repeated ((p + sz - a) % sz) i = repeated ((p + sz - a) % sz) k) ∨
      ((∀ k, k < i → fwd sz p k ≠ a + i) ∧ repeated ((p + sz - a) % sz) i = i) := by
  have hdq := dist_eq (b := p) (p := a) (sz := sz) (by omega) hp
  generalize (p + sz - a) % sz = d at *
  by_cases hd : 0 < d ∧ d ≤ i
  · refine Or.inl ⟨i - d, by omega, ?_, repeated_step hd.1 hd.2⟩
    rw [fwd_eq hp (by omega)]; split at hdq <;> split <;> omega
  · refine Or.inr ⟨fun k hk => ?_, repeated_self (by omega)⟩
    rw [fwd_eq hp (by omega)]; split at hdq <;> split <;> omega

theorem mirrored_meet {sz e i : Nat} (he : e < sz) (hi : i < sz) (h : (e + (sz - i)) % sz < i) :
    mirrored sz e i = mirrored sz e ((e + (sz - i)) % sz) := by
  have h1 := back_eq he (Nat.le_of_lt hi)
  unfold mirrored
  generalize (e + (sz - i)) % sz = k at *
  rw [back_eq he (by omega)]
  split at h1 <;> split <;> omega

/-- The ring backward, into a span. -/
theorem org_read_reverse {sz p b n i : Nat} (hp : p < sz) (hb : b + n ≤ sz) (hi : i < n) :
    (∃ k, k < i ∧ b + k = bwd sz p i ∧ mirrored sz ((p + sz - b) % sz) i = mirrored sz ((p + sz - b) % sz) k) ∨
      ((∀ k, k < i → b + k ≠ bwd sz p i) ∧ mirrored sz ((p + sz - b) % sz) i = i) := by
  have hf := bwd_eq (i := i) hp (by omega)
  have hdq := dist_eq (b := p) (p := b) (sz := sz) (by omega) hp
  have hdl : (p + sz - b) % sz < sz := Nat.mod_lt _ (by omega)
  generalize (p + sz - b) % sz = e at *
  have hk := back_eq (i := i) hdl (by omega)
  by_cases hd : (e + (sz - i)) % sz < i
  · refine Or.inl ⟨_, hd, ?_, mirrored_meet hdl (by omega) hd⟩
    generalize (e + (sz - i)) % sz = k at *
    rw [hf]; split at hdq <;> split at hk <;> split <;> omega
  · refine Or.inr ⟨fun k hki => ?_, by unfold mirrored; omega⟩
    generalize (e + (sz - i)) % sz = k' at *
    rw [hf]; split at hdq <;> split at hk <;> split <;> omega

/-- A span, into the ring backward. -/
theorem org_write_reverse {sz p a n i : Nat} (hp : p < sz) (ha : a + n ≤ sz) (hi : i < n) :
    (∃ k, k < i ∧ bwd sz p k = a + i ∧ mirrored sz ((p + sz - a) % sz) i = mirrored sz ((p + sz - a) % sz) k) ∨
      ((∀ k, k < i → bwd sz p k ≠ a + i) ∧ mirrored sz ((p + sz - a) % sz) i = i) := by
  have hdq := dist_eq (b := p) (p := a) (sz := sz) (by omega) hp
  have hdl : (p + sz - a) % sz < sz := Nat.mod_lt _ (by omega)
  generalize (p + sz - a) % sz = e at *
  have hk := back_eq (i := i) hdl (by omega)
  by_cases hd : (e + (sz - i)) % sz < i
  · refine Or.inl ⟨_, hd, ?_, mirrored_meet hdl (by omega) hd⟩
    generalize (e + (sz - i)) % sz = k at *
    rw [bwd_eq hp (by omega)]; split at hdq <;> split at hk <;> split <;> omega
  · refine Or.inr ⟨fun k hki => ?_, by unfold mirrored; omega⟩
    generalize (e + (sz - i)) % sz = k' at *
    rw [bwd_eq hp (by omega)]; split at hdq <;> split at hk <;> split <;> omega

theorem fwd_inj {sz p n : Nat} (hp : p < sz) (hn : n ≤ sz) (j k : Nat) (hj : j < n) (hk : k < n) (h : fwd sz p j = fwd sz p k) : j = k := by
  rw [fwd_eq hp (by omega), fwd_eq hp (by omega)] at h
  split at h <;> split at h <;> omega

theorem bwd_inj {sz p n : Nat} (hp : p < sz) (hn : n ≤ sz) (j k : Nat) (hj : j < n) (hk : k < n) (h : bwd sz p j = bwd sz p k) : j = k := by
  rw [bwd_eq hp (by omega), bwd_eq hp (by omega)] at h
  split at h <;> split at h <;> omega

theorem repeated_all {d n : Nat} : (∀ i, i < n → repeated d i = i) ↔ d = 0 ∨ n ≤ d := by
  constructor
  · intro h
    rcases Nat.lt_or_ge d n with hd | hd
    · have := h d hd
      unfold repeated at this
      split at this
      · omega
      · rw [Nat.mod_self] at this; omega
    · omega
  · intro h i hi
    exact repeated_self (by omega)

theorem mirrored_all {sz e n : Nat} (he : e < sz) (hn : n ≤ sz) : (∀ i, i < n → mirrored sz e i = i) ↔ n ≤ (if e = 0 then sz else e) / 2 + 1 := by
  unfold mirrored
  constructor
  · intro h
    rcases Nat.lt_or_ge ((if e = 0 then sz else e) / 2 + 1) n with hd | hd
    · have := h _ hd
      rw [back_eq he (by omega)] at this
      split at this <;> split at this <;> omega
    · exact hd
  · intro h i hi
    rw [back_eq he (by omega)]
    split at h <;> split <;> omega

theorem no_hazard {src dst org : Nat → Nat} {n : Nat} (hle : ∀ j, org j ≤ j)
    (ho : ∀ i, i < n → (∃ k, k < i ∧ dst k = src i ∧ org i = org k) ∨ ((∀ k, k < i → dst k ≠ src i) ∧ org i = i)) (hall : ∀ i, i < n → org i = i) : ¬ Hazard src dst n := by
  rintro ⟨i, k, hk, hi, e⟩
  rcases ho i hi with ⟨k', hk', _, e'⟩ | ⟨hno, _⟩
  · have := hall i hi
    have := hle k'
    omega
  · exact hno k hk e

/-- What arrives is what should for all contents if and only if each element put is the one meant. -/
theorem when {src dst org : Nat → Nat} {sz n : Nat} (x y : T) (hxy : x ≠ y) (hle : ∀ j, org j ≤ j) (hs : ∀ i, i < n → src i < sz) (hd : ∀ i, i < n → dst i < sz)
    (hinj : ∀ j k, j < n → k < n → src j = src k → j = k) (hdi : ∀ j k, j < n → k < n → dst j = dst k → j = k) :
    (∀ orig res : List T, orig.length = sz → Copied src dst org n orig res → Snapshot (fun d _ => d) src dst n orig res) ↔ ∀ i, i < n → org i = i := by
  constructor
  · intro h i hi
    refine Decidable.byContradiction fun hne => ?_
    have hlt : org i < n := Nat.lt_of_le_of_lt (hle i) hi
    have hsne : src (org i) ≠ src i := fun e => hne (hinj _ _ hlt hi e)
    let orig : List T := (List.range sz).map fun z => if z = src i then y else x
    have hlen : orig.length = sz := by simp [orig]
    have hget : ∀ z, z < sz → orig[z]? = some (if z = src i then y else x) := by
      intro z hz
      simp [orig, List.getElem?_map, hz]
    let res : List T := (List.range sz).map fun z =>
      match (List.range n).find? (fun j => dst j == z) with
      | some j => if src (org j) = src i then y else x
      | none => if z = src i then y else x
    have hres : ∀ z, z < sz → res[z]? = some (match (List.range n).find? (fun j => dst j == z) with
        | some j => if src (org j) = src i then y else x
        | none => if z = src i then y else x) := by
      intro z hz
      simp [res, List.getElem?_map, hz]
    have hfind : ∀ j, j < n → (List.range n).find? (fun k => dst k == dst j) = some j := by
      intro j hj
      cases hf : (List.range n).find? (fun k => dst k == dst j) with
      | none =>
        have := List.find?_eq_none.mp hf j (List.mem_range.mpr hj)
        simp at this
      | some k =>
        have h1 := List.find?_some hf
        have h2 := List.mem_range.mp (List.mem_of_find?_eq_some hf)
        rw [hdi k j h2 hj (by simpa using h1)]
    have hc : Copied src dst org n orig res := by
      refine ⟨by simp [res, orig], fun j hj => ?_, fun z hz => ?_⟩
      · refine ⟨_, hget _ (hs _ (Nat.lt_of_le_of_lt (hle j) hj)), ?_⟩
        rw [hres _ (hd j hj), hfind j hj]
      · rcases Nat.lt_or_ge z sz with hzs | hzs
        · rw [hres z hzs, hget z hzs, List.find?_eq_none.mpr fun j hj => by simpa using hz j (List.mem_range.mp hj)]
        · rw [List.getElem?_eq_none (by simp [res]; exact hzs), List.getElem?_eq_none (by simp [orig]; exact hzs)]
    obtain ⟨_, h1, _⟩ := h orig res hlen hc
    obtain ⟨d, o, e1, _, e3⟩ := h1 i hi
    obtain ⟨d', e4, e5⟩ := hc.2.1 i hi
    rw [hget _ (hs i hi), if_pos rfl] at e1
    rw [hget _ (hs _ hlt), if_neg hsne] at e4
    rw [e3] at e5
    cases e1; cases e4; cases e5
    exact hxy rfl
  · intro h orig res hlen hc
    refine ⟨hc.1, fun j hj => ?_, hc.2.2⟩
    obtain ⟨d, e1, e2⟩ := hc.2.1 j hj
    rw [h j hj] at e1
    have hdj : dst j < orig.length := by rw [hlen]; exact hd j hj
    exact ⟨d, orig[dst j]'hdj, e1, List.getElem?_eq_getElem _, e2⟩

theorem copied_unique {src dst org : Nat → Nat} {n : Nat} {orig r1 r2 : List T} (h1 : Copied src dst org n orig r1) (h2 : Copied src dst org n orig r2) : r1 = r2 := by
  refine List.ext_getElem? fun x => ?_
  by_cases hx : ∀ j, j < n → dst j ≠ x
  · rw [h1.2.2 x hx, h2.2.2 x hx]
  · have : ∃ j, j < n ∧ dst j = x := by
      refine Decidable.byContradiction (dec := Classical.propDecidable _) fun hc => hx fun j hj e => hc ⟨j, hj, e⟩
    obtain ⟨j, hj, e⟩ := this
    obtain ⟨d1, a1, b1⟩ := h1.2.1 j hj
    obtain ⟨d2, a2, b2⟩ := h2.2.1 j hj
    rw [← e, b1, b2, ← a1, a2]

end CircAccess
