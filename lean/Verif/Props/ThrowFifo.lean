import Verif.Spec.ThrowFifo
import Verif.Props.Throwing
import Verif.Lemmas.SpscSeq
/-! # C255: FIFOs of elements that throw -/
namespace ThrowFifo
open Throwing Throwing.Spec ThrowFifo.Spec Spsc

variable {w : Nat} {T : Type}

/-! ## Without exceptions these are the calls of C01 -/

/-- `put` -/
theorem put_agrees (cfg : Cfg w) (dflt : T) (mv : T → T) (s : Spsc.St w T) (x : T) (hp : s.ppc = .idle) (hi : cfg.idx s.head < s.buf.length) :
    ∃ ok, (run cfg dflt mv s (putActs x)).2 = [.putRet x ok] ∧ Agrees (put cfg x) s (.ok ((run cfg dflt mv s (putActs x)).1, ok)) := by
  rw [run_putActs x hp]
  by_cases h : s.head - s.tail = BitVec.ofNat w cfg.cap
  · rw [if_pos h]
    refine ⟨false, rfl, 1, fun n => ?_⟩
    unfold put
    rw [Nat.add_comm, elem_succ, members_bind, if_pos h]
    rfl
  · rw [if_neg h, if_pos hi]
    refine ⟨true, rfl, 2, fun n => ?_⟩
    unfold put
    rw [Nat.add_comm, elem_succ, members_bind, if_neg h, arrGet_lt hi, access_ok, elem_succ]
    rfl

/-- `get` -/
theorem get_agrees (cfg : Cfg w) (dflt : T) (mv : T → T) (s : Spsc.St w T) (hp : s.cpc = .idle) (hi : cfg.idx s.tail < s.buf.length) :
    ∃ r, (run cfg dflt mv s getActs).2 = [.getRet r] ∧ Agrees (get cfg) s (.ok ((run cfg dflt mv s getActs).1, r)) := by
  rw [run_getActs hp]
  by_cases h : s.tail = s.head
  · rw [if_pos h]
    refine ⟨none, rfl, 0, fun n => ?_⟩
    unfold get
    rw [members_bind, if_pos h, Nat.zero_add]
    rfl
  · rw [if_neg h, List.getElem?_eq_getElem hi]
    refine ⟨some s.buf[cfg.idx s.tail], rfl, 2, fun n => ?_⟩
    unfold get
    rw [members_bind, if_neg h, arrGet_lt hi, access_ok, Nat.add_comm, elem_succ, update_bind, elem_succ]
    rfl

/-- `resize` -/
theorem resize_agrees (dflt : T) (newN : Nat) (d : Dyn w T) :
    Agrees (resize dflt newN) d (.ok (⟨(Spsc.resize dflt d.max d.st newN).1, (Spsc.resize dflt d.max d.st newN).2⟩, ())) := by
  by_cases h : newN ≠ d.max
  · refine ⟨1, fun n => ?_⟩
    unfold resize Spsc.resize
    rw [members_bind, if_pos h, if_pos h, update_bind, Nat.add_comm]
    by_cases h2 : newN < d.max
    · simp only [if_pos h2, update_bind, elem_succ]
      rfl
    · simp only [if_neg h2, bind_apply, pure_apply]
      rfl
  · refine ⟨0, fun n => ?_⟩
    unfold resize Spsc.resize
    rw [members_bind, if_neg h, if_neg h, Nat.zero_add]
    rfl

example : put (fixedCfg 8 1) 7 (⟨0#8, 0#8, [0, 0], .idle, .idle, false⟩ : Spsc.St 8 Nat) 2 = .done true ⟨1#8, 0#8, [7, 0], .idle, .idle, false⟩ 0 ∧
    get (fixedCfg 8 1) (⟨1#8, 0#8, [7, 0], .idle, .idle, false⟩ : Spsc.St 8 Nat) 2 = .done (some 7) ⟨1#8, 1#8, [7, 0], .idle, .idle, false⟩ 0 := by
  decide +kernel

/-- `get_move`, run from start to finish as the calls of C01 -/
theorem getMove_agrees (cfg : Cfg w) (dflt : T) (mv : T → T) (s : Spsc.St w T) (hp : s.cpc = .idle) (hi : cfg.idx s.tail < s.buf.length) :
    ∃ r, (run cfg dflt mv s [.cCall .getMove, .cStep true, .cStep true, .cStep true, .cStep true]).2 = [.getRet r] ∧
      Agrees (getMove cfg mv) s (.ok ((run cfg dflt mv s [.cCall .getMove, .cStep true, .cStep true, .cStep true, .cStep true]).1, r)) := by
  obtain ⟨hd, tl, buf, ppc, cpc, ub⟩ := s
  simp only at hp hi
  subst hp
  by_cases h : tl = hd
  · refine ⟨none, by simp [run, step, callC, stepC, h], 0, fun n => ?_⟩
    unfold getMove
    rw [members_bind, if_pos h, Nat.zero_add]
    simp [run, step, callC, stepC, h, pure_apply]
  · have h2 : buf[cfg.idx tl]? = some buf[cfg.idx tl] := List.getElem?_eq_getElem hi
    refine ⟨some buf[cfg.idx tl], by simp [run, step, callC, stepC, h, h2], 1, fun n => ?_⟩
    unfold getMove
    rw [members_bind, if_neg h, arrGet_lt hi, access_ok, Nat.add_comm, elem_succ, update_bind, update_bind, pure_apply]
    simp [run, step, callC, stepC, h, h2]

example : getMove (fixedCfg 8 1) (fun _ => 0) (⟨1#8, 0#8, [7, 5], .idle, .idle, false⟩ : Spsc.St 8 Nat) 1 =
    .done (some 7) ⟨1#8, 1#8, [0, 5], .idle, .idle, false⟩ 0 := by decide +kernel

/-- `put` of the FIFO whose size is set at run time -/
theorem putDyn_agrees (dflt : T) (mv : T → T) (d : Dyn w T) (x : T) (hp : d.st.ppc = .idle) (hi : (dynCfg w d.max).idx d.st.head < d.st.buf.length) :
    ∃ ok, (run (dynCfg w d.max) dflt mv d.st (putActs x)).2 = [.putRet x ok] ∧
      Agrees (putDyn x) d (.ok (⟨d.max, (run (dynCfg w d.max) dflt mv d.st (putActs x)).1⟩, ok)) := by
  obtain ⟨ok, h1, k, h2⟩ := put_agrees (dynCfg w d.max) dflt mv d.st x hp hi
  refine ⟨ok, h1, k, fun n => ?_⟩
  unfold putDyn
  rw [h2 n]

example : putDyn 9 (⟨2, ⟨1#8, 0#8, [7, 0], .idle, .idle, false⟩⟩ : Dyn 8 Nat) 2 = .done true ⟨2, ⟨2#8, 0#8, [7, 9], .idle, .idle, false⟩⟩ 0 := by
  decide +kernel

/-! ## Exceptions -/

/-- **C255**: wherever an exception occurs in `put()` or `get_move()`, the FIFO is exactly what it was before the call. -/
theorem C255_strong_partial (cfg : Cfg w) (mv : T → T) (x : T) : Strong id (put cfg x) ∧ Strong id (getMove cfg mv) := by
  constructor
  · intro s n s' h
    unfold put at h
    match n with
    | 0 => rw [elem_zero] at h; cases h; rfl
    | n + 1 =>
      rw [elem_succ, members_bind] at h
      split at h
      · cases h
      · cases hg : arrGet s.buf (cfg.idx s.head) with
        | ub => rw [hg, access_ub] at h; cases h
        | ok v =>
          rw [hg, access_ok] at h
          match n with
          | 0 => rw [elem_zero] at h; cases h; rfl
          | n + 1 => rw [elem_succ] at h; cases h
  · intro s n s' h
    unfold getMove at h
    rw [members_bind] at h
    split at h
    · cases h
    · cases hg : arrGet s.buf (cfg.idx s.tail) with
      | ub => rw [hg, access_ub] at h; cases h
      | ok v =>
        rw [hg, access_ok] at h
        match n with
        | 0 => rw [elem_zero] at h; cases h; rfl
        | n + 1 => rw [elem_succ] at h; cases h

example : put (fixedCfg 8 1) 9 (⟨1#8, 0#8, [7, 0], .idle, .idle, false⟩ : Spsc.St 8 Nat) 1 = .threw ⟨1#8, 0#8, [7, 0], .idle, .idle, false⟩ ∧
    getMove (fixedCfg 8 1) id (⟨1#8, 0#8, [7, 0], .idle, .idle, false⟩ : Spsc.St 8 Nat) 0 = .threw ⟨1#8, 0#8, [7, 0], .idle, .idle, false⟩ := by
  decide +kernel

/-- **C255**: the same for `put()` of the FIFO whose size is set at run time. -/
theorem C255_dyn_strong_partial (x : T) : Strong id (putDyn (w := w) x) := by
  intro d n d' h
  unfold putDyn at h
  cases hp : put (dynCfg w d.max) x d.st n with
  | done a s n => rw [hp] at h; cases h
  | ub => rw [hp] at h; cases h
  | threw s =>
    rw [hp] at h
    cases h
    have := (C255_strong_partial (dynCfg w d.max) id x).1 d.st n s hp
    simp only [id] at this ⊢
    rw [this]

example : putDyn 9 (⟨2, ⟨1#8, 0#8, [7, 0], .idle, .idle, false⟩⟩ : Dyn 8 Nat) 1 = .threw ⟨2, ⟨1#8, 0#8, [7, 0], .idle, .idle, false⟩⟩ := by
  decide +kernel

/-- one item fewer, the oldest -/
theorem items_tail (cfg : Cfg w) (s : Spsc.St w T) (h : s.tail ≠ s.head) :
    items cfg { s with tail := s.tail + 1#w } = (items cfg s).tail := by
  unfold items
  simp only
  have hne : (s.head - s.tail) ≠ 0#w := by
    intro h2
    apply h
    have : s.head = (s.head - s.tail) + s.tail := by rw [BitVec.sub_add_cancel]
    rw [h2, BitVec.zero_add] at this
    exact this.symm
  have hpos : 0 < (s.head - s.tail).toNat := by
    rcases Nat.eq_zero_or_pos (s.head - s.tail).toNat with h3 | h3
    · exact absurd (BitVec.eq_of_toNat_eq (by simpa using h3)) hne
    · exact h3
  obtain ⟨m, hm⟩ : ∃ m, (s.head - s.tail).toNat = m + 1 := ⟨(s.head - s.tail).toNat - 1, by omega⟩
  have hm2 : (s.head - (s.tail + 1#w)).toNat = m := by
    have e : s.head - (s.tail + 1#w) = (s.head - s.tail) - 1#w := by
      rw [BitVec.sub_sub]
    rw [e]
    have e2 : s.head - s.tail = BitVec.ofNat w (m + 1) := by rw [← hm, BitVec.ofNat_toNat, BitVec.setWidth_eq]
    have hw : m + 1 < 2 ^ w := by rw [← hm]; exact (s.head - s.tail).isLt
    rw [e2, show (1#w) = BitVec.ofNat w 1 from rfl, ofNat_sub (by omega), BitVec.toNat_ofNat, Nat.add_sub_cancel, Nat.mod_eq_of_lt (by omega)]
  rw [hm, hm2, List.range_succ_eq_map, List.map_cons, List.tail_cons, List.map_map]
  apply List.map_congr_left
  intro i _
  simp only [Function.comp]
  rw [show s.tail + 1#w + BitVec.ofNat w i = s.tail + BitVec.ofNat w (i + 1) by
    rw [BitVec.add_assoc, BitVec.add_comm (1#w), show (1#w) = BitVec.ofNat w 1 from rfl, ← BitVec.ofNat_add]]

/-- **C255**, `get()`, exactly: an exception from making the copy leaves the FIFO as it was; one from making the result loses the
oldest item; there is no third. -/
theorem C255_get_exact (cfg : Cfg w) (s s' : Spsc.St w T) (n : Nat) (h : get cfg s n = .threw s') :
    (n = 0 ∧ s' = s) ∨ (n = 1 ∧ items cfg s' = (items cfg s).tail ∧ s.tail ≠ s.head) := by
  unfold get at h
  rw [members_bind] at h
  split at h
  · cases h
  · next hne =>
    cases hg : arrGet s.buf (cfg.idx s.tail) with
    | ub => rw [hg, access_ub] at h; cases h
    | ok v =>
      rw [hg, access_ok] at h
      match n with
      | 0 => rw [elem_zero] at h; cases h; exact .inl ⟨rfl, rfl⟩
      | 1 =>
        rw [elem_succ, update_bind, elem_zero] at h
        cases h
        exact .inr ⟨rfl, items_tail cfg s hne, hne⟩
      | n + 2 => rw [elem_succ, update_bind, elem_succ] at h; cases h

example : get (fixedCfg 8 1) (⟨1#8, 0#8, [7, 0], .idle, .idle, false⟩ : Spsc.St 8 Nat) 1 = .threw ⟨1#8, 1#8, [7, 0], .idle, .idle, false⟩ ∧
    items (fixedCfg 8 1) (⟨1#8, 0#8, [7, 0], .idle, .idle, false⟩ : Spsc.St 8 Nat) = [some 7] := by decide +kernel

/-- **C255**, `resize()`, exactly: an exception leaves the FIFO empty; if it was to grow, it goes on as an empty FIFO of the old size;
if it was to shrink, its memory is gone although its size is still the old one. -/
theorem C255_resize_exact (dflt : T) (newN : Nat) (d d' : Dyn w T) (n : Nat) (h : resize dflt newN d n = .threw d') :
    newN ≠ d.max ∧ d'.max = d.max ∧ items (dynCfg w d'.max) d'.st = [] ∧
      d'.st = { d.st with tail := d.st.head, buf := if newN < d.max then [] else d.st.buf } := by
  unfold resize at h
  rw [members_bind] at h
  split at h
  · next hne =>
    rw [update_bind] at h
    by_cases h2 : newN < d.max
    · rw [if_pos h2, update_bind] at h
      dsimp only at h
      match n with
      | 0 =>
        rw [elem_zero] at h
        cases h
        exact ⟨hne, rfl, by simp [items], by rw [if_pos h2]⟩
      | n + 1 => rw [elem_succ] at h; cases h
    · rw [if_neg h2] at h
      dsimp only at h
      match n with
      | 0 =>
        rw [elem_zero] at h
        cases h
        exact ⟨hne, rfl, by simp [items], by rw [if_neg h2]⟩
      | n + 1 => rw [elem_succ] at h; cases h
  · cases h

example : resize 0 1 (⟨2, ⟨1#8, 0#8, [7, 0], .idle, .idle, false⟩⟩ : Dyn 8 Nat) 0 = .threw ⟨2, ⟨1#8, 1#8, [], .idle, .idle, false⟩⟩ := by decide

/-- **C255** fails as claimed: an exception from making the result of `get()` loses the item; and once a `resize()` to a smaller size
has run out of memory, the next `put()` writes outside the vector. -/
theorem C255_violated :
    (∀ (cfg : Cfg w) (s : Spsc.St w T), s.tail ≠ s.head → cfg.idx s.tail < s.buf.length →
      ∃ s', get cfg s 1 = .threw s' ∧ items cfg s' = (items cfg s).tail) ∧
    (∀ (dflt x : T) (newN : Nat) (d : Dyn w T) (n : Nat), newN < d.max → d.max < 2 ^ w →
      ∃ d', resize dflt newN d 0 = .threw d' ∧ putDyn x d' (n + 1) = .ub) := by
  constructor
  · intro cfg s h hi
    refine ⟨{ s with tail := s.tail + 1#w }, ?_, items_tail cfg s h⟩
    unfold get
    rw [members_bind, if_neg h, arrGet_lt hi, access_ok, elem_succ, update_bind, elem_zero]
  · intro dflt x newN d n h hw
    refine ⟨⟨d.max, { d.st with tail := d.st.head, buf := [] }⟩, ?_, ?_⟩
    · unfold resize
      rw [members_bind, if_pos (by omega), update_bind, if_pos h, update_bind]
      dsimp only
      rw [elem_zero]
    · unfold putDyn put
      rw [elem_succ, members_bind]
      have hne : ¬ (d.st.head - d.st.head = BitVec.ofNat w (dynCfg w d.max).cap) := by
        rw [BitVec.sub_self]
        intro e
        have := congrArg BitVec.toNat e
        have hc : (dynCfg w d.max).cap = d.max := rfl
        rw [hc, BitVec.toNat_ofNat, BitVec.toNat_ofNat, Nat.mod_eq_of_lt hw, Nat.zero_mod] at this
        omega
      rw [if_neg hne, (arrGet_ub ..).mpr (by simp), access_ub]

example : putDyn 9 (⟨2, ⟨1#8, 1#8, [], .idle, .idle, false⟩⟩ : Dyn 8 Nat) 5 = .ub := by decide +kernel

end ThrowFifo
