import Verif.Model.ThrowStream
import Verif.Spec.ThrowStream
import Verif.Props.Throwing
/-! # C258: exceptions inside a DoubleBufferStream -/
namespace ThrowStream
open Throwing Throwing.Spec ThrowStream.Spec

variable {T : Type}

theorem buf_setBuf (s : DoubleBuf T) (i : Bool) (l : List T) : (s.setBuf i l).buf i = l := by cases i <;> rfl
theorem buf_setBuf_other (s : DoubleBuf T) (i : Bool) (l : List T) : (s.setBuf i l).buf (!i) = s.buf (!i) := by cases i <;> rfl
theorem setBuf_setBuf (s : DoubleBuf T) (i : Bool) (l m : List T) : (s.setBuf i l).setBuf i m = s.setBuf i m := by cases i <;> rfl
theorem setBuf_buf (s : DoubleBuf T) (i : Bool) : s.setBuf i (s.buf i) = s := by cases i <;> rfl
theorem setBuf_idx (s : DoubleBuf T) (i : Bool) (l : List T) : (s.setBuf i l).idx = s.idx := by cases i <;> rfl

/-- three operations for each element; an exception in the n-th leaves the first n / 3 elements -/
theorem copyIn_eq (size : Nat) (i : Bool) : ∀ (word : List T) (s : DoubleBuf T) (n : Nat), (s.buf i).length + word.length ≤ size →
    copyIn size i word s n = if n < 3 * word.length then .threw (s.setBuf i (s.buf i ++ word.take (n / 3)))
      else .done () (s.setBuf i (s.buf i ++ word)) (n - 3 * word.length) := by
  intro word
  induction word with
  | nil =>
    intro s n _
    rw [if_neg (by simp)]
    simp [copyIn, pure_apply, setBuf_buf]
  | cons x word ih =>
    intro s n h
    rw [List.length_cons] at h
    unfold copyIn
    match n with
    | 0 => rw [elem_zero, if_pos (by simp)]; simp [setBuf_buf]
    | 1 => rw [elem_succ, elem_zero, if_pos (by simp; omega)]; simp [setBuf_buf]
    | 2 =>
      rw [elem_succ, elem_succ, members_bind, if_pos (by omega), elem_zero, if_pos (by simp; omega)]
      simp [setBuf_buf]
    | n + 3 =>
      rw [elem_succ, elem_succ, members_bind, if_pos (by omega), elem_succ, update_bind]
      rw [ih _ n (by rw [buf_setBuf]; simp; omega), buf_setBuf, setBuf_setBuf, setBuf_setBuf]
      by_cases hn : n < 3 * word.length
      · rw [if_pos hn, if_pos (by simp; omega), show (n + 3) / 3 = n / 3 + 1 by omega, List.take_succ_cons]
        simp
      · rw [if_neg hn, if_neg (by simp; omega), List.length_cons]
        simp only [List.append_assoc, List.singleton_append]
        congr 1
        omega

/-- the elements pushed one after another, as long as there is room -/
theorem foldl_push (size : Nat) : ∀ (word l : List T), l.length + word.length ≤ size →
    word.foldl (DoubleBuf.pushBack size) l = l ++ word := by
  intro word
  induction word with
  | nil => intro l _; simp
  | cons x word ih =>
    intro l h
    rw [List.length_cons] at h
    rw [List.foldl_cons, DoubleBuf.pushBack, if_pos (by omega), ih _ (by simp; omega)]
    simp

/-! ## Without exceptions these are the calls of C75 -/

/-- `transmit` -/
theorem transmit_agrees (size : Nat) (word : List T) (res : Bool) (s : DoubleBuf T) (hs : (s.buf (!(s.idx.getD true))).length ≤ size) :
    Agrees (transmit size word res) s (.ok ((DoubleBuf.transmit size s word res).1, (DoubleBuf.transmit size s word res).2.2)) := by
  unfold transmit DoubleBuf.transmit
  dsimp only
  by_cases h : size - (s.buf (!(s.idx.getD true))).length ≥ word.length
  · by_cases hi : s.idx.isNone = true
    · refine ⟨3 * word.length + 1, fun n => ?_⟩
      rw [members_bind, if_pos h, bind_apply, copyIn_eq size _ word s _ (by omega), if_neg (by omega), if_pos h,
        foldl_push size word _ (by omega), setBuf_idx]
      dsimp only
      rw [if_pos hi, if_pos hi, show 3 * word.length + 1 + n - 3 * word.length = n + 1 by omega]
      rfl
    · refine ⟨3 * word.length, fun n => ?_⟩
      rw [members_bind, if_pos h, bind_apply, copyIn_eq size _ word s _ (by omega), if_neg (by omega), if_pos h,
        foldl_push size word _ (by omega), setBuf_idx]
      dsimp only
      rw [if_neg hi, if_neg hi, show 3 * word.length + n - 3 * word.length = n by omega]
      rfl
  · refine ⟨0, fun n => ?_⟩
    rw [members_bind, if_neg h, if_neg h, Nat.zero_add]
    rfl

/-- `tx_done_callback` -/
theorem done_agrees (res : Bool) (s : DoubleBuf T) : Agrees (done res) s (.ok ((DoubleBuf.done s res).1, ())) := by
  unfold done DoubleBuf.done
  cases hi : s.idx with
  | none =>
    refine ⟨0, fun n => ?_⟩
    rw [members_bind, hi, Nat.zero_add]
    rfl
  | some i =>
    by_cases h : (s.buf (!i)).length ≠ 0
    · refine ⟨1, fun n => ?_⟩
      rw [members_bind, hi]
      dsimp only
      rw [update_bind, if_pos h, buf_setBuf_other, if_pos h, Nat.add_comm]
      rfl
    · refine ⟨0, fun n => ?_⟩
      rw [members_bind, hi]
      dsimp only
      rw [update_bind, if_neg h, buf_setBuf_other, if_neg h, Nat.zero_add]
      rfl

example : transmit 4 [1, 2] true (⟨[], [], none⟩ : DoubleBuf Nat) 7 = .done true ⟨[1, 2], [], some false⟩ 0 ∧
    done true (⟨[1, 2], [3], some false⟩ : DoubleBuf Nat) 1 = .done () ⟨[], [3], some true⟩ 0 := by decide

/-! ## Exceptions -/

/-- **C258**, exactly: if `transmit()` ends with an exception there was room for the word, and either an element threw: its word is
waiting up to that element, nothing else has changed; or `transmit_func` threw: the whole word (after what was waiting) counts as under
way. -/
theorem C258_transmit_exact (size : Nat) (word : List T) (res : Bool) (s s' : DoubleBuf T) (n : Nat)
    (hs : (s.buf (!(s.idx.getD true))).length ≤ size) (h : transmit size word res s n = .threw s') :
    (s.buf (!(s.idx.getD true))).length + word.length ≤ size ∧
    ((n < 3 * word.length ∧ s'.idx = s.idx ∧ underWay s' = underWay s ∧ waiting s' = waiting s ++ word.take (n / 3)) ∨
     (n = 3 * word.length ∧ s.idx = none ∧ s'.idx = some false ∧ underWay s' = waiting s ++ word ∧ waiting s' = s.b1)) := by
  unfold transmit at h
  rw [members_bind] at h
  by_cases hr : size - (s.buf (!(s.idx.getD true))).length ≥ word.length
  · have hr' : (s.buf (!(s.idx.getD true))).length + word.length ≤ size := by omega
    refine ⟨hr', ?_⟩
    rw [if_pos hr, bind_apply, copyIn_eq size _ word s n hr'] at h
    by_cases hn : n < 3 * word.length
    · rw [if_pos hn] at h
      cases h
      left
      refine ⟨hn, setBuf_idx _ _ _, ?_, ?_⟩
      · unfold underWay
        rw [setBuf_idx]
        cases hi : s.idx with
        | none => rfl
        | some i => cases i <;> rfl
      · unfold waiting
        rw [setBuf_idx]
        cases hi : s.idx with
        | none => rfl
        | some i => cases i <;> rfl
    · rw [if_neg hn] at h
      dsimp only at h
      cases hi : s.idx with
      | none =>
        rw [hi, if_pos (show (none : Option Bool).isNone = true from rfl)] at h
        unfold startTx at h
        rw [update_bind] at h
        right
        match hm : n - 3 * word.length with
        | 0 =>
          rw [hm, elem_zero] at h
          cases h
          exact ⟨by omega, rfl, rfl, by simp [underWay, waiting, hi, DoubleBuf.buf, DoubleBuf.setBuf], rfl⟩
        | k + 1 => rw [hm, elem_succ] at h; cases h
      | some i => rw [hi, if_neg (by simp)] at h; cases h
  · rw [if_neg hr] at h
    cases h

example : transmit 4 [1, 2] true (⟨[], [], none⟩ : DoubleBuf Nat) 4 = .threw ⟨[1], [], none⟩ ∧
    transmit 4 [1, 2] true (⟨[], [], none⟩ : DoubleBuf Nat) 6 = .threw ⟨[1, 2], [], some false⟩ := by decide

/-- **C258**, where it holds: a `transmit()` while a transmission is under way, of elements that do not throw, ends without an
exception, whatever `transmit_func` would do; an exception before the first element is complete changes nothing. -/
theorem C258_transmit_partial (size : Nat) (word : List T) (res : Bool) (s : DoubleBuf T) (n : Nat)
    (hs : (s.buf (!(s.idx.getD true))).length ≤ size) :
    (s.idx ≠ none → 3 * word.length ≤ n → ∃ r s' k, transmit size word res s n = .done r s' k) ∧
    (n < 3 → 0 < word.length → ∀ s', transmit size word res s n = .threw s' → underWay s' = underWay s ∧ waiting s' = waiting s ∧ s'.idx = s.idx) := by
  constructor
  · intro hi hn
    have := transmit_agrees size word res s hs
    unfold transmit
    rw [members_bind]
    by_cases hr : size - (s.buf (!(s.idx.getD true))).length ≥ word.length
    · rw [if_pos hr, bind_apply, copyIn_eq size _ word s n (by omega), if_neg (by omega)]
      dsimp only
      rw [if_neg (by cases h : s.idx with | none => exact absurd h hi | some i => simp)]
      exact ⟨_, _, _, rfl⟩
    · rw [if_neg hr]
      exact ⟨_, _, _, rfl⟩
  · intro hn hw s' h
    obtain ⟨-, h1 | h1⟩ := C258_transmit_exact size word res s s' n hs h
    · obtain ⟨-, h2, h3, h4⟩ := h1
      rw [show n / 3 = 0 by omega, List.take_zero, List.append_nil] at h4
      exact ⟨h3, h4, h2⟩
    · omega

/-- **C258**, `tx_done_callback()`: an exception from `transmit_func` leaves what was waiting as under way, exactly as if it had
answered; what was under way is gone. -/
theorem C258_done_exact (res : Bool) (s s' : DoubleBuf T) (n : Nat) (h : done res s n = .threw s') :
    n = 0 ∧ s' = (DoubleBuf.done s res).1 ∧ underWay s' = waiting s ∧ waiting s' = [] ∧ s.idx ≠ none := by
  unfold done at h
  rw [members_bind] at h
  unfold DoubleBuf.done
  cases hi : s.idx with
  | none => rw [hi] at h; cases h
  | some i =>
    rw [hi] at h
    dsimp only at h ⊢
    rw [update_bind] at h
    by_cases hb : (s.buf (!i)).length ≠ 0
    · rw [if_pos hb] at h
      rw [buf_setBuf_other, if_pos hb]
      match n with
      | 0 =>
        have h2 : Res.threw { s.setBuf i [] with idx := some (!i) } = (Res.threw s' : Res (DoubleBuf T) Unit) := h
        cases h2
        refine ⟨rfl, rfl, ?_, ?_, by simp⟩
        · simp only [underWay, waiting, hi]; cases i <;> rfl
        · simp only [waiting]; cases i <;> rfl
      | n + 1 =>
        have h2 : Res.done () { s.setBuf i [] with idx := some (!i) } n = (Res.threw s' : Res (DoubleBuf T) Unit) := h
        cases h2
    · rw [if_neg hb] at h
      have h2 : Res.done () { s.setBuf i [] with idx := none } n = (Res.threw s' : Res (DoubleBuf T) Unit) := h
      cases h2

example : done true (⟨[1, 2], [3], some false⟩ : DoubleBuf Nat) 0 = .threw ⟨[], [3], some true⟩ := by decide

/-- **C258** fails: (1) the beginning of a word whose `transmit()` threw is sent, in front of the next word; (2) after an exception from
`transmit_func` no later `transmit()` calls it again, until `tx_done_callback()` is called, although nothing is being transmitted; (3) that
callback then drops the word. -/
theorem C258_violated (size : Nat) (word word' : List T) (res res' : Bool) (hw : word.length + word'.length ≤ size) :
    (∀ j, 0 < j → j < word.length → ∃ n s', transmit size word res {} n = .threw s' ∧
      (DoubleBuf.transmit size s' word' res').2.1 = some (word.take j ++ word')) ∧
    (∃ s', transmit size word res {} (3 * word.length) = .threw s' ∧
      (∀ ws : List (List T), ∀ t, t = ws.foldl (fun t w => (DoubleBuf.transmit size t w res').1) s' →
        ∀ w, (DoubleBuf.transmit size t w res').2.1 = none) ∧
      DoubleBuf.done s' res' = ({}, none)) := by
  constructor
  · intro j h0 hj
    refine ⟨3 * j, ⟨word.take j, [], none⟩, ?_, ?_⟩
    · unfold transmit
      rw [members_bind, if_pos (by simp [DoubleBuf.buf]; omega), bind_apply, copyIn_eq size _ word _ _ (by simp [DoubleBuf.buf]; omega), if_pos (by omega)]
      rw [show 3 * j / 3 = j by omega]
      rfl
    · unfold DoubleBuf.transmit
      dsimp only
      have hl : (word.take j).length = j := by rw [List.length_take]; omega
      rw [if_pos (by simp only [Option.getD_none, Bool.not_true, DoubleBuf.buf, hl]; omega)]
      rw [foldl_push size word' _ (by simp only [Option.getD_none, Bool.not_true, DoubleBuf.buf, hl]; omega)]
      rfl
  · refine ⟨⟨word, [], some false⟩, ?_, ?_, rfl⟩
    · unfold transmit
      rw [members_bind, if_pos (by simp [DoubleBuf.buf]; omega), bind_apply, copyIn_eq size _ word _ _ (by simp [DoubleBuf.buf]; omega), if_neg (by omega)]
      rw [show 3 * word.length - 3 * word.length = 0 by omega]
      rfl
    · have key : ∀ (t : DoubleBuf T) (w : List T), t.idx = some false →
          (DoubleBuf.transmit size t w res').2.1 = none ∧ (DoubleBuf.transmit size t w res').1.idx = some false := by
        intro t w ht
        unfold DoubleBuf.transmit
        dsimp only
        split
        · rw [setBuf_idx, ht]
          rw [if_neg (by simp)]
          exact ⟨rfl, (setBuf_idx _ _ _).trans ht⟩
        · exact ⟨rfl, ht⟩
      have all : ∀ (ws : List (List T)) (t : DoubleBuf T), t.idx = some false →
          (ws.foldl (fun t w => (DoubleBuf.transmit size t w res').1) t).idx = some false := by
        intro ws
        induction ws with
        | nil => intro t ht; exact ht
        | cons w ws ih => intro t ht; exact ih _ (key t w ht).2
      intro ws t ht w
      rw [ht]
      exact (key _ w (all ws _ rfl)).1

example := C258_violated 8 [1, 2, 3] [4, 5] true true (by decide)

end ThrowStream
