import Verif.Spec.Throwing
/-! # C247: elements that throw -/
namespace Throwing
open Throwing.Spec

variable {σ α β T K V : Type}

theorem bind_apply (m : E σ α) (f : α → E σ β) (s : σ) (n : Nat) : (m >>= f) s n =
    match m s n with
    | .done a s n => f a s n
    | .threw s => .threw s
    | .ub => .ub := rfl

theorem pure_apply (a : α) (s : σ) (n : Nat) : (pure a : E σ α) s n = .done a s n := rfl

theorem members_bind (f : σ → E σ β) (s : σ) (n : Nat) : (members >>= f) s n = f s s n := rfl

theorem update_bind (g : σ → σ) (f : Unit → E σ β) (s : σ) (n : Nat) : (update g >>= f) s n = f () (g s) n := rfl

theorem elem_zero (f : Unit → E σ β) (s : σ) : (elem >>= f) s 0 = .threw s := rfl

theorem elem_succ (f : Unit → E σ β) (s : σ) (n : Nat) : (elem >>= f) s (n + 1) = f () s n := rfl

theorem access_ok (a : α) (f : α → E σ β) (s : σ) (n : Nat) : (access (.ok a) >>= f) s n = f a s n := rfl

theorem access_ub (f : α → E σ β) (s : σ) (n : Nat) : (access (.ub) >>= f) s n = .ub := rfl

theorem assign_zero (i : Nat) (x : T) (s : FixedVector.St T) : FV.assign i x s 0 = .threw s := rfl

theorem assign_succ (i : Nat) (x : T) (s : FixedVector.St T) (n : Nat) (h : i < s.data.length) :
    FV.assign i x s (n + 1) = .done () { s with data := s.data.set i x } n := by
  unfold FV.assign
  rw [elem_succ, members_bind, arrSet_lt h, access_ok]
  rfl

theorem assign_oob (i : Nat) (x : T) (s : FixedVector.St T) (n : Nat) (h : ¬ i < s.data.length) :
    FV.assign i x s (n + 1) = .ub := by
  unfold FV.assign
  rw [elem_succ, members_bind, arrSet_ub.2 (by omega), access_ub]

theorem push_strong (el : T) : Strong id (FV.pushBack el) := by
  intro s n s' h
  unfold FV.pushBack at h
  cases n with
  | zero => rw [elem_zero] at h; cases h; rfl
  | succ n =>
    rw [elem_succ, members_bind] at h
    split at h
    · cases h
    · cases n with
      | zero => rw [bind_apply, assign_zero] at h; cases h; rfl
      | succ n =>
        rw [bind_apply, assign_succ _ _ _ _ (by omega)] at h
        cases h

/-- how far the fill loop of `resize` gets -/
theorem fill_spec (el : T) (m : Nat) : ∀ (i n : Nat) (s : FixedVector.St T), i + m ≤ s.data.length →
    ∃ d, d.length = s.data.length ∧ (∀ k, d[k]? = if i ≤ k ∧ k < i + min m n then some el else s.data[k]?) ∧
      FV.fill el i m s n = if m ≤ n then .done () { s with data := d } (n - m) else .threw { s with data := d } := by
  induction m with
  | zero =>
    intro i n s h
    refine ⟨s.data, rfl, fun k => ?_, ?_⟩
    · rw [if_neg (by omega)]
    · rw [if_pos (by omega)]; rfl
  | succ m ih =>
    intro i n s h
    cases n with
    | zero =>
      refine ⟨s.data, rfl, fun k => ?_, ?_⟩
      · rw [if_neg (by omega)]
      · rw [if_neg (by omega)]; rfl
    | succ n =>
      obtain ⟨d, h1, h2, h3⟩ := ih (i + 1) n { s with data := s.data.set i el } (by simp; omega)
      refine ⟨d, by simpa using h1, fun k => ?_, ?_⟩
      · rw [h2 k]
        show _ = _
        simp only [List.getElem?_set]
        by_cases hk : i + 1 ≤ k ∧ k < i + 1 + min m n
        · rw [if_pos hk, if_pos (by omega)]
        · rw [if_neg hk]
          by_cases hi : i = k
          · subst hi
            rw [if_pos rfl, if_pos (by omega), if_pos (by omega)]
          · rw [if_neg hi, if_neg (by omega)]
      · unfold FV.fill
        rw [bind_apply, assign_succ _ _ _ _ (by omega)]
        show FV.fill el (i + 1) m _ n = _
        rw [h3]
        by_cases hm : m ≤ n
        · rw [if_pos hm, if_pos (by omega), show n + 1 - (m + 1) = n - m by omega]
        · rw [if_neg hm, if_neg (by omega)]

theorem push_agrees (s : FixedVector.St T) (x : T) : Agrees (FV.pushBack x) s (FixedVector.pushBack s x) := by
  unfold FixedVector.pushBack
  by_cases h : s.back ≥ s.data.length
  · refine ⟨1, fun n => ?_⟩
    rw [if_pos h, Nat.add_comm]
    unfold FV.pushBack
    rw [elem_succ, members_bind, if_pos h]
    rfl
  · refine ⟨2, fun n => ?_⟩
    rw [if_neg h, Nat.add_comm, arrSet_lt (by omega)]
    unfold FV.pushBack
    rw [elem_succ, members_bind, if_neg h, bind_apply, assign_succ _ _ _ _ (by omega)]
    rfl

theorem pop_agrees (s : FixedVector.St T) (dflt : T) : Agrees (FV.popBack dflt) s (FixedVector.popBack dflt s) := by
  unfold FixedVector.popBack
  refine ⟨1, fun n => ?_⟩
  rw [Nat.add_comm]
  unfold FV.popBack
  by_cases h : s.back = 0
  · rw [if_pos h, members_bind, if_pos h]
    rfl
  · rw [if_neg h, members_bind, if_neg h, update_bind, members_bind]
    dsimp only
    cases arrGet s.data (s.back - 1) <;> rfl

theorem resize_agrees (s : FixedVector.St T) (num : Nat) (x : T) :
    Agrees (FV.resize num x) s (FixedVector.resize s num x) := by
  have hfill : ∀ (m i : Nat) (d : List T), i + m ≤ d.length → ∃ d', FixedVector.fillFrom d i m x = .ok d' ∧ d'.length = d.length ∧
      ∀ k, d'[k]? = if i ≤ k ∧ k < i + m then some x else d[k]? := by
    intro m
    induction m with
    | zero => exact fun i d _ => ⟨d, rfl, rfl, fun k => by rw [if_neg (by omega)]⟩
    | succ m ih =>
      intro i d h
      obtain ⟨d', h1, h2, h3⟩ := ih (i + 1) (d.set i x) (by simp; omega)
      refine ⟨d', ?_, by simpa using h2, fun k => ?_⟩
      · unfold FixedVector.fillFrom
        rw [arrSet_lt (by omega), R.bind_ok, h1]
      · rw [h3 k, List.getElem?_set]
        by_cases hk : i + 1 ≤ k ∧ k < i + 1 + m
        · rw [if_pos hk, if_pos (by omega)]
        · rw [if_neg hk]
          by_cases hi : i = k
          · subst hi
            rw [if_pos rfl, if_pos (by omega), if_pos (by omega)]
          · rw [if_neg hi, if_neg (by omega)]
  refine ⟨1 + (min num s.data.length - s.back), fun n => ?_⟩
  unfold FV.resize FixedVector.resize
  rw [show 1 + (min num s.data.length - s.back) + n = min num s.data.length - s.back + n + 1 by omega, elem_succ, members_bind]
  dsimp only
  by_cases hb : min num s.data.length > s.back
  · rw [if_pos hb]
    obtain ⟨d, a1, a2, a3⟩ := fill_spec x (min num s.data.length - s.back) s.back (min num s.data.length - s.back + n) s (by omega)
    obtain ⟨d', b1, b2, b3⟩ := hfill (min num s.data.length - s.back) s.back s.data (by omega)
    have e : d = d' := by
      apply List.ext_getElem?
      intro k
      rw [a2 k, b3 k, Nat.min_eq_left (by omega)]
    rw [bind_apply, a3, if_pos (by omega), b1, e, Nat.add_sub_cancel_left]
    rfl
  · rw [if_neg hb, show min num s.data.length - s.back = 0 by omega, Nat.zero_add]
    rfl

theorem resize_strong (num : Nat) (el : T) : Strong FixedVector.toList (FV.resize num el) := by
  intro s n s' h
  unfold FV.resize at h
  cases n with
  | zero => rw [elem_zero] at h; cases h; rfl
  | succ n =>
    rw [elem_succ, members_bind] at h
    by_cases hb : min num s.data.length ≤ s.back
    · rw [show min num s.data.length - s.back = 0 by omega] at h
      cases h
    · obtain ⟨d, h1, h2, h3⟩ := fill_spec el (min num s.data.length - s.back) s.back n s (by omega)
      simp only [bind_apply] at h
      rw [h3] at h
      split at h
      · cases h
      · next hx =>
        split at hx
        · cases hx
        · cases hx
          cases h
          unfold FixedVector.toList
          apply List.ext_getElem?
          intro k
          simp only [List.getElem?_take]
          by_cases hk : k < s.back
          · rw [if_pos hk, if_pos hk, h2 k, if_neg (by omega)]
          · rw [if_neg hk, if_neg hk]
      · cases h

theorem stack_push_strong (M : Nat) (el : T) : Strong id (Stack.pushBack M el) := by
  intro s n s' h
  unfold Stack.pushBack at h
  match n, h with
  | 0, h => rw [elem_zero] at h; cases h; rfl
  | 1, h => rw [elem_succ, elem_zero] at h; cases h; rfl
  | n + 2, h =>
    rw [elem_succ, elem_succ, members_bind] at h
    by_cases hs : s.top < s.data.length
    · rw [arrSet_lt hs, access_ok] at h; cases h
    · rw [arrSet_ub.2 (by omega), access_ub] at h; cases h

theorem circ_put_strong (N : Nat) (x : T) : Strong id (Circ.put N x) := by
  intro s n s' h
  unfold Circ.put at h
  match n, h with
  | 0, h => rw [elem_zero] at h; cases h; rfl
  | 1, h => rw [elem_succ, elem_zero] at h; cases h; rfl
  | n + 2, h =>
    rw [elem_succ, elem_succ, members_bind] at h
    by_cases hs : s.head < s.buf.length
    · rw [arrSet_lt hs, access_ok] at h; cases h
    · rw [arrSet_ub.2 (by omega), access_ub] at h; cases h

theorem circ_get_strong (N : Nat) (dflt : T) : Strong id (Circ.get N dflt) := by
  intro s n s' h
  unfold Circ.get at h
  rw [members_bind] at h
  split at h
  · cases n with
    | zero => rw [elem_zero] at h; cases h; rfl
    | succ n => rw [elem_succ] at h; cases h
  · cases ha : arrGet s.buf s.tail with
    | ub => rw [ha, access_ub] at h; cases h
    | ok v =>
      rw [ha, access_ok] at h
      cases n with
      | zero => rw [elem_zero] at h; cases h; rfl
      | succ n => rw [elem_succ] at h; cases h

theorem seq_insert_strong [DecidableEq K] (key : K) (val : V) : Strong seqView (Seq.insert key val) := by
  intro s n s' h
  unfold Seq.insert at h
  rw [members_bind] at h
  split at h
  · cases h
  · rw [arrSet_lt (by omega), access_ok, update_bind] at h
    cases n with
    | zero =>
      rw [elem_zero] at h
      cases h
      simp [seqView, List.take_set_of_le]
    | succ n =>
      rw [elem_succ] at h
      cases ha : arrSet s.vals s.sz val with
      | ub => rw [ha, access_ub] at h; cases h
      | ok v => rw [ha, access_ok] at h; cases h

/-- **C247 (partial)**: wherever in the call a copy throws, these leave what can be seen as it was: FixedVector's push_back and resize,
CircularStack's push_back, CircularBuffer's put and get, CircularBufferOpt's put, SeqMap's insert. Missing: the others (see below). -/
theorem C247_strong_partial [DecidableEq K] (x dflt : T) (num M N : Nat) (key : K) (val : V) :
    Strong id (FV.pushBack x) ∧ Strong FixedVector.toList (FV.resize num x) ∧ Strong id (Stack.pushBack M x) ∧
    Strong id (Circ.put N x) ∧ Strong id (Circ.get N dflt) ∧ Strong seqView (Seq.insert key val) :=
  ⟨push_strong x, resize_strong num x, stack_push_strong M x, circ_put_strong N x, circ_get_strong N dflt, seq_insert_strong key val⟩

/-- exceptions happen in each: the third element operation of a resize -/
example : FV.resize 4 9 (⟨[1, 2, 3, 4], 1⟩ : FixedVector.St Nat) 2 = .threw ⟨[1, 9, 3, 4], 1⟩ ∧
    FV.pushBack 9 (⟨[1, 2, 3, 4], 1⟩ : FixedVector.St Nat) 1 = .threw ⟨[1, 2, 3, 4], 1⟩ ∧
    Stack.pushBack 2 9 (⟨[1, 2], 1, 0, false⟩ : CircStack.St Nat) 1 = .threw ⟨[1, 2], 1, 0, false⟩ ∧
    Circ.get 2 0 (⟨[1, 2], 1, 0, false⟩ : CircBuf.St Nat) 0 = .threw ⟨[1, 2], 1, 0, false⟩ ∧
    Seq.insert 5 7 (⟨[1, 2], [3, 4], 1, 0⟩ : SeqMap.St Nat Nat) 0 = .threw ⟨[1, 5], [3, 4], 1, 0⟩ := by decide

/-- how far `std::move` downwards gets -/
theorem moveDown_spec (m : Nat) : ∀ (i n : Nat) (s : FixedVector.St T), i + m < s.data.length →
    ∃ d, d.length = s.data.length ∧ (∀ k, d[k]? = if i ≤ k ∧ k < i + min m n then s.data[k + 1]? else s.data[k]?) ∧
      FV.moveDown i m s n = if m ≤ n then .done () { s with data := d } (n - m) else .threw { s with data := d } := by
  induction m with
  | zero =>
    intro i n s h
    refine ⟨s.data, rfl, fun k => ?_, ?_⟩
    · rw [if_neg (by omega)]
    · rw [if_pos (by omega)]; rfl
  | succ m ih =>
    intro i n s h
    have e : FV.moveDown i (m + 1) s n = (FV.assign i (s.data[i + 1]'(by omega)) >>= fun _ => FV.moveDown (i + 1) m) s n := by
      show (FV.moveOne (i + 1) i >>= fun _ => FV.moveDown (i + 1) m) s n = _
      rw [bind_apply]
      unfold FV.moveOne
      rw [members_bind, arrGet_lt (by omega), access_ok]
      rfl
    rw [e, bind_apply]
    cases n with
    | zero =>
      refine ⟨s.data, rfl, fun k => ?_, ?_⟩
      · rw [if_neg (by omega)]
      · rw [if_neg (by omega), assign_zero]
    | succ n =>
      rw [assign_succ _ _ _ _ (by omega)]
      obtain ⟨d, h1, h2, h3⟩ := ih (i + 1) n { s with data := s.data.set i (s.data[i + 1]'(by omega)) } (by simp; omega)
      refine ⟨d, by simpa using h1, fun k => ?_, ?_⟩
      · rw [h2 k]
        simp only [List.getElem?_set]
        by_cases hk : i + 1 ≤ k ∧ k < i + 1 + min m n
        · rw [if_pos hk, if_neg (by omega), if_pos (by omega)]
        · rw [if_neg hk]
          by_cases hi : i = k
          · subst hi
            rw [if_pos rfl, if_pos (by omega), if_pos (by omega), List.getElem?_eq_getElem (by omega)]
          · rw [if_neg hi, if_neg (by omega)]
      · show FV.moveDown (i + 1) m _ n = _
        rw [h3]
        by_cases hm : m ≤ n
        · rw [if_pos hm, if_pos (by omega), show n + 1 - (m + 1) = n - m by omega]
        · rw [if_neg hm, if_neg (by omega)]

/-- how far `std::move_backward` gets -/
theorem moveUp_spec (i m : Nat) : ∀ (n : Nat) (s : FixedVector.St T), i + m < s.data.length →
    ∃ d, d.length = s.data.length ∧ (∀ k, d[k]? = if i + m - min m n < k ∧ k ≤ i + m then s.data[k - 1]? else s.data[k]?) ∧
      FV.moveUp i m s n = if m ≤ n then .done () { s with data := d } (n - m) else .threw { s with data := d } := by
  induction m with
  | zero =>
    intro n s h
    refine ⟨s.data, rfl, fun k => ?_, ?_⟩
    · rw [if_neg (by omega)]
    · rw [if_pos (by omega)]; rfl
  | succ m ih =>
    intro n s h
    have e : FV.moveUp i (m + 1) s n = (FV.assign (i + m + 1) (s.data[i + m]'(by omega)) >>= fun _ => FV.moveUp i m) s n := by
      show (FV.moveOne (i + m) (i + m + 1) >>= fun _ => FV.moveUp i m) s n = _
      rw [bind_apply]
      unfold FV.moveOne
      rw [members_bind, arrGet_lt (by omega), access_ok]
      rfl
    rw [e, bind_apply]
    cases n with
    | zero =>
      refine ⟨s.data, rfl, fun k => ?_, ?_⟩
      · rw [if_neg (by omega)]
      · rw [if_neg (by omega), assign_zero]
    | succ n =>
      rw [assign_succ _ _ _ _ (by omega)]
      obtain ⟨d, h1, h2, h3⟩ := ih n { s with data := s.data.set (i + m + 1) (s.data[i + m]'(by omega)) } (by simp; omega)
      refine ⟨d, by simpa using h1, fun k => ?_, ?_⟩
      · rw [h2 k]
        simp only [List.getElem?_set]
        by_cases hk : i + m - min m n < k ∧ k ≤ i + m
        · rw [if_pos hk, if_neg (by omega), if_pos (by omega)]
        · rw [if_neg hk]
          by_cases hi : i + m + 1 = k
          · subst hi
            rw [if_pos rfl, if_pos (by omega), if_pos (by omega), List.getElem?_eq_getElem (by omega)]
            rfl
          · rw [if_neg hi, if_neg (by omega)]
      · show FV.moveUp i m _ n = _
        rw [h3]
        by_cases hm : m ≤ n
        · rw [if_pos hm, if_pos (by omega), show n + 1 - (m + 1) = n - m by omega]
        · rw [if_neg hm, if_neg (by omega)]

theorem up_range (d d' : List T) (i m : Nat) (h : i + m < d.length) (hl : d'.length = d.length)
    (hd : ∀ k, d'[k]? = if i < k ∧ k ≤ i + m then d[k - 1]? else d[k]?) :
    FixedVector.moveRange d i (i + m) (i + 1) = .ok d' := by
  unfold FixedVector.moveRange
  rw [if_pos (by omega), show i + m - i = m by omega]
  congr 1
  apply List.ext_getElem?
  intro k
  rw [hd k]
  simp only [List.getElem?_append, List.getElem?_take, List.getElem?_drop, List.length_append, List.length_take, List.length_drop]
  by_cases h1 : k < i + 1
  · rw [if_pos (by omega), if_pos (by omega), if_pos h1, if_neg (by omega)]
  · by_cases h2 : k ≤ i + m
    · rw [if_pos (by omega), if_neg (by omega), if_pos (by omega), if_pos (by omega)]
      congr 1; omega
    · rw [if_neg (by omega), if_neg (by omega)]
      congr 1; omega

theorem down_range (d d' : List T) (i m : Nat) (h : i + m < d.length) (hl : d'.length = d.length)
    (hd : ∀ k, d'[k]? = if i ≤ k ∧ k < i + m then d[k + 1]? else d[k]?) :
    FixedVector.moveRange d (i + 1) (i + 1 + m) i = .ok d' := by
  unfold FixedVector.moveRange
  rw [if_pos (by omega), show i + 1 + m - (i + 1) = m by omega]
  congr 1
  apply List.ext_getElem?
  intro k
  rw [hd k]
  simp only [List.getElem?_append, List.getElem?_take, List.getElem?_drop, List.length_append, List.length_take, List.length_drop]
  by_cases h1 : k < i
  · rw [if_pos (by omega), if_pos (by omega), if_pos h1, if_neg (by omega)]
  · by_cases h2 : k < i + m
    · rw [if_pos (by omega), if_neg (by omega), if_pos (by omega), if_pos (by omega)]
      congr 1; omega
    · rw [if_neg (by omega), if_neg (by omega)]
      congr 1; omega

theorem insert_agrees (s : FixedVector.St T) (index : Nat) (x : T) :
    Agrees (FV.insert index x) s (do let s ← FixedVector.insert false s index x; pure (s, ())) := by
  unfold FixedVector.insert FixedVector.maxSize
  by_cases h : s.back ≥ s.data.length ∨ index > s.back
  · refine ⟨1, fun n => ?_⟩
    rw [if_pos h, Nat.add_comm]
    unfold FV.insert
    rw [elem_succ, members_bind, if_pos h]
    rfl
  · by_cases hi : index = s.back
    · obtain ⟨k, hk⟩ := push_agrees s x
      refine ⟨k + 1, fun n => ?_⟩
      rw [if_neg h, if_pos hi, show k + 1 + n = k + n + 1 by omega]
      unfold FV.insert
      rw [elem_succ, members_bind, if_neg h, if_pos hi, bind_apply, hk n]
      cases FixedVector.pushBack s x <;> rfl
    · refine ⟨2 + (s.back - index), fun n => ?_⟩
      rw [if_neg h, if_neg hi, show 2 + (s.back - index) + n = s.back - index + (n + 1) + 1 by omega]
      unfold FV.insert
      rw [elem_succ, members_bind, if_neg h, if_neg hi]
      obtain ⟨d, h1, h2, h3⟩ := moveUp_spec index (s.back - index) (s.back - index + (n + 1)) s (by omega)
      have hr := up_range s.data d index (s.back - index) (by omega) h1 (by
        intro k
        rw [h2 k, Nat.min_eq_left (by omega), show index + (s.back - index) - (s.back - index) = index by omega])
      rw [show index + (s.back - index) = s.back by omega] at hr
      have ha : ∀ i, i ≤ s.data.length → FixedVector.addr false s.data i = .ok i := by
        intro i hi
        unfold FixedVector.addr
        rw [if_pos ((Nat.lt_or_ge i s.data.length).imp_right fun h => ⟨rfl, by omega⟩)]
      rw [ha _ (by omega), ha _ (by omega), ha _ (by omega), R.bind_ok, R.bind_ok, R.bind_ok,
        show s.back + 1 - (s.back - index) = index + 1 by omega, hr, R.bind_ok, arrSet_lt (by omega),
        bind_apply, h3, if_pos (by omega), Nat.add_sub_cancel_left]
      simp only []
      rw [bind_apply, assign_succ _ _ _ _ (by show index < d.length; omega)]
      rfl

theorem erase_agrees (s : FixedVector.St T) (index : Nat) (hs : s.back ≤ s.data.length) :
    Agrees (FV.erase index) s (do let s ← FixedVector.erase false s index; pure (s, ())) := by
  unfold FixedVector.erase
  by_cases h : s.back = 0 ∨ index ≥ s.back
  · refine ⟨0, fun n => ?_⟩
    rw [if_pos h, Nat.zero_add]
    unfold FV.erase
    rw [members_bind, if_pos h]
    rfl
  · by_cases hi : index = s.back - 1
    · refine ⟨0, fun n => ?_⟩
      rw [if_neg h, if_pos hi, Nat.zero_add]
      unfold FV.erase
      rw [members_bind, if_neg h, if_pos hi]
      rfl
    · refine ⟨s.back - 1 - index, fun n => ?_⟩
      rw [if_neg h, if_neg hi]
      unfold FV.erase
      rw [members_bind, if_neg h, if_neg hi]
      obtain ⟨d, h1, h2, h3⟩ := moveDown_spec (s.back - 1 - index) index (s.back - 1 - index + n) s (by omega)
      have hr := down_range s.data d index (s.back - 1 - index) (by omega) h1 (by
        intro k
        rw [h2 k, Nat.min_eq_left (by omega)])
      rw [show index + 1 + (s.back - 1 - index) = s.back by omega] at hr
      have ha : ∀ i, i ≤ s.data.length → FixedVector.addr false s.data i = .ok i := by
        intro i hi
        unfold FixedVector.addr
        rw [if_pos ((Nat.lt_or_ge i s.data.length).imp_right fun h => ⟨rfl, by omega⟩)]
      rw [ha _ (by omega), ha _ (by omega), ha _ (by omega), R.bind_ok, R.bind_ok, R.bind_ok, hr, R.bind_ok,
        bind_apply, h3, if_pos (by omega), Nat.add_sub_cancel_left]
      rfl

theorem stack_push_agrees (M : Nat) (s : CircStack.St T) (x : T) :
    Agrees (Stack.pushBack M x) s (do let s ← CircStack.pushBack M s x; pure (s, ())) := by
  refine ⟨2, fun n => ?_⟩
  rw [Nat.add_comm]
  unfold Stack.pushBack CircStack.pushBack
  rw [elem_succ, elem_succ, members_bind]
  cases arrSet s.data s.top x <;> rfl

theorem stack_pop_agrees (M : Nat) (s : CircStack.St T) : Agrees (Stack.popBack M) s (CircStack.popBack M s) := by
  unfold CircStack.popBack
  by_cases h : CircStack.size M s = 0
  · refine ⟨0, fun n => ?_⟩
    rw [if_pos h, Nat.zero_add]
    unfold Stack.popBack
    rw [members_bind, if_pos h]
    rfl
  · refine ⟨1, fun n => ?_⟩
    rw [if_neg h, Nat.add_comm]
    unfold Stack.popBack
    rw [members_bind, if_neg h, update_bind, members_bind]
    dsimp only
    cases arrGet s.data (if s.top = 0 then M - 1 else s.top - 1) <;> rfl

theorem circ_put_agrees (N : Nat) (s : CircBuf.St T) (x : T) :
    Agrees (Circ.put N x) s (do let s ← CircBuf.put N s x; pure (s, ())) := by
  refine ⟨2, fun n => ?_⟩
  rw [Nat.add_comm]
  unfold Circ.put CircBuf.put
  rw [elem_succ, elem_succ, members_bind]
  cases arrSet s.buf s.head x <;> rfl

theorem circ_get_agrees (N : Nat) (s : CircBuf.St T) (dflt : T) : Agrees (Circ.get N dflt) s (CircBuf.get N dflt s) := by
  refine ⟨1, fun n => ?_⟩
  rw [Nat.add_comm]
  unfold Circ.get CircBuf.get
  rw [members_bind]
  by_cases h : CircBuf.empty s = true
  · rw [if_pos h, if_pos h]; rfl
  · rw [if_neg h, if_neg h]
    cases arrGet s.buf s.tail <;> rfl

theorem circ_getOpt_agrees (N : Nat) (s : CircBuf.St T) : Agrees (Circ.getOpt N) s (CircBuf.getOpt N s) := by
  by_cases h : CircBuf.empty s = true
  · refine ⟨0, fun n => ?_⟩
    rw [Nat.zero_add]
    unfold Circ.getOpt CircBuf.getOpt
    rw [members_bind, if_pos h, if_pos h]; rfl
  · refine ⟨2, fun n => ?_⟩
    rw [Nat.add_comm]
    unfold Circ.getOpt CircBuf.getOpt
    rw [members_bind, if_neg h, if_neg h]
    cases arrGet s.buf s.tail <;> rfl

theorem seq_insert_agrees [DecidableEq K] (s : SeqMap.St K V) (key : K) (val : V) :
    Agrees (Seq.insert key val) s (SeqMap.insert s key val) := by
  unfold SeqMap.insert
  by_cases h : s.sz ≥ s.keys.length
  · refine ⟨0, fun n => ?_⟩
    rw [Nat.zero_add]
    unfold Seq.insert
    rw [members_bind, if_pos h, if_pos h]; rfl
  · refine ⟨1, fun n => ?_⟩
    rw [Nat.add_comm]
    unfold Seq.insert
    rw [members_bind, if_neg h, if_neg h]
    cases arrSet s.keys s.sz key with
    | ub => rfl
    | ok ks =>
      rw [access_ok, update_bind, elem_succ, R.bind_ok]
      cases arrSet s.vals s.sz val <;> rfl

theorem seq_overwrite_agrees [DecidableEq K] (s : SeqMap.St K V) (key : K) (val : V) :
    Agrees (Seq.overwrite key val) s (SeqMap.overwrite s key val) := by
  refine ⟨1, fun n => ?_⟩
  rw [Nat.add_comm]
  unfold SeqMap.overwrite Seq.overwrite
  rw [members_bind]
  cases SeqMap.scan s key with
  | some i =>
    dsimp only
    rw [elem_succ]
    cases arrSet s.vals i val <;> rfl
  | none =>
    dsimp only
    rw [update_bind]
    by_cases h : s.sz ≥ s.keys.length
    · simp only [if_pos h]
      cases arrSet s.keys s.oldest key with
      | ub => rfl
      | ok ks =>
        rw [access_ok, update_bind, elem_succ, R.bind_ok]
        cases arrSet s.vals s.oldest val <;> rfl
    · simp only [if_neg h]
      cases arrSet s.keys s.sz key with
      | ub => rfl
      | ok ks =>
        rw [access_ok, update_bind, elem_succ, R.bind_ok]
        cases arrSet s.vals s.sz val <;> rfl

/-- **C247, the model against the other models of the same functions**: with enough successful element operations, each call does what the model
without exceptions says, undefined behaviour included. -/
theorem C247_agrees [DecidableEq K] (v : FixedVector.St T) (hv : v.back ≤ v.data.length) (st : CircStack.St T) (cb : CircBuf.St T)
    (m : SeqMap.St K V) (x dflt : T) (num index M N : Nat) (key : K) (val : V) :
    Agrees (FV.pushBack x) v (FixedVector.pushBack v x) ∧ Agrees (FV.popBack dflt) v (FixedVector.popBack dflt v) ∧
    Agrees (FV.resize num x) v (FixedVector.resize v num x) ∧
    Agrees (FV.insert index x) v (do let s ← FixedVector.insert false v index x; pure (s, ())) ∧
    Agrees (FV.erase index) v (do let s ← FixedVector.erase false v index; pure (s, ())) ∧
    Agrees (Stack.pushBack M x) st (do let s ← CircStack.pushBack M st x; pure (s, ())) ∧
    Agrees (Stack.popBack M) st (CircStack.popBack M st) ∧
    Agrees (Circ.put N x) cb (do let s ← CircBuf.put N cb x; pure (s, ())) ∧
    Agrees (Circ.get N dflt) cb (CircBuf.get N dflt cb) ∧ Agrees (Circ.getOpt N) cb (CircBuf.getOpt N cb) ∧
    Agrees (Seq.insert key val) m (SeqMap.insert m key val) ∧ Agrees (Seq.overwrite key val) m (SeqMap.overwrite m key val) :=
  ⟨push_agrees v x, pop_agrees v dflt, resize_agrees v num x, insert_agrees v index x, erase_agrees v index hv,
    stack_push_agrees M st x, stack_pop_agrees M st, circ_put_agrees N cb x, circ_get_agrees N cb dflt, circ_getOpt_agrees N cb,
    seq_insert_agrees m key val, seq_overwrite_agrees m key val⟩

example : (⟨[1, 2, 3], 2⟩ : FixedVector.St Nat).back ≤ (⟨[1, 2, 3], 2⟩ : FixedVector.St Nat).data.length := by decide

/-- **C247 is violated** by FixedVector's erase, exactly so: if element operation number `b` (counted from 0) throws, the size is as before,
the `b` elements after the erased one have each moved down by one place, and the others are where they were: as soon as `b > 0` the
element to be erased is gone, and its successor number `b` is there twice. -/
theorem C247_erase_violated (s : FixedVector.St T) (index b : Nat) (hs : s.back ≤ s.data.length) (hi : index + 1 < s.back)
    (hb : b < s.back - 1 - index) :
    ∃ s', FV.erase index s b = .threw s' ∧ FixedVector.size s' = FixedVector.size s ∧
      ∀ k, (FixedVector.toList s')[k]? = if index ≤ k ∧ k < index + b then (FixedVector.toList s)[k + 1]? else (FixedVector.toList s)[k]? := by
  obtain ⟨d, h1, h2, h3⟩ := moveDown_spec (s.back - 1 - index) index b s (by omega)
  refine ⟨{ s with data := d }, ?_, rfl, fun k => ?_⟩
  · unfold FV.erase
    rw [members_bind, if_neg (by omega), if_neg (by omega), bind_apply, h3, if_neg (by omega)]
  · unfold FixedVector.toList
    simp only [List.getElem?_take]
    by_cases hk : k < s.back
    · rw [if_pos hk, h2 k, show min (s.back - 1 - index) b = b by omega]
      by_cases hc : index ≤ k ∧ k < index + b
      · rw [if_pos hc, if_pos hc, if_pos (by omega)]
      · rw [if_neg hc, if_neg hc, if_pos hk]
    · rw [if_neg hk, if_neg (by omega), if_neg hk]

/-- erasing the first of four, the third copy throws -/
example : FV.erase 0 (⟨[1, 2, 3, 4], 4⟩ : FixedVector.St Nat) 2 = .threw ⟨[2, 3, 3, 4], 4⟩ := by decide

/-- **C247 is violated** by FixedVector's insert, exactly so: if after the copy of the argument `j` element operations succeed and the next one
throws, the size is as before, and the last `j - 1` visible places hold the elements of the places before them: as soon as `j > 1` the last
element is lost and another is there twice. -/
theorem C247_insert_violated (s : FixedVector.St T) (index j : Nat) (x : T) (hs : s.back < s.data.length) (hi : index < s.back)
    (hj : j ≤ s.back - index) :
    ∃ s', FV.insert index x s (1 + j) = .threw s' ∧ FixedVector.size s' = FixedVector.size s ∧
      ∀ k, (FixedVector.toList s')[k]? =
        if s.back - j < k ∧ k < s.back then (FixedVector.toList s)[k - 1]? else (FixedVector.toList s)[k]? := by
  obtain ⟨d, h1, h2, h3⟩ := moveUp_spec index (s.back - index) j s (by omega)
  refine ⟨{ s with data := d }, ?_, rfl, fun k => ?_⟩
  · unfold FV.insert
    rw [Nat.add_comm 1 j, elem_succ, members_bind, if_neg (by omega), if_neg (by omega), bind_apply, h3]
    by_cases hc : s.back - index ≤ j
    · rw [if_pos hc, show j - (s.back - index) = 0 by omega]
      rfl
    · rw [if_neg hc]
  · unfold FixedVector.toList
    simp only [List.getElem?_take]
    by_cases hk : k < s.back
    · rw [if_pos hk, h2 k, show min (s.back - index) j = j by omega, show index + (s.back - index) = s.back by omega]
      by_cases hc : s.back - j < k ∧ k < s.back
      · rw [if_pos hc, if_pos (by omega), if_pos (by omega)]
      · rw [if_neg hc, if_neg (by omega), if_pos hk]
    · rw [if_neg hk, if_neg (by omega), if_neg hk]

/-- inserting in front of four, the fourth copy throws -/
example : FV.insert 0 9 (⟨[1, 2, 3, 4, 0], 4⟩ : FixedVector.St Nat) (1 + 3) = .threw ⟨[1, 2, 2, 3, 4], 4⟩ := by decide

/-- **C247 is violated** by the functions that remove before they copy: FixedVector's pop_back, CircularStack's pop_back and
CircularBufferOpt's get (where the move into the result may throw) have removed the element that the caller does not get. -/
theorem C247_pop_violated :
    (∀ (s : FixedVector.St T) (dflt : T), 0 < s.back → s.back ≤ s.data.length →
      ∃ s', FV.popBack dflt s 0 = .threw s' ∧ FixedVector.toList s' = (FixedVector.toList s).dropLast) ∧
    (∀ (M : Nat) (s s' : CircStack.St T) (x : T), CircStack.popBack M s = .ok (s', some x) → Stack.popBack M s 0 = .threw s') ∧
    (∀ (N : Nat) (s s' : CircBuf.St T) (x : T), CircBuf.getOpt N s = .ok (s', some x) → Circ.getOpt N s 1 = .threw s') := by
  refine ⟨?_, ?_, ?_⟩
  · intro s dflt h0 hs
    refine ⟨{ s with back := s.back - 1 }, ?_, ?_⟩
    · unfold FV.popBack
      rw [members_bind, if_neg (by omega), update_bind, members_bind, arrGet_lt (by show s.back - 1 < s.data.length; omega), access_ok, elem_zero]
    · unfold FixedVector.toList
      rw [List.dropLast_eq_take, List.length_take, Nat.min_eq_left hs, List.take_take, Nat.min_eq_left (by omega)]
  · intro M s s' x h
    unfold CircStack.popBack at h
    unfold Stack.popBack
    rw [members_bind]
    split at h
    · cases h
    · next hne =>
      rw [if_neg hne, update_bind, members_bind]
      dsimp only at h ⊢
      cases ha : arrGet s.data (if s.top = 0 then M - 1 else s.top - 1) with
      | ub => rw [ha] at h; cases h
      | ok v =>
        rw [ha] at h
        simp only [access_ok, elem_zero]
        injection h with h
        injection h with h _
        rw [h]
  · intro N s s' x h
    unfold CircBuf.getOpt at h
    unfold Circ.getOpt
    rw [members_bind]
    split at h
    · cases h
    · next hne =>
      rw [if_neg hne]
      cases ha : arrGet s.buf s.tail with
      | ub => rw [ha] at h; cases h
      | ok v =>
        rw [ha] at h
        rw [access_ok, elem_succ, update_bind, update_bind, elem_zero]
        injection h with h
        injection h with h _
        rw [← h]

example : FV.popBack 0 (⟨[1, 2, 3], 2⟩ : FixedVector.St Nat) 0 = .threw ⟨[1, 2, 3], 1⟩ ∧
    Circ.getOpt 2 (⟨[7, 8], 1, 0, false⟩ : CircBuf.St Nat) 1 = .threw ⟨[7, 8], 1, 1, false⟩ := by decide

/-- **C247 is violated** by SeqMap's overwrite: if the copy of the value throws, a full map has already given the place of its oldest key to the
new one, which is then found with the value of the key that is lost. -/
theorem C247_overwrite_violated [DecidableEq K] (s : SeqMap.St K V) (key : K) (val old : V) (hs : s.sz = s.keys.length)
    (ho : s.oldest < s.keys.length) (hv : s.vals[s.oldest]? = some old) (hk : key ∉ s.keys) :
    ∃ s', Seq.overwrite key val s 0 = .threw s' ∧ SeqMap.get s' key = .ok (some old) ∧ s'.sz = s.sz := by
  have hscan : SeqMap.scan s key = none := by
    unfold SeqMap.scan
    rw [hs, List.take_length, List.findIdx?_eq_none_iff]
    intro k hm
    simp only [decide_eq_false_iff_not]
    intro e
    exact hk (e ▸ hm)
  refine ⟨⟨s.keys.set s.oldest key, s.vals, s.sz, if s.oldest + 1 ≥ s.keys.length then 0 else s.oldest + 1⟩, ?_, ?_, rfl⟩
  · unfold Seq.overwrite
    rw [members_bind, hscan]
    simp only
    rw [if_pos (by omega), update_bind, if_pos (by omega), arrSet_lt ho, access_ok, update_bind, elem_zero]
  · unfold SeqMap.get SeqMap.getIdx
    have hsc : SeqMap.scan (⟨s.keys.set s.oldest key, s.vals, s.sz, if s.oldest + 1 ≥ s.keys.length then 0 else s.oldest + 1⟩ : SeqMap.St K V) key =
        some s.oldest := by
      unfold SeqMap.scan
      simp only [hs]
      rw [List.take_of_length_le (by simp), List.findIdx?_eq_some_iff_getElem]
      refine ⟨by simpa using ho, by simp, ?_⟩
      intro j hj
      rw [List.getElem_set_ne (by omega)]
      simp only [decide_eq_true_eq]
      intro e
      exact hk (e ▸ List.getElem_mem _)
    rw [hsc]
    simp only
    rw [arrGet_some hv]
    rfl

example : Seq.overwrite 9 90 (⟨[1, 2], [10, 20], 2, 0⟩ : SeqMap.St Nat Nat) 0 = .threw ⟨[9, 2], [10, 20], 2, 1⟩ := by decide

/-- **C247 is violated** by SequentialMap's operator[]: if the copy of a new key throws, the map has one more entry, whose key and value are what
happened to be in the place (for example an erased entry). -/
theorem C247_index_violated [DecidableEq K] (s : SequentialMap.St K V) (key : K) (p : K × V) (hs : s.back < s.data.length)
    (hp : s.data[s.back]? = some p) (hk : ∀ q ∈ FixedVector.toList s, q.1 ≠ key) :
    ∃ s', SMap.index key s 1 = .threw s' ∧ FixedVector.toList s' = FixedVector.toList s ++ [p] := by
  have hsearch : ∀ (l : List (K × V)) (i : Nat), (∀ q ∈ l, q.1 ≠ key) → SequentialMap.search key l i = none := by
    intro l
    induction l with
    | nil => intro i _; rfl
    | cons q l ih =>
      intro i h
      unfold SequentialMap.search
      rw [if_neg (h q (List.mem_cons_self ..)), ih _ fun q hq => h q (List.mem_cons_of_mem _ hq)]
  have e : FixedVector.pushBackForOverwrite s = ({ s with back := s.back + 1 }, s.back) := by
    unfold FixedVector.pushBackForOverwrite
    rw [if_neg (by omega)]
  refine ⟨{ s with back := s.back + 1 }, ?_, ?_⟩
  · unfold SMap.index
    rw [elem_succ, members_bind, hsearch _ _ hk]
    simp only [e]
    rw [update_bind, if_neg (by show ¬ s.back = s.data.length; omega), bind_apply, pure_apply]
    simp only [e]
    rw [members_bind, arrGet_some hp, access_ok, elem_zero]
  · unfold FixedVector.toList
    rw [List.take_add_one]
    simp [hp]

example : SMap.index 5 (⟨[(1, 10), (2, 20), (3, 30)], 1⟩ : SequentialMap.St Nat Nat) 1 = .threw ⟨[(1, 10), (2, 20), (3, 30)], 2⟩ := by decide

/-- number of free entries -/
def free (l : List (Pool.Entry T)) : Nat := l.countP fun e => !e.used

theorem create_free (l : List (Pool.Entry T)) (h : 0 < free l) : ∀ i, ∃ k, (Pool.createLoop id l i).2 = some k ∧
    free (Pool.createLoop id l i).1 + 1 = free l := by
  induction l with
  | nil => simp [free] at h
  | cons e l ih =>
    intro i
    unfold Pool.createLoop
    cases he : e.used with
    | false => exact ⟨i, by simp, by simp [free, he]⟩
    | true =>
      have h' : 0 < free l := by simpa [free, he] using h
      obtain ⟨k, h1, h2⟩ := ih h' (i + 1)
      refine ⟨k, by simpa using h1, ?_⟩
      simpa [free, he] using h2

/-- **C247 is violated** by Pool's create: if the construction (or the assignment) of the new object throws, an entry is in use that nobody has a
pointer to: each such failure makes the pool smaller by one, for good. -/
theorem C247_create_violated (l : List (Pool.Entry T)) (dflt : T) (b : Nat) (hb : b < 2) (h : 0 < free l) :
    ∃ l', Pl.create dflt l b = .threw l' ∧ free l' + 1 = free l := by
  obtain ⟨k, h1, h2⟩ := create_free l h 0
  refine ⟨(Pool.createForOverwrite l).1, ?_, h2⟩
  unfold Pl.create
  rw [members_bind, show (Pool.createForOverwrite l).2 = some k from h1]
  simp only
  rw [update_bind]
  match b, hb with
  | 0, _ => rw [elem_zero]
  | 1, _ => rw [elem_succ, elem_zero]

example : free ([⟨1, true⟩, ⟨2, false⟩, ⟨3, false⟩] : List (Pool.Entry Nat)) = 2 ∧
    Pl.create 0 ([⟨1, true⟩, ⟨2, false⟩, ⟨3, false⟩] : List (Pool.Entry Nat)) 1 = .threw [⟨1, true⟩, ⟨2, true⟩, ⟨3, false⟩] := by decide

theorem smap_index_agrees [DecidableEq K] (s : SequentialMap.St K V) (key : K) : Agrees (SMap.index key) s (SequentialMap.index s key) := by
  unfold SequentialMap.index SMap.index
  cases hse : SequentialMap.search key (FixedVector.toList s) 0 with
  | some i =>
    refine ⟨1, fun n => ?_⟩
    rw [Nat.add_comm, elem_succ, members_bind, hse]
    rfl
  | none =>
    refine ⟨2, fun n => ?_⟩
    rw [Nat.add_comm, elem_succ, members_bind, hse]
    dsimp only
    rw [update_bind]
    have hm : FixedVector.maxSize (FixedVector.pushBackForOverwrite s).1 = FixedVector.maxSize s := by
      unfold FixedVector.pushBackForOverwrite FixedVector.maxSize; split <;> rfl
    rw [hm]
    by_cases h : (FixedVector.pushBackForOverwrite s).2 = FixedVector.maxSize s
    · rw [if_pos h, if_pos h]
      by_cases h0 : (FixedVector.pushBackForOverwrite s).2 = 0
      · rw [if_pos h0, if_pos h0]; rfl
      · rw [if_neg h0, if_neg h0, access_ok, members_bind]
        simp only [R.pure_eq, R.bind_ok]
        cases arrGet (FixedVector.pushBackForOverwrite s).1.data ((FixedVector.pushBackForOverwrite s).2 - 1) with
        | ub => rfl
        | ok old =>
          rw [access_ok, elem_succ, R.bind_ok]
          cases arrSet (FixedVector.pushBackForOverwrite s).1.data ((FixedVector.pushBackForOverwrite s).2 - 1) (key, old.2) <;> rfl
    · rw [if_neg h, if_neg h, bind_apply, pure_apply]
      dsimp only
      rw [members_bind]
      simp only [R.pure_eq, R.bind_ok]
      cases arrGet (FixedVector.pushBackForOverwrite s).1.data (FixedVector.pushBackForOverwrite s).2 with
      | ub => rfl
      | ok old =>
        rw [access_ok, elem_succ, R.bind_ok]
        cases arrSet (FixedVector.pushBackForOverwrite s).1.data (FixedVector.pushBackForOverwrite s).2 (key, old.2) <;> rfl

theorem createLoop_set (dflt : T) (l : List (Pool.Entry T)) : ∀ i k, (Pool.createLoop id l i).2 = some k →
    i ≤ k ∧ (Pool.createLoop (fun _ => dflt) l i).2 = some k ∧ ∃ e, (Pool.createLoop id l i).1[k - i]? = some e ∧ e.used = true ∧
      (Pool.createLoop id l i).1.set (k - i) ⟨dflt, true⟩ = (Pool.createLoop (fun _ => dflt) l i).1 := by
  induction l with
  | nil => intro i k h; simp [Pool.createLoop] at h
  | cons e l ih =>
    intro i k h
    unfold Pool.createLoop at h ⊢
    cases he : e.used with
    | false =>
      simp only [he, Bool.not_false, if_true, Option.some.injEq] at h
      subst h
      refine ⟨Nat.le_refl _, by simp, ⟨⟨e.data, true⟩, by simp⟩⟩
    | true =>
      simp only [he, Bool.not_true, if_false, Bool.false_eq_true] at h ⊢
      obtain ⟨h1, h2, e', h3, h4, h5⟩ := ih (i + 1) k h
      refine ⟨by omega, h2, e', ?_⟩
      obtain ⟨j, hj⟩ : ∃ j, k - i = j + 1 := ⟨k - i - 1, by omega⟩
      have hj' : k - (i + 1) = j := by omega
      rw [hj'] at h3 h5
      rw [hj]
      exact ⟨by simpa using h3, h4, by simp [h5]⟩

theorem createLoop_none (dflt : T) (l : List (Pool.Entry T)) : ∀ i, (Pool.createLoop id l i).2 = none →
    Pool.createLoop (fun _ => dflt) l i = (l, none) := by
  induction l with
  | nil => intro i _; rfl
  | cons e l ih =>
    intro i h
    unfold Pool.createLoop at h ⊢
    cases he : e.used with
    | false => simp [he] at h
    | true =>
      simp only [he, Bool.not_true, if_false, Bool.false_eq_true] at h ⊢
      rw [ih (i + 1) h]

theorem create_agrees (l : List (Pool.Entry T)) (dflt : T) : Agrees (Pl.create dflt) l (.ok (Pool.create dflt l)) := by
  unfold Pl.create Pool.create
  cases h : (Pool.createForOverwrite l).2 with
  | none =>
    refine ⟨0, fun n => ?_⟩
    rw [members_bind, createLoop_none dflt l 0 h, h, Nat.zero_add]
    rfl
  | some k =>
    refine ⟨2, fun n => ?_⟩
    rw [Nat.add_comm, members_bind, h]
    obtain ⟨_, h2, e, h3, h4, h5⟩ := createLoop_set dflt l 0 k h
    simp only [Nat.sub_zero] at h3 h5
    dsimp only
    rw [update_bind, elem_succ, elem_succ, members_bind, show arrGet (Pool.createForOverwrite l).1 k = .ok e from arrGet_some h3, access_ok, update_bind, pure_apply]
    have e5 : (Pool.createForOverwrite l).1.set k ⟨dflt, e.used⟩ = (Pool.createLoop (fun _ => dflt) l 0).1 := by rw [h4]; exact h5
    simp only [e5, h2]

/-- **C247, the model against the other models of the same functions**, SequentialMap's operator[] (also in a full map, where it takes the last
entry) and Pool's create. -/
theorem C247_map_pool_agree [DecidableEq K] (s : SequentialMap.St K V) (key : K) (l : List (Pool.Entry T)) (dflt : T) :
    Agrees (SMap.index key) s (SequentialMap.index s key) ∧ Agrees (Pl.create dflt) l (.ok (Pool.create dflt l)) :=
  ⟨smap_index_agrees s key, create_agrees l dflt⟩

example : SMap.index 5 (⟨[(1, 10)], 1⟩ : SequentialMap.St Nat Nat) 2 = .done 0 ⟨[(5, 10)], 1⟩ 0 ∧
    SMap.index 5 (⟨[(1, 10)], 1⟩ : SequentialMap.St Nat Nat) 1 = .threw ⟨[(1, 10)], 1⟩ ∧
    Pl.create 0 ([⟨1, true⟩, ⟨2, false⟩] : List (Pool.Entry Nat)) 2 = .done (some 1) [⟨1, true⟩, ⟨0, true⟩] 0 := by decide

end Throwing
