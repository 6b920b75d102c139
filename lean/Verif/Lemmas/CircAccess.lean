import Verif.Model.CircAccess
namespace CircAccess
variable {T : Type}

theorem next_pos {rd sz : Nat} (h : rd < sz) : (if rd + 1 ≥ sz then 0 else rd + 1) = (rd + 1) % sz := by
  split
  · rw [show rd + 1 = sz by omega]; simp
  · rw [Nat.mod_eq_of_lt (by omega)]

theorem read_spec (n : Nat) : ∀ (s : St T) (w : Bool), s.rd < s.buf.length →
    ∃ ds, read s n w = .ok ({ s with rd := (s.rd + n) % s.buf.length }, ds, w || decide (s.buf.length ≤ s.rd + n)) ∧
      ds.length = n ∧ ∀ i : Nat, i < n → ds[i]? = s.buf[(s.rd + i) % s.buf.length]? := by
  induction n with
  | zero =>
    intro s w h
    refine ⟨[], ?_, rfl, by intro i hi; omega⟩
    simp [read, Nat.mod_eq_of_lt h]; omega
  | succ n ih =>
    intro s w h
    have hpos : 0 < s.buf.length := by omega
    unfold read
    rw [arrGet_lt h]
    simp only [R.bind_ok]
    by_cases hc : s.rd + 1 ≥ s.buf.length
    · obtain ⟨ds, h1, h2, h3⟩ := ih { s with rd := 0 } true hpos
      simp only [hc, if_true]
      rw [h1]
      refine ⟨s.buf[s.rd] :: ds, ?_, by simp [h2], ?_⟩
      · have : (s.rd + (n + 1)) % s.buf.length = (0 + n) % s.buf.length := by
          rw [show s.rd + (n + 1) = (0 + n) + s.buf.length by omega, Nat.add_mod_right]
        simp only [R.bind_ok, R.pure_eq, this, R.ok_inj, Prod.mk.injEq, true_and, Bool.true_or]
        simp; omega
      · intro i hi
        cases i with
        | zero => simp [Nat.mod_eq_of_lt h]
        | succ i =>
          have : (s.rd + (i + 1)) % s.buf.length = (0 + i) % s.buf.length := by
            rw [show s.rd + (i + 1) = (0 + i) + s.buf.length by omega, Nat.add_mod_right]
          rw [this]
          simpa using h3 i (by omega)
    · obtain ⟨ds, h1, h2, h3⟩ := ih { s with rd := s.rd + 1 } w (by simp only; omega)
      simp only [hc, if_false]
      rw [h1]
      refine ⟨s.buf[s.rd] :: ds, ?_, by simp [h2], ?_⟩
      · simp [show s.rd + 1 + n = s.rd + (n + 1) by omega]
      · intro i hi
        cases i with
        | zero => simp [Nat.mod_eq_of_lt h]
        | succ i =>
          have := h3 i (by omega)
          simpa [show s.rd + 1 + i = s.rd + (i + 1) by omega] using this

theorem dec_pos {bits p : Nat} (h : 0 < p) (h2 : p < 2 ^ bits) : dec bits p = p - 1 := by
  unfold dec
  rw [show p + (2 ^ bits - 1) = (p - 1) + 2 ^ bits from by omega, Nat.add_mod_right, Nat.mod_eq_of_lt (by omega)]
theorem dec_zero (bits : Nat) : dec bits 0 = 2 ^ bits - 1 := by
  have := Nat.two_pow_pos bits
  unfold dec
  rw [Nat.zero_add, Nat.mod_eq_of_lt (by omega)]

theorem emod_sub_add (a b N : Int) : (a - b + N) % N = (a - b) % N := by simp

theorem readReverse_spec (bits : Nat) (n : Nat) : ∀ (s : St T) (w : Bool), s.rd < s.buf.length → s.buf.length < 2 ^ bits →
    ∃ ds, readReverse bits s n w =
        .ok ({ s with rd := (((s.rd : Int) - n) % s.buf.length).toNat }, ds, w || decide (s.rd < n)) ∧
      ds.length = n ∧ ∀ i : Nat, i < n → ds[i]? = s.buf[(((s.rd : Int) - i) % s.buf.length).toNat]? := by
  induction n with
  | zero =>
    intro s w h hb
    refine ⟨[], ?_, rfl, by intro i hi; omega⟩
    simp only [readReverse, R.pure_eq, R.ok_inj, Prod.mk.injEq, true_and]
    refine ⟨?_, by simp⟩
    have : (((s.rd : Int) - ((0 : Nat) : Int)) % s.buf.length).toNat = s.rd := by
      rw [Int.emod_eq_of_lt (by omega) (by omega)]; omega
    rw [this]
  | succ n ih =>
    intro s w h hb
    have hpos : 0 < s.buf.length := by omega
    have h0 : ((s.rd : Int) - ((0 : Nat) : Int)) % s.buf.length = s.rd := by
      rw [Int.emod_eq_of_lt (by omega) (by omega)]; omega
    unfold readReverse
    rw [arrGet_lt h]
    simp only [R.bind_ok]
    by_cases hc : s.rd = 0
    · have hd : dec bits s.rd ≥ s.buf.length := by rw [hc, dec_zero]; omega
      obtain ⟨ds, h1, h2, h3⟩ := ih { s with rd := s.buf.length - 1 } true (by simp only; omega) hb
      simp only [hd, if_true]
      rw [h1]
      have e : ∀ j : Nat, (((s.buf.length - 1 : Nat) : Int) - j) % s.buf.length = ((s.rd : Int) - (j + 1 : Nat)) % s.buf.length := by
        intro j
        rw [hc, show ((s.buf.length - 1 : Nat) : Int) - j = (((0 : Nat) : Int) - (j + 1 : Nat)) + s.buf.length by omega]
        exact emod_sub_add ..
      refine ⟨s.buf[s.rd] :: ds, ?_, by simp [h2], ?_⟩
      · simp only [R.bind_ok, R.pure_eq, e, R.ok_inj, Prod.mk.injEq, true_and, Bool.true_or]
        simp [hc]
      · intro i hi
        cases i with
        | zero => rw [h0]; simp
        | succ i =>
          rw [← e]
          simpa using h3 i (by omega)
    · have hd : ¬ dec bits s.rd ≥ s.buf.length := by rw [dec_pos (by omega) (by omega)]; omega
      obtain ⟨ds, h1, h2, h3⟩ := ih { s with rd := s.rd - 1 } w (by simp only; omega) hb
      simp only [hd, if_false]
      rw [dec_pos (by omega) (by omega), h1]
      have e : ∀ j : Nat, ((s.rd - 1 : Nat) : Int) - j = ((s.rd : Int) - (j + 1 : Nat)) := by intro j; omega
      refine ⟨s.buf[s.rd] :: ds, ?_, by simp [h2], ?_⟩
      · simp only [R.bind_ok, R.pure_eq, e, R.ok_inj, Prod.mk.injEq, true_and]
        congr 1
        simp only [decide_eq_decide]; omega
      · intro i hi
        cases i with
        | zero => rw [h0]; simp
        | succ i =>
          rw [← e]
          simpa using h3 i (by omega)

/-- sequential stores at positions given by `pos` -/
def stores (mix : T → T → T) (buf : List T) : List (Nat × T) → List T
  | [] => buf
  | (p, d) :: r => stores mix (match buf[p]? with | some old => buf.set p (mix d old) | none => buf) r

theorem stores_length (mix : T → T → T) (r : List (Nat × T)) : ∀ buf : List T, (stores mix buf r).length = buf.length := by
  induction r with
  | nil => intro b; rfl
  | cons a r ih => intro b; simp only [stores]; rw [ih]; split <;> simp

theorem stores_other (mix : T → T → T) (r : List (Nat × T)) (p : Nat) : ∀ buf : List T, (∀ a ∈ r, a.1 ≠ p) →
    (stores mix buf r)[p]? = buf[p]? := by
  induction r with
  | nil => intro b _; rfl
  | cons a r ih =>
    intro b h
    simp only [stores]
    rw [ih _ (fun x hx => h x (by simp [hx]))]
    split
    · rw [List.getElem?_set_ne (h a (by simp))]
    · rfl

/-- the last store to `p` wins -/
theorem stores_last (mix : T → T → T) (hm : ∀ d o, mix d o = d) (r1 r2 : List (Nat × T)) (p : Nat) (d : T) (buf : List T)
    (hp : p < buf.length) (h2 : ∀ a ∈ r2, a.1 ≠ p) : (stores mix buf (r1 ++ (p, d) :: r2))[p]? = some d := by
  induction r1 generalizing buf with
  | nil =>
    simp only [List.nil_append, stores]
    rw [stores_other mix r2 p _ h2]
    simp only [List.getElem?_eq_getElem hp, List.getElem?_set_self hp, hm]
  | cons a r1 ih =>
    simp only [List.cons_append, stores]
    apply ih
    split <;> simp [hp]

/-- a position stored to once is blended once -/
theorem stores_once (mix : T → T → T) (r1 r2 : List (Nat × T)) (p : Nat) (d : T) (buf : List T)
    (hp : p < buf.length) (h1 : ∀ a ∈ r1, a.1 ≠ p) (h2 : ∀ a ∈ r2, a.1 ≠ p) :
    (stores mix buf (r1 ++ (p, d) :: r2))[p]? = some (mix d buf[p]) := by
  induction r1 generalizing buf with
  | nil =>
    simp only [List.nil_append, stores]
    rw [stores_other mix r2 p _ h2]
    simp only [List.getElem?_eq_getElem hp, List.getElem?_set_self hp]
  | cons a r1 ih =>
    simp only [List.cons_append, stores]
    have ha : a.1 ≠ p := h1 a (by simp)
    split
    · rw [ih _ (by simp [hp]) (fun x hx => h1 x (by simp [hx]))]
      simp [List.getElem_set_ne ha]
    · exact ih _ hp (fun x hx => h1 x (by simp [hx]))

/-- block stores: a position used by only one of them -/
theorem stores_at (mix : T → T → T) (b data : List T) (pos : Nat → Nat) (i : Nat) (hi : i < data.length) (hp : pos i < b.length)
    (hinj : ∀ j, j < data.length → j ≠ i → pos j ≠ pos i) :
    (stores mix b (data.zipIdx.map fun (d, i) => (pos i, d)))[pos i]? = some (mix data[i] b[pos i]) := by
  obtain ⟨l, hl⟩ : ∃ l, data.zipIdx.map (fun (d, i) => (pos i, d)) = l := ⟨_, rfl⟩
  have hlen : l.length = data.length := by rw [← hl]; simp
  have hget : ∀ (j : Nat) (hj : j < l.length), l[j] = (pos j, data[j]'(by omega)) := by
    intro j hj; subst hl; simp
  have hsplit : l = l.take i ++ (pos i, data[i]) :: l.drop (i + 1) := by
    rw [← hget i (by omega), List.getElem_cons_drop, List.take_append_drop]
  rw [hl, hsplit]
  refine stores_once mix _ _ _ _ _ hp ?_ ?_
  · intro a ha
    obtain ⟨j, hj, rfl⟩ := List.getElem_of_mem ha
    simp at hj
    rw [List.getElem_take, hget j (by omega)]
    exact hinj j (by omega) (by omega)
  · intro a ha
    obtain ⟨j, hj, rfl⟩ := List.getElem_of_mem ha
    simp at hj
    rw [List.getElem_drop, hget _ (by omega)]
    exact hinj _ (by omega) (by omega)

theorem add_mod_inj (w j i N : Nat) (h : j < i) (hi : i < j + N) : (w + j) % N ≠ (w + i) % N := by
  intro he
  have h1 := Nat.div_add_mod (w + j) N
  have h2 := Nat.div_add_mod (w + i) N
  have h3 : N * ((w + i) / N) = N * ((w + j) / N) + (i - j) := by omega
  obtain ⟨a, ha⟩ : ∃ a, (w + i) / N = a := ⟨_, rfl⟩
  obtain ⟨b, hb⟩ : ∃ b, (w + j) / N = b := ⟨_, rfl⟩
  rw [ha, hb] at h3
  rcases Nat.lt_or_ge b a with hlt | hge
  · obtain ⟨c, rfl⟩ : ∃ c, a = b + 1 + c := ⟨a - b - 1, by omega⟩
    rw [Nat.mul_add, Nat.mul_add] at h3
    omega
  · have := Nat.mul_le_mul_left N hge
    omega

theorem write_spec (mix : T → T → T) (data : List T) : ∀ (s : St T) (w : Bool), s.wr < s.buf.length →
    write mix s data w = .ok ({ s with
        buf := stores mix s.buf (data.zipIdx.map fun (d, i) => ((s.wr + i) % s.buf.length, d)),
        wr := (s.wr + data.length) % s.buf.length }, w || decide (s.buf.length ≤ s.wr + data.length)) := by
  induction data with
  | nil => intro s w h; simp [write, stores, Nat.mod_eq_of_lt h]; omega
  | cons d ds ih =>
    intro s w h
    unfold write
    rw [arrGet_lt h]
    simp only [R.bind_ok]
    rw [arrSet_lt h]
    simp only [R.bind_ok]
    have hst : stores mix s.buf (((d :: ds).zipIdx).map fun (d, i) => ((s.wr + i) % s.buf.length, d)) =
        stores mix (s.buf.set s.wr (mix d s.buf[s.wr])) ((ds.zipIdx).map fun (d, i) => ((s.wr + 1 + i) % s.buf.length, d)) := by
      rw [List.zipIdx_cons, List.map_cons]
      simp only [stores, Nat.add_zero, Nat.mod_eq_of_lt h, List.getElem?_eq_getElem h]
      congr 1
      rw [List.zipIdx_succ, List.map_map]
      congr 1
      funext x
      simp [Nat.add_assoc, Nat.add_comm 1]
    by_cases hc : s.wr + 1 ≥ s.buf.length
    · simp only [hc, if_true]
      rw [ih _ _ (by simp only [List.length_set]; omega), hst]
      have e : ∀ i, (s.wr + 1 + i) % s.buf.length = (0 + i) % s.buf.length := by
        intro i; rw [show s.wr + 1 + i = (0 + i) + s.buf.length by omega, Nat.add_mod_right]
      simp only [List.length_set, List.length_cons, R.ok_inj, Prod.mk.injEq, Bool.true_or]
      refine ⟨?_, by simp; omega⟩
      simp only [e]
      rw [show s.wr + (ds.length + 1) = s.wr + 1 + ds.length by omega, e]
    · simp only [hc, if_false]
      rw [ih _ _ (by simp only [List.length_set]; omega), hst]
      simp only [List.length_set, List.length_cons, show s.wr + (ds.length + 1) = s.wr + 1 + ds.length by omega]

theorem writeReverse_spec (bits : Nat) (mix : T → T → T) (data : List T) : ∀ (s : St T) (w : Bool), s.wr < s.buf.length →
    s.buf.length < 2 ^ bits →
    writeReverse bits mix s data w = .ok ({ s with
        buf := stores mix s.buf (data.zipIdx.map fun (d, i) => ((((s.wr : Int) - i) % s.buf.length).toNat, d)),
        wr := (((s.wr : Int) - data.length) % s.buf.length).toNat }, w || decide (s.wr < data.length)) := by
  induction data with
  | nil =>
    intro s w h hb
    have h0 : ((s.wr : Int) - ((0 : Nat) : Int)) % s.buf.length = s.wr := by
      rw [Int.emod_eq_of_lt (by omega) (by omega)]; omega
    simp [writeReverse, stores]
    have : (s.wr : Int) % s.buf.length = s.wr := by simpa using h0
    rw [this]; simp
  | cons d ds ih =>
    intro s w h hb
    have h0 : ((s.wr : Int) - ((0 : Nat) : Int)) % s.buf.length = s.wr := by
      rw [Int.emod_eq_of_lt (by omega) (by omega)]; omega
    unfold writeReverse
    rw [arrGet_lt h]
    simp only [R.bind_ok]
    rw [arrSet_lt h]
    simp only [R.bind_ok]
    have hst : stores mix s.buf (((d :: ds).zipIdx).map fun (d, i) => ((((s.wr : Int) - i) % s.buf.length).toNat, d)) =
        stores mix (s.buf.set s.wr (mix d s.buf[s.wr]))
          ((ds.zipIdx).map fun (d, i) => ((((s.wr : Int) - (i + 1 : Nat)) % s.buf.length).toNat, d)) := by
      rw [List.zipIdx_cons, List.map_cons]
      simp only [stores, h0, Int.toNat_natCast, List.getElem?_eq_getElem h]
      congr 1
      rw [List.zipIdx_succ, List.map_map]
      rfl
    by_cases hc : s.wr = 0
    · have hd : dec bits s.wr ≥ s.buf.length := by rw [hc, dec_zero]; omega
      simp only [hd, if_true]
      rw [ih _ _ (by simp only [List.length_set]; omega) (by simpa using hb), hst]
      have e : ∀ j : Nat, (((s.buf.length - 1 : Nat) : Int) - j) % s.buf.length = ((s.wr : Int) - (j + 1 : Nat)) % s.buf.length := by
        intro j
        rw [hc, show ((s.buf.length - 1 : Nat) : Int) - j = (((0 : Nat) : Int) - (j + 1 : Nat)) + s.buf.length by omega]
        exact emod_sub_add ..
      simp only [List.length_set, List.length_cons, R.ok_inj, Prod.mk.injEq, Bool.true_or, e, true_and]
      simp [hc]
    · have hd : ¬ dec bits s.wr ≥ s.buf.length := by rw [dec_pos (by omega) (by omega)]; omega
      simp only [hd, if_false]
      rw [dec_pos (by omega) (by omega), ih _ _ (by simp only [List.length_set]; omega) (by simpa using hb), hst]
      have e : ∀ j : Nat, ((s.wr - 1 : Nat) : Int) - j = ((s.wr : Int) - (j + 1 : Nat)) := by
        intro j; omega
      simp only [List.length_set, List.length_cons, R.ok_inj, Prod.mk.injEq, e, true_and]
      congr 1
      simp only [decide_eq_decide]; omega

end CircAccess
