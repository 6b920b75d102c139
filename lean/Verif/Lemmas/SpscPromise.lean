import Verif.Lemmas.SpscWeak
import Verif.Spec.SpscPromise
/-!
# The promises of `num_free()` and `num_filled()`: invariants
-/
namespace SpscWeak
open Spsc
open Spsc.Spec
variable {w : Nat} {T : Type}

theorem room_append (b : Nat) (es fs : List (Ev T)) : room b (es ++ fs) = room (room b es) fs := by
  induction es generalizing b with
  | nil => rfl
  | cons e es ih =>
    cases e with
    | putRet x r => cases r <;> simp [room, ih]
    | _ => simp [room, ih]

theorem roomBroken_append (b : Nat) (es fs : List (Ev T)) : RoomBroken b (es ++ fs) ↔ RoomBroken b es ∨ RoomBroken (room b es) fs := by
  induction es generalizing b with
  | nil => simp [RoomBroken, room]
  | cons e es ih =>
    cases e with
    | putRet x r => cases r <;> simp [RoomBroken, room, ih, or_assoc]
    | _ => simp [RoomBroken, room, ih, or_assoc]

theorem filledBroken_append (b : Nat) (es fs : List (Ev T)) : FilledBroken b (es ++ fs) ↔ FilledBroken b es ∨ FilledBroken (credit b es) fs := by
  induction es generalizing b with
  | nil => simp [FilledBroken, credit]
  | cons e es ih =>
    cases e with
    | getRet r => cases r <;> simp [FilledBroken, credit, ih, or_assoc]
    | removeRet r => cases r <;> simp [FilledBroken, credit, ih, or_assoc]
    | _ => simp [FilledBroken, credit, ih, or_assoc]

/-- promises kept so far, and those still open are covered by what the two threads know of each other -/
structure QInv (cap : Nat) (tr : List (Ev T)) (s : St w T) : Prop where
  room : room 0 tr ≤ s.tv + cap - (accepted tr).length
  roomOk : ¬ RoomBroken 0 tr
  filled : credit 0 tr ≤ s.hv - (taken tr).length
  filledOk : ¬ FilledBroken 0 tr
  chk : ∀ o hd, s.cpc = .chk1 o hd → s.cknow = s.hv

theorem init_QInv (cap : Nat) (dflt : T) : QInv cap [] (init w cap dflt) :=
  ⟨by simp [init, Spsc.Spec.room], id, by simp [init, Spsc.Spec.credit], id, by simp [init]⟩

/-- a step that emits nothing and forgets nothing -/
theorem QInv_quiet {cap : Nat} {tr : List (Ev T)} {s s' : St w T} (h : QInv cap tr s) (ht : s.tv ≤ s'.tv) (hh : s.hv ≤ s'.hv)
    (hc : ∀ o hd, s'.cpc = .chk1 o hd → s'.cknow = s'.hv) : QInv cap (tr ++ []) s' := by
  have := h.room; have := h.filled
  rw [List.append_nil]
  exact ⟨by omega, h.roomOk, by omega, h.filledOk, hc⟩

theorem free_val {cap A j : Nat} (hcap : cap < 2 ^ w) (hj : j ≤ A) (hA : A ≤ j + cap) :
    (BitVec.ofNat w cap - (BitVec.ofNat w A - BitVec.ofNat w j)).toNat = j + cap - A := by
  rw [ofNat_sub hj, ofNat_sub (by omega), BitVec.toNat_ofNat, Nat.mod_eq_of_lt (by omega)]
  omega

theorem stepP_QInv (cfg : Cfg w) (hcap : cfg.cap < 2 ^ w) {tr : List (Ev T)} {s : St w T} (j : Nat) (h : Inv cfg.cap tr s) (q : QInv cfg.cap tr s) :
    QInv cfg.cap (tr ++ (stepP cfg j s).2) (stepP cfg j s).1 := by
  have hp := h.pinv
  have h1 := h.tvK; have h2 := h.tvA; have h3 := h.Khv; have h4 := h.hvA
  have q1 := q.room
  unfold stepP
  split
  · simpa using q
  · exact QInv_quiet q (Nat.le_refl _) (Nat.le_refl _) q.chk
  · next x h' hpc =>
    rw [hpc] at hp
    have hp' : h' = _ := hp
    split
    · next hj =>
      split
      · simpa using q
      · next m hm =>
        obtain ⟨hjK, rfl⟩ := h.tm.get hm
        simp only
        split
        · next he =>
          rw [hp', ofNat_sub (by omega)] at he
          have e := congrArg BitVec.toNat he
          rw [BitVec.toNat_ofNat, BitVec.toNat_ofNat, Nat.mod_eq_of_lt hcap, Nat.mod_eq_of_lt (by omega)] at e
          have ea : accepted (tr ++ [.putRet x false]) = accepted tr := by simp [accepted]
          have q3 := q.filled
          refine ⟨?_, ?_, ?_, ?_, q.chk⟩
          · rw [ea, room_append]; simp only [Spsc.Spec.room]; omega
          · rw [roomBroken_append]
            rintro (g | g)
            · exact q.roomOk g
            · rcases g with g | g
              · omega
              · exact g
          · rw [credit_append, taken_put]; exact q3
          · rw [filledBroken_append]; rintro (g | g)
            · exact q.filledOk g
            · exact g
        · exact QInv_quiet q hj (Nat.le_refl _) q.chk
    · simpa using q
  · split
    · exact QInv_quiet q (Nat.le_refl _) (Nat.le_refl _) q.chk
    · exact QInv_quiet q (Nat.le_refl _) (Nat.le_refl _) q.chk
  · next x h' hpc =>
    have ea : (accepted (tr ++ [.putRet x true])).length = (accepted tr).length + 1 := by simp [accepted]
    refine ⟨?_, ?_, ?_, ?_, q.chk⟩
    · rw [ea, room_append]; simp only [Spsc.Spec.room]; omega
    · rw [roomBroken_append]
      rintro (g | g)
      · exact q.roomOk g
      · exact g
    · rw [credit_append, taken_put]; exact q.filled
    · rw [filledBroken_append]; rintro (g | g)
      · exact q.filledOk g
      · exact g
  · exact QInv_quiet q (Nat.le_refl _) (Nat.le_refl _) q.chk
  · next h' hpc =>
    rw [hpc] at hp
    have hp' : h' = _ := hp
    split
    · next hj =>
      split
      · simpa using q
      · next m hm =>
        obtain ⟨hjK, rfl⟩ := h.tm.get hm
        have e := free_val (w := w) (A := (accepted tr).length) (j := j) hcap (by omega) (by omega)
        simp only
        rw [hp', e]
        have ea : ∀ n, accepted (tr ++ [.numFreeRet n]) = accepted tr := by simp [accepted]
        refine ⟨?_, ?_, ?_, ?_, q.chk⟩
        · rw [ea, room_append]; exact Nat.le_refl _
        · rw [roomBroken_append]
          rintro (g | g)
          · exact q.roomOk g
          · rcases g with g | g
            · omega
            · exact g
        · rw [credit_append, taken_free]; exact q.filled
        · rw [filledBroken_append]; rintro (g | g)
          · exact q.filledOk g
          · exact g
    · simpa using q

/-- a step of the consumer that reports an event concerning only itself -/
theorem QInv_c {cap : Nat} {tr : List (Ev T)} {s s' : St w T} {e : Ev T} (q : QInv cap tr s) (ht : s'.tv = s.tv) (ha : accepted [e] = [])
    (hr : ∀ b, Spsc.Spec.room b [e] = b) (hrb : ∀ b, ¬ RoomBroken b [e])
    (hf : credit (credit 0 tr) [e] ≤ s'.hv - (taken (tr ++ [e])).length) (hfb : ¬ FilledBroken (credit 0 tr) [e])
    (hc : ∀ o hd, s'.cpc ≠ .chk1 o hd) : QInv cap (tr ++ [e]) s' := by
  refine ⟨?_, ?_, ?_, ?_, fun o hd h => absurd h (hc o hd)⟩
  · rw [accepted_append, ha, List.append_nil, room_append, hr, ht]; exact q.room
  · rw [roomBroken_append]
    rintro (g | g)
    · exact q.roomOk g
    · exact hrb _ g
  · rw [credit_append]; exact hf
  · rw [filledBroken_append]
    rintro (g | g)
    · exact q.filledOk g
    · exact hfb g

theorem stepC_QInv (cfg : Cfg w) (hcap : cfg.cap < 2 ^ w) {acq : Bool} (mvf : T → T) {tr : List (Ev T)} {s : St w T} (j : Nat) (h : Inv cfg.cap tr s) (q : QInv cfg.cap tr s) :
    QInv cfg.cap (tr ++ (stepC cfg acq mvf j s).2) (stepC cfg acq mvf j s).1 := by
  have h1 := h.tvK; have h2 := h.tvA; have h3 := h.Khv; have h4 := h.hvA; have h5 := h.ck
  have q3 := q.filled
  have hc := h.cinv
  have eq0 : ∀ {i : Nat}, (taken tr).length ≤ i → i ≤ (accepted tr).length → BitVec.ofNat w (taken tr).length = BitVec.ofNat w i → i = (taken tr).length := by
    intro i l1 l2 he
    have e : (BitVec.ofNat w i - BitVec.ofNat w (taken tr).length).toNat = 0 := by rw [he]; simp
    rw [ofNat_sub l1, BitVec.toNat_ofNat, Nat.mod_eq_of_lt (by omega)] at e
    omega
  unfold stepC
  split
  · simpa using q
  · next o hpc =>
    split
    · simpa using q
    · next hl =>
      obtain ⟨g1, g2, rfl, rfl⟩ := loadHead_spec h.hm hl
      refine QInv_quiet q (Nat.le_refl _) g1 fun _ _ _ => ?_
      simp only [if_true]
      omega
  · next o hd hpc =>
    have e := chk_n hcap h hpc
    have ek := q.chk o hd hpc
    simp only
    split
    all_goals
      refine QInv_c q rfl rfl (fun _ => rfl) (fun _ => id) ?_ ?_ (by simp)
      · have : taken (tr ++ [Ev.numFilledRet (hd - own s.tmsgs).toNat]) = taken tr := by simp [taken]
        rw [this]; simp only [Spsc.Spec.credit]; omega
      · rintro (g | g)
        · omega
        · exact g
  · exact QInv_quiet q (Nat.le_refl _) (Nat.le_refl _) (by simp)
  · next mv ck t hpc =>
    rw [hpc] at hc
    have hc' : t = _ := hc
    split
    · simpa using q
    · next hl =>
      obtain ⟨g1, g2, rfl, rfl⟩ := loadHead_spec h.hm hl
      split
      · next he =>
        rw [hc'] at he
        have := eq0 (by omega) g2 he
        have e : taken (tr ++ [Ev.getRet none]) = taken tr := by simp [taken]
        refine QInv_c q rfl rfl (fun _ => rfl) (fun _ => id) ?_ ?_ (by simp)
        · rw [e]; simp only [Spsc.Spec.credit]; omega
        · rintro (g | g)
          · omega
          · exact g
      · exact QInv_quiet q (Nat.le_refl _) g1 (by simp)
  · split
    · exact QInv_quiet q (Nat.le_refl _) (Nat.le_refl _) (by simp)
    · exact QInv_quiet q (Nat.le_refl _) (Nat.le_refl _) q.chk
  · next t x hpc =>
    have e : (taken (tr ++ [Ev.getRet (some x)])).length = (taken tr).length + 1 := by simp [taken]
    refine QInv_c q rfl rfl (fun _ => rfl) (fun _ => id) ?_ id (by simp)
    rw [e]; simp only [Spsc.Spec.credit]; omega
  · exact QInv_quiet q (Nat.le_refl _) (Nat.le_refl _) (by simp)
  · next t hpc =>
    rw [hpc] at hc
    have hc' : t = _ := hc
    split
    · simpa using q
    · next hl =>
      obtain ⟨g1, g2, rfl, rfl⟩ := loadHead_spec h.hm hl
      split
      · exact QInv_quiet q (Nat.le_refl _) g1 (by simp)
      · next he =>
        rw [hc', Decidable.not_not] at he
        have := eq0 (by omega) g2 he
        have e : taken (tr ++ [Ev.removeRet false]) = taken tr := by simp [taken]
        refine QInv_c q rfl rfl (fun _ => rfl) (fun _ => id) ?_ ?_ (by simp)
        · rw [e]; simp only [Spsc.Spec.credit]; omega
        · rintro (g | g)
          · omega
          · exact g
  · next t hpc =>
    have e : (taken (tr ++ [Ev.removeRet true])).length = (taken tr).length + 1 := by simp [taken]
    refine QInv_c q rfl rfl (fun _ => rfl) (fun _ => id) ?_ id (by simp)
    rw [e]; simp only [Spsc.Spec.credit]; omega
  · next hpc => rw [hpc] at hc; exact hc.elim
  · next hpc => rw [hpc] at hc; exact hc.elim

theorem step_QInv (cfg : Cfg w) (hcap : cfg.cap < 2 ^ w) {acq : Bool} (mvf : T → T) {tr : List (Ev T)} {s : St w T} (a : Act T)
    (h : Inv cfg.cap tr s) (q : QInv cfg.cap tr s) : QInv cfg.cap (tr ++ (step cfg acq mvf s a).2) (step cfg acq mvf s a).1 := by
  cases a with
  | put x => simp only [step, callP]; split <;> exact QInv_quiet q (Nat.le_refl _) (Nat.le_refl _) q.chk
  | numFree => simp only [step, callFree]; split <;> exact QInv_quiet q (Nat.le_refl _) (Nat.le_refl _) q.chk
  | pStep j => exact stepP_QInv cfg hcap j h q
  | cStep j => exact stepC_QInv cfg hcap mvf j h q
  | cCall op =>
    simp only [step, callC]
    split
    · cases op <;> exact QInv_quiet q (Nat.le_refl _) (Nat.le_refl _) (by simp)
    · simpa using q

theorem run_QInv (cfg : Cfg w) (hcap : cfg.cap < 2 ^ w) {acq : Bool} (mvf : T → T) (as : List (Act T)) :
    ∀ {tr : List (Ev T)} {s : St w T}, IdxOk cfg (accepted (tr ++ (run cfg acq mvf s as).2)).length → (∀ a ∈ as, Allowed a) →
    Inv cfg.cap tr s → QInv cfg.cap tr s → QInv cfg.cap (tr ++ (run cfg acq mvf s as).2) (run cfg acq mvf s as).1 := by
  induction as with
  | nil => intro tr s _ _ _ h; simpa [run] using h
  | cons a as ih =>
    intro tr s hidx ha h hg
    simp only [run] at hidx ⊢
    rw [← List.append_assoc] at hidx ⊢
    have hi := hidx.mono (n := (accepted tr).length) (by rw [accepted_append, accepted_append]; simp only [List.length_append]; omega)
    exact ih hidx (fun b hb => ha b (by simp [hb])) (step_Inv cfg hcap mvf hi a (ha a (by simp)) h) (step_QInv cfg hcap mvf a h hg)

end SpscWeak
