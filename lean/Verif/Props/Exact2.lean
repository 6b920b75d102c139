import Verif.Props.CompactBinary
import Verif.Props.Version
import Verif.Props.Toggler
import Verif.Props.Poll
/-! # Exact behaviour behind the partial properties C46, C54, C65 and C70 -/

namespace CompactBinary
open Spec

/-- **C46** (exact behaviour of get_node): on any bytes and key, with the size `sz` and offset `o` found by the search and a DataSizeT not
wider than size_t: a part of the blob if offset plus size lie inside it; nothing if they lie outside without wrapping; if the sum wraps,
the rest of the blob for the largest size (which subspan takes for "the rest") and undefined behaviour for every other. -/
theorem C46_node_exact (f : Fmt) (W : Nat) (blob key : List Byte) (hkey : validKey f key) (hS : 256 ^ f.S ≤ 2 ^ W)
    (hW : blob.length < 2 ^ W) :
    ∃ sz o, getSizeAndOffset f blob key = .ok (sz, o) ∧ o ≤ blob.length ∧ sz < 256 ^ f.S ∧
      getNode f W blob key =
        if o + sz ≤ blob.length then .ok ((blob.drop o).take sz)
        else if o + sz < 2 ^ W then .ok []
        else if sz = 2 ^ W - 1 then .ok (blob.drop o)
        else .ub := by
  obtain ⟨sz, o, h1, h2, h3, h4⟩ := findLoop_safe f key hkey blob.length blob 0 rfl
  rw [Nat.zero_add] at h3
  have hsz : sz < 256 ^ f.S := by
    have := f.S_pos
    have := Nat.pow_pos (n := f.S) (show 0 < 256 by omega)
    omega
  refine ⟨sz, o, h1, h3, hsz, ?_⟩
  simp only [getNode, getSizeAndOffset, h1, R.bind_ok]
  rw [Nat.mod_eq_of_lt (show sz < 2 ^ W by omega)]
  by_cases hle : o + sz ≤ blob.length
  · rw [if_pos hle, Nat.mod_eq_of_lt (by omega), if_pos hle]
    split
    · next hc =>
      rw [List.take_of_length_le]
      simp only [List.length_drop]; omega
    · rfl
  · simp only [if_neg hle]
    by_cases hlt : o + sz < 2 ^ W
    · rw [if_pos hlt, Nat.mod_eq_of_lt hlt, if_neg hle]
    · rw [if_neg hlt, if_pos (by rw [Nat.mod_eq_sub_mod (by omega), Nat.mod_eq_of_lt (by omega)]; omega)]
      by_cases hm : sz = 2 ^ W - 1
      · rw [if_pos ⟨h3, hm⟩, if_pos hm]
      · rw [if_neg (fun h => hm h.2), if_neg hm]

example := C46_node_exact fmt14 32 [1, 0xFC, 0xFF, 0xFF, 0xFF, 0] [1] (by simp [validKey, fmt14]) (by decide) (by decide)

end CompactBinary

namespace Version
open Spec Digits Digits.Spec

/-- What set_field makes of a number in the text: `strtol` clamps it to `long`, and the conversion to unsigned takes it modulo 2^32. -/
def readAs (L n : Nat) : Nat := min n (2 ^ (L - 1) - 1) % 4294967296

theorem toUnsigned_min (L n : Nat) : toUnsigned (min (n : Int) (2 ^ (L - 1) - 1)) = readAs L n := by
  have hp : 0 < 2 ^ (L - 1) := Nat.two_pow_pos _
  have h2 : ((2 ^ (L - 1) : Nat) : Int) = (2 : Int) ^ (L - 1) := Int.natCast_pow 2 (L - 1)
  unfold toUnsigned readAs
  rw [← h2]
  generalize 2 ^ (L - 1) = M at *
  omega

theorem fields_all (L : Nat) (ns : List Nat) :
    setAll L ns 0 {} = ⟨fieldOf (ns.map (readAs L)) 0, fieldOf (ns.map (readAs L)) 1, fieldOf (ns.map (readAs L)) 2, true⟩ := by
  match ns with
  | [] => rfl
  | [a] =>
    rw [setAll, setAll, toUnsigned_min]
    generalize ha : readAs L a = x
    simp only [setField, fieldOf, List.map, ha]
    by_cases h : x > 255
    · simp [h]; try omega
    · simp [h]; try omega
  | [a, b] =>
    rw [setAll, setAll, setAll, toUnsigned_min, toUnsigned_min]
    generalize ha : readAs L a = x
    generalize hb : readAs L b = y
    simp only [setField, fieldOf, List.map, ha, hb]
    by_cases ha : x > 255 <;> by_cases hb : y > 255 <;> simp [ha, hb] <;> omega
  | a :: b :: c :: l =>
    rw [setAll, setAll, setAll, setAll_ge L l _ _ (by omega), toUnsigned_min, toUnsigned_min, toUnsigned_min]
    generalize ha : readAs L a = x
    generalize hb : readAs L b = y
    generalize hc : readAs L c = z
    simp only [setField, fieldOf, List.map, ha, hb, hc]
    by_cases ha : x > 255 <;> by_cases hb : y > 255 <;> by_cases hc : z > 255 <;> simp [ha, hb, hc] <;> omega

/-- **C54** (exact behaviour): the text of any numbers at all: each number is first clamped to the range of `long`, then taken modulo 2^32,
and then stored if at most 255. -/
theorem C54_parse_exact (L : Nat) (ns suf rest : List Nat) (c : Nat) (hns : ns ≠ [])
    (hs : suffix suf) (hc : ¬ (48 ≤ c ∧ c ≤ 57)) :
    let stored := ns.map (fun n => min n (2 ^ (L - 1) - 1) % 2 ^ 32)
    parse L (dotted ns ++ suf ++ c :: rest) (dotted ns ++ suf).length =
      .ok ⟨fieldOf stored 0, fieldOf stored 1, fieldOf stored 2, decide (suf = [])⟩ := by
  intro stored
  rw [parse, parse_dotted L suf rest hs c hc ns 0 {} hns, fields_all L ns]
  rfl

/-- **C54, violated** for a whole class: with a 64-bit `long`, every number `k * 2^32 + r` with `r` at most 255 (and below 2^63) is stored as
`r` although it is far out of range; with a 32-bit `long` no number out of range is stored. -/
theorem C54_wrap_violated (k r : Nat) (rest : List Nat) (hr : r ≤ 255) (hk : k * 2 ^ 32 + r < 2 ^ 63) :
    parse 64 (dotted [k * 2 ^ 32 + r] ++ [] ++ 0 :: rest) (dotted [k * 2 ^ 32 + r] ++ []).length = .ok ⟨r, 0, 0, true⟩ ∧
    (∀ n, 255 < n → parse 32 (dotted [n] ++ [] ++ 0 :: rest) (dotted [n] ++ []).length = .ok ⟨0, 0, 0, true⟩) := by
  constructor
  · rw [C54_parse_exact 64 _ [] rest 0 (by simp) (Or.inl rfl) (by omega)]
    have : min (k * 2 ^ 32 + r) (2 ^ (64 - 1) - 1) % 2 ^ 32 = r := by omega
    simp only [List.map, this, fieldOf]
    simp [hr]
  · intro n hn
    rw [C54_parse_exact 32 _ [] rest 0 (by simp) (Or.inl rfl) (by omega)]
    have : ¬ min n (2 ^ (32 - 1) - 1) % 2 ^ 32 ≤ 255 := by omega
    simp only [List.map, fieldOf]
    simp [this]

example := C54_wrap_violated 5 77 [] (by decide) (by decide)

end Version

namespace Toggler

/-- **C65** (exact behaviour): for all states of both togglers, update_state and transfer_events bring over the falling event if it is
pending in the source, and the rising one only if no falling one is pending beside it; the state is copied; transfer_events clears the
source's events, the rising one even if it was not brought over. -/
theorem C65_transfer_exact (dst src : Toggler) :
    updateState dst src = ⟨src.high, dst.rising || (src.rising && !src.falling), dst.falling || src.falling⟩ ∧
    (transferEvents dst src).1 = updateState dst src ∧ (transferEvents dst src).2 = ⟨src.high, false, false⟩ := by
  obtain ⟨a1, a2, a3⟩ := dst
  obtain ⟨b1, b2, b3⟩ := src
  revert a1 a2 a3 b1 b2 b3; decide

/-- ... so a rising event is lost for good by transfer_events exactly if both are pending in the source and none in the destination. -/
theorem C65_lost_violated (dst src : Toggler) :
    ((src.rising = true ∨ dst.rising = true) ∧ (transferEvents dst src).1.rising = false ∧ (transferEvents dst src).2.rising = false) ↔
      (src.rising = true ∧ src.falling = true ∧ dst.rising = false) := by
  obtain ⟨a1, a2, a3⟩ := dst
  obtain ⟨b1, b2, b3⟩ := src
  revert a1 a2 a3 b1 b2 b3; decide

example := (C65_lost_violated ⟨false, false, false⟩ ⟨false, true, true⟩).mpr (by decide)

end Toggler

namespace PollEvent

/-- **C70** (exact behaviour, signed clock): for every period and all clock readings: with the reading at or after the last run, undefined if
the difference does not fit, and otherwise a run exactly if the period has elapsed; with the reading before the last run (the clock has
overflowed or was set back), undefined if the due time does not fit, and otherwise a run exactly if the reading is at or after it — which for
a positive period it never is. -/
theorem C70_signed_exact (w : Nat) (period last now : Int) :
    (last ≤ now → 2 ^ (w - 1) ≤ now - last → pollSigned w period last now = .ub) ∧
    (last ≤ now → now - last < 2 ^ (w - 1) →
      pollSigned w period last now = .ok (if now - last ≥ period then (true, now) else (false, last))) ∧
    (now < last → (last + period < -2 ^ (w - 1) ∨ 2 ^ (w - 1) ≤ last + period) → pollSigned w period last now = .ub) ∧
    (now < last → -2 ^ (w - 1) ≤ last + period → last + period < 2 ^ (w - 1) →
      pollSigned w period last now = .ok (if now ≥ last + period then (true, now) else (false, last))) ∧
    (now < last → 0 ≤ period → ∀ r, pollSigned w period last now = .ok r → r = (false, last)) := by
  have hp : (0 : Int) < 2 ^ (w - 1) := by
    have : 0 < 2 ^ (w - 1) := Nat.two_pow_pos (w - 1)
    have h2 : ((2 ^ (w - 1) : Nat) : Int) = (2 : Int) ^ (w - 1) := Int.natCast_pow 2 (w - 1)
    rw [← h2]; exact Int.ofNat_lt.mpr this
  refine ⟨?_, C70_signed_partial w period last now, ?_, ?_, ?_⟩
  · intro h1 h2
    rw [pollSigned, if_neg (by omega), sgn, if_neg (by omega), R.bind_ub]
  · intro h1 h2
    rw [pollSigned, if_pos h1, sgn, if_neg (by omega), R.bind_ub]
  · intro h1 h2 h3
    rw [pollSigned, if_pos h1, sgn, if_pos ⟨h2, h3⟩, R.bind_ok]
    split <;> rfl
  · intro h1 h2 r hr
    rw [pollSigned, if_pos h1, sgn] at hr
    split at hr
    · rw [R.bind_ok, if_neg (by omega)] at hr
      cases hr; rfl
    · cases hr

example := (C70_signed_exact 32 100 2147483600 (-2147483648)).2.2.1 (by decide) (Or.inr (by decide))

end PollEvent
