import Verif.Basic
/-!
# Byte memory and modular positions shared by several models

An array of `n` elements of `sz` bytes each is modelled, where byte counts matter, as the list of its `n * sz` bytes.
-/

abbrev Byte := BitVec 8

/-- `memcpy(dst + off, src, n)` on byte arrays: undefined if it runs past either array. -/
def memcpy (dst : List Byte) (off : Nat) (src : List Byte) (n : Nat) : R (List Byte) :=
  if off + n ≤ dst.length ∧ n ≤ src.length then .ok (dst.take off ++ src.take n ++ dst.drop (off + n)) else .ub

/-- `memset(dst, c, n)` on a byte array. -/
def memset (dst : List Byte) (c : Byte) (n : Nat) : R (List Byte) :=
  if n ≤ dst.length then .ok (List.replicate n c ++ dst.drop n) else .ub

/-- The bytes of element `i` of an array of elements of `sz` bytes. -/
def elemBytes (sz : Nat) (mem : List Byte) (i : Nat) : List Byte := (mem.drop (i * sz)).take sz

theorem memcpy_ok {dst src : List Byte} {off n : Nat} (h1 : off + n ≤ dst.length) (h2 : n ≤ src.length) :
    memcpy dst off src n = .ok (dst.take off ++ src.take n ++ dst.drop (off + n)) := by
  simp [memcpy, h1, h2]

theorem memcpy_getElem? {dst src out : List Byte} {off n : Nat} (h : memcpy dst off src n = .ok out) (j : Nat) :
    out.length = dst.length ∧ out[j]? = if off ≤ j ∧ j < off + n then src[j - off]? else dst[j]? := by
  unfold memcpy at h
  split at h
  · next hc =>
    obtain ⟨h1, h2⟩ := hc
    cases h
    refine ⟨by simp; omega, ?_⟩
    by_cases h3 : j < off
    · rw [if_neg (by omega), List.append_assoc, List.getElem?_append_left (by simp; omega), List.getElem?_take, if_pos h3]
    · rw [List.append_assoc, List.getElem?_append_right (by simp; omega)]
      have e : (List.take off dst).length = off := by simp; omega
      rw [e]
      by_cases h4 : j < off + n
      · rw [if_pos (by omega), List.getElem?_append_left (by simp; omega), List.getElem?_take, if_pos (by omega)]
      · rw [if_neg (by omega), List.getElem?_append_right (by simp; omega)]
        have e2 : (List.take n src).length = n := by simp; omega
        rw [e2, List.getElem?_drop]
        congr 1; omega
  · cases h

theorem mod_add_inj {a i j N : Nat} (hi : i < N) (hj : j < N) (h : (a + i) % N = (a + j) % N) : i = j := by
  have hN : 0 < N := by omega
  rcases Nat.lt_trichotomy i j with hlt | heq | hlt
  · exfalso
    have h2 : (a + j - (a + i)) % N = 0 := Nat.sub_mod_eq_zero_of_mod_eq h.symm
    rw [show a + j - (a + i) = j - i by omega, Nat.mod_eq_of_lt (by omega)] at h2
    omega
  · exact heq
  · exfalso
    have h2 : (a + i - (a + j)) % N = 0 := Nat.sub_mod_eq_zero_of_mod_eq h
    rw [show a + i - (a + j) = i - j by omega, Nat.mod_eq_of_lt (by omega)] at h2
    omega

theorem mod_add_mod' (a b N : Nat) : (a % N + b) % N = (a + b) % N := Nat.mod_add_mod a N b

theorem and_mask (x k : Nat) : x &&& (2 ^ k - 1) = x % 2 ^ k := Nat.and_two_pow_sub_one_eq_mod x k
