import Verif.Model.Small
import Verif.Mem
import Mathlib.Tactic.Linarith
import Mathlib.Tactic.Ring
import Mathlib.Tactic.NormNum
import Mathlib.Data.List.Induction
import Mathlib.Data.List.Nodup
/-! # Properties C109, C110, C113, C114, C115, C129, C130, C131: small containers and helpers -/

namespace ByteBlock

/-- Little-endian value of a list of bytes. -/
def le : List Nat → Nat
  | [] => 0
  | b :: bs => b + 256 * le bs

theorem byte (x k : Nat) : (x >>> k) &&& 0xFF = x / 2 ^ k % 256 := by
  have := and_mask (x >>> k) 8
  rw [Nat.shiftRight_eq_div_pow] at this ⊢
  simpa using this

/-- **C109**: print appends as many bytes as the type has, all less than 256, whose little-endian value is the number printed; what was there before is unchanged. -/
theorem C109_print (data : List Nat) (x : Nat) :
    (x < 2 ^ 8 → ∃ bs, printU8 data x = data ++ bs ∧ bs.length = 1 ∧ (∀ b ∈ bs, b < 256) ∧ le bs = x) ∧
    (x < 2 ^ 16 → ∃ bs, printU16 data x = data ++ bs ∧ bs.length = 2 ∧ (∀ b ∈ bs, b < 256) ∧ le bs = x) ∧
    (x < 2 ^ 32 → ∃ bs, printU32 data x = data ++ bs ∧ bs.length = 4 ∧ (∀ b ∈ bs, b < 256) ∧ le bs = x) := by
  refine ⟨fun h => ⟨[x / 2 ^ 0 % 256], ?_, rfl, ?_, ?_⟩, fun h => ⟨[x / 2 ^ 0 % 256, x / 2 ^ 8 % 256], ?_, rfl, ?_, ?_⟩,
    fun h => ⟨[x / 2 ^ 0 % 256, x / 2 ^ 8 % 256, x / 2 ^ 16 % 256, x / 2 ^ 24 % 256], ?_, rfl, ?_, ?_⟩⟩
  · simp only [printU8, byte]
  · intro b hb; simp at hb; omega
  · simp [le]; omega
  · simp only [printU16, byte, List.append_assoc]; rfl
  · intro b hb; simp at hb; omega
  · simp [le]; omega
  · simp only [printU32, byte, List.append_assoc]; rfl
  · intro b hb; simp at hb; omega
  · simp [le]; omega

/-- The encoding is unique: bytes less than 256 are determined by their number and little-endian value. -/
theorem C109_unique (a b : List Nat) (hl : a.length = b.length) (ha : ∀ x ∈ a, x < 256) (hb : ∀ x ∈ b, x < 256) (h : le a = le b) : a = b := by
  induction a generalizing b with
  | nil => exact (List.length_eq_zero_iff.mp hl.symm).symm
  | cons x a ih =>
    cases b with
    | nil => simp at hl
    | cons y b =>
      simp only [le] at h
      have hx := ha x List.mem_cons_self
      have hy := hb y List.mem_cons_self
      have e : x = y := by omega
      rw [e, ih b (by simpa using hl) (fun z hz => ha z (List.mem_cons_of_mem _ hz)) (fun z hz => hb z (List.mem_cons_of_mem _ hz)) (by omega)]

/-- **C109**: printRaw appends exactly the first `size` bytes of the given memory. -/
theorem C109_raw (data mem : List Nat) (size : Nat) (h : size ≤ mem.length) : printRaw data mem size = .ok (data ++ mem.take size) := by
  induction size generalizing data mem with
  | zero => simp [printRaw]
  | succ n ih =>
    cases mem with
    | nil => simp at h
    | cons b rest =>
      simp only [List.length_cons] at h
      rw [printRaw]
      rw [ih _ _ (by omega)]
      simp

example : printU32 [7] 0x01020304 = [7, 4, 3, 2, 1] := by decide

end ByteBlock

namespace IOBuf

variable {α : Type}

/-- Operations on an input buffer. -/
inductive InOp (α : Type) where
  | put (x : α)
  | reset

/-- One operation. -/
def inStep (b : IOBuf α) : InOp α → R (IOBuf α)
  | .put x => b.put x
  | .reset => .ok b.reset

/-- Run a history. -/
def inRun (b : IOBuf α) : List (InOp α) → R (IOBuf α)
  | [] => .ok b
  | o :: os => do let b' ← inStep b o; inRun b' os

/-- The items put since the last reset. -/
def putSince (acc : List α) : List (InOp α) → List α
  | [] => acc
  | .put x :: os => putSince (acc ++ [x]) os
  | .reset :: os => putSince [] os

theorem set_take (l : List α) (i : Nat) (x : α) (h : i < l.length) : (l.set i x).take (i + 1) = l.take i ++ [x] := by
  rw [List.take_succ_eq_append_getElem (by rw [List.length_set]; exact h), List.getElem_set_self, List.take_set_of_le (le_refl i)]

/-- **C110** (InputBuffer): after every history no operation is undefined, the buffer starts with the first `n` items put since the last reset, and is full exactly if there were at least `n`. -/
theorem C110_input (n : Nat) (z : α) (os : List (InOp α)) :
    ∃ b, inRun (init n z) os = .ok b ∧ b.buf.length = n ∧ b.buf.take b.head = (putSince [] os).take n ∧ (b.full = true ↔ n ≤ (putSince [] os).length) := by
  have gen : ∀ (os : List (InOp α)) (b : IOBuf α) (acc : List α), b.buf.length = n → b.head = min acc.length n → b.buf.take b.head = acc.take n →
      ∃ b', inRun b os = .ok b' ∧ b'.buf.length = n ∧ b'.head = min (putSince acc os).length n ∧ b'.buf.take b'.head = (putSince acc os).take n := by
    intro os
    induction os with
    | nil => intro b acc h1 h2 h3; exact ⟨b, rfl, h1, h2, h3⟩
    | cons o os ih =>
      intro b acc h1 h2 h3
      cases o with
      | reset =>
        obtain ⟨b', r⟩ := ih b.reset [] h1 (by simp [reset]) (by simp [reset])
        exact ⟨b', r⟩
      | put x =>
        by_cases hf : n ≤ acc.length
        · have hp : b.put x = .ok b := by
            unfold put full
            rw [if_pos (by simp; omega)]
          have e : (acc ++ [x]).take n = acc.take n := by rw [List.take_append_of_le_length hf]
          obtain ⟨b', r⟩ := ih b (acc ++ [x]) h1 (by rw [List.length_append]; simp; omega) (by rw [h3, e])
          refine ⟨b', ?_, r.2⟩
          rw [inRun, inStep, hp]; exact r.1
        · have hlt : b.head < b.buf.length := by omega
          have hp : b.put x = .ok ⟨b.buf.set b.head x, b.head + 1⟩ := by
            unfold put full
            rw [if_neg (by simp; omega), arrSet_lt hlt]; rfl
          obtain ⟨b', r⟩ := ih ⟨b.buf.set b.head x, b.head + 1⟩ (acc ++ [x]) (by simp [h1]) (by simp; omega) (by
            simp only
            rw [set_take _ _ _ hlt, h3, List.take_of_length_le (by omega), List.take_of_length_le (by simp; omega)])
          refine ⟨b', ?_, r.2⟩
          rw [inRun, inStep, hp]; exact r.1
  obtain ⟨b, h1, h2, h3, h4⟩ := gen os (init n z) [] (by simp [init]) (by simp [init]) (by simp [init])
  refine ⟨b, h1, h2, h4, ?_⟩
  unfold full
  rw [decide_eq_true_eq]; omega

/-- `k` consecutive gets. -/
def gets (z : α) : Nat → IOBuf α → R (IOBuf α × List α)
  | 0, b => .ok (b, [])
  | k + 1, b => do let (b', x) ← b.get z; let (b'', xs) ← gets z k b'; .ok (b'', x :: xs)

/-- **C110** (OutputBuffer): after reset, `k` calls of get return the buffer's elements in order, then default values, for every k; the buffer is not changed. -/
theorem C110_output (b : IOBuf α) (z : α) (k : Nat) :
    ∃ b', gets z k b.reset = .ok (b', b.buf.take k ++ List.replicate (k - b.buf.length) z) ∧ b'.buf = b.buf ∧ (b'.full = true ↔ b.buf.length ≤ k) := by
  have gen : ∀ k (c : IOBuf α), c.head ≤ c.buf.length →
      ∃ c', gets z k c = .ok (c', (c.buf.drop c.head).take k ++ List.replicate (k - (c.buf.length - c.head)) z) ∧ c'.buf = c.buf ∧ c'.head = min (c.head + k) c.buf.length := by
    intro k
    induction k with
    | zero => intro c hc; exact ⟨c, by simp [gets], rfl, by omega⟩
    | succ k ih =>
      intro c hc
      by_cases hf : c.head = c.buf.length
      · have hg : c.get z = .ok (c, z) := by unfold get full; rw [if_pos (by simp; omega)]
        obtain ⟨c', e1, e2, e3⟩ := ih c hc
        refine ⟨c', ?_, e2, by omega⟩
        rw [gets, hg]
        simp only [R.bind_ok]
        rw [e1]
        simp only [R.bind_ok]
        rw [hf, List.drop_length]
        simp [List.replicate_succ]
      · have hlt : c.head < c.buf.length := by omega
        have hg : c.get z = .ok ({ c with head := c.head + 1 }, c.buf[c.head]) := by unfold get full; rw [if_neg (by simp; omega), arrGet_lt hlt]; rfl
        obtain ⟨c', e1, e2, e3⟩ := ih { c with head := c.head + 1 } (by simp only; omega)
        refine ⟨c', ?_, e2, ?_⟩
        · rw [gets, hg]
          simp only [R.bind_ok]
          rw [e1]
          simp only [R.bind_ok]
          rw [List.drop_eq_getElem_cons hlt, List.take_succ_cons]
          have : k + 1 - (c.buf.length - c.head) = k - (c.buf.length - (c.head + 1)) := by omega
          rw [this]; rfl
        · simp only at e3; omega
  obtain ⟨c', e1, e2, e3⟩ := gen k b.reset (by simp [reset])
  refine ⟨c', ?_, e2, ?_⟩
  · rw [e1]; simp [reset]
  · unfold full
    rw [decide_eq_true_eq, e2]
    have e4 : c'.head = min k b.buf.length := by rw [e3]; simp [reset]
    have : b.reset.buf = b.buf := rfl
    rw [this]; omega

/-- **C110**: filling through data() sets exactly that element. -/
theorem C110_fill (b : IOBuf α) (i : Nat) (x : α) (h : i < b.buf.length) : ∃ c, b.fill i x = .ok c ∧ c.head = b.head ∧ c.buf.length = b.buf.length ∧ c.buf[i]? = some x ∧ ∀ j, j ≠ i → c.buf[j]? = b.buf[j]? := by
  refine ⟨⟨b.buf.set i x, b.head⟩, by unfold fill; rw [arrSet_lt h]; rfl, rfl, by simp, by simp [h], fun j hj => ?_⟩
  simp only
  rw [List.getElem?_set_ne (Ne.symm hj)]

example : inRun (init 2 0) [.put 1, .put 2, .put 3, .reset, .put 9] = .ok ⟨[9, 2], 1⟩ := by decide
example : ((gets 0 3 ⟨[5, 6], 0⟩ : R (IOBuf Nat × List Nat))) = .ok (⟨[5, 6], 2⟩, [5, 6, 0]) := by decide

end IOBuf

namespace Bitfield

/-- **C115**: a bit is set in bitfield(a, b, ...) exactly if it is set in some argument. -/
theorem C115_bitfield (x : Nat) (xs : List Nat) (k : Nat) : (bitfield x xs).testBit k = true ↔ ∃ y ∈ x :: xs, y.testBit k = true := by
  unfold bitfield
  induction xs generalizing x with
  | nil => simp
  | cons y ys ih =>
    rw [List.foldl_cons, ih]
    simp [Nat.testBit_or, or_assoc]

/-- **C115** violated for OR: it reads an uninitialised variable for every argument list. -/
theorem C115_OR_violated (xs : List Nat) : OR xs = .ub := by cases xs <;> rfl

/-- What OR would compute if `val` started as 0 (partial: the loop itself is right). -/
theorem C115_OR_loop_partial (xs : List Nat) : ∃ r, orLoop (some 0) xs = .ok r ∧ ∀ k, r.testBit k = true ↔ ∃ y ∈ xs, y.testBit k = true := by
  have gen : ∀ (xs : List Nat) (v : Nat), ∃ r, orLoop (some v) xs = .ok r ∧ ∀ k, r.testBit k = true ↔ v.testBit k = true ∨ ∃ y ∈ xs, y.testBit k = true := by
    intro xs
    induction xs with
    | nil => intro v; exact ⟨v, rfl, fun k => by simp⟩
    | cons y ys ih =>
      intro v
      obtain ⟨r, h1, h2⟩ := ih (v ||| y)
      refine ⟨r, h1, fun k => ?_⟩
      rw [h2 k]
      simp [Nat.testBit_or, or_assoc]
  obtain ⟨r, h1, h2⟩ := gen xs 0
  exact ⟨r, h1, fun k => by rw [h2 k]; simp⟩

example : bitfield 1 [4, 8] = 13 := by decide

end Bitfield

namespace Zip

variable {α : Type}

/-- The least length of some containers. -/
def IsMinLen (cs : List (List α)) (m : Nat) : Prop := (∃ c ∈ cs, c.length = m) ∧ ∀ c ∈ cs, m ≤ c.length

theorem anyMatch_iff (l r : List Nat) : anyMatch l r = true ↔ ∃ p ∈ l.zip r, p.1 = p.2 := by
  have gen : ∀ (ps : List (Nat × Nat)) (b : Bool), ps.foldl (fun b p => b || decide (p.1 = p.2)) b = true ↔ b = true ∨ ∃ p ∈ ps, p.1 = p.2 := by
    intro ps
    induction ps with
    | nil => intro b; simp
    | cons p ps ih => intro b; rw [List.foldl_cons, ih]; simp [or_assoc]
  unfold anyMatch
  rw [gen]; simp

/-- All iterators at position i match an end iff some container has length i. -/
theorem anyMatch_pos (cs : List (List α)) (i : Nat) : anyMatch (cs.map fun _ => i) (cs.map List.length) = true ↔ ∃ c ∈ cs, c.length = i := by
  rw [anyMatch_iff, List.zip_map']
  simp only [List.mem_map]
  constructor
  · rintro ⟨p, ⟨c, hc, rfl⟩, h⟩; exact ⟨c, hc, h.symm⟩
  · rintro ⟨c, hc, h⟩; exact ⟨_, ⟨c, hc, rfl⟩, h.symm⟩

theorem deref_ok (cs : List (List α)) (i : Nat) (h : ∀ c ∈ cs, i < c.length) :
    ∃ xs, deref cs (cs.map fun _ => i) = .ok xs ∧ xs.length = cs.length ∧ ∀ (n : Nat) (c : List α), cs[n]? = some c → xs[n]? = c[i]? := by
  induction cs with
  | nil => exact ⟨[], rfl, rfl, fun n c hc => by simp at hc⟩
  | cons c cs ih =>
    obtain ⟨xs, h1, h2, h3⟩ := ih (fun c' hc' => h c' (List.mem_cons_of_mem _ hc'))
    have hc := h c List.mem_cons_self
    refine ⟨c[i] :: xs, ?_, by simp [h2], ?_⟩
    · rw [List.map_cons, deref, arrGet_lt hc, h1]; rfl
    · intro n c' hn
      cases n with
      | zero => simp at hn; subst hn; simp [hc]
      | succ n => simpa using h3 n c' (by simpa using hn)

theorem incr_pos (cs : List (List α)) (i : Nat) : incr (cs.map fun _ => i) = cs.map fun _ => i + 1 := by
  unfold incr; rw [List.map_map]; rfl

/-- **C113** (zip): for at least one container, with least length m, the loop stops after exactly m steps; the i-th tuple holds the i-th element of each container, in order. -/
theorem C113_zip (cs : List (List α)) (m : Nat) (hm : IsMinLen cs m) (fuel : Nat) (hf : m ≤ fuel) :
    ∃ ts, zip cs fuel = .ok (some ts) ∧ ts.length = m ∧ ∀ (i n : Nat) (t c : List α), ts[i]? = some t → cs[n]? = some c → t.length = cs.length ∧ t[n]? = c[i]? := by
  have gen : ∀ d (i fuel : Nat), m = i + d → d ≤ fuel →
      ∃ ts, loop cs (cs.map List.length) fuel (cs.map fun _ => i) = .ok (some ts) ∧ ts.length = d ∧ ∀ (j n : Nat) (t c : List α), ts[j]? = some t → cs[n]? = some c → t.length = cs.length ∧ t[n]? = c[i + j]? := by
    intro d
    induction d with
    | zero =>
      intro i fuel hi hfu
      have hmatch : anyMatch (cs.map fun _ => i) (cs.map List.length) = true := by
        rw [anyMatch_pos]; obtain ⟨c, hc, hl⟩ := hm.1; exact ⟨c, hc, by omega⟩
      refine ⟨[], ?_, rfl, fun j n t c ht => by simp at ht⟩
      cases fuel <;> rw [loop, if_pos hmatch]
    | succ d ih =>
      intro i fuel hi hfu
      obtain ⟨fuel, rfl⟩ : ∃ f, fuel = f + 1 := ⟨fuel - 1, by omega⟩
      have hno : ¬ anyMatch (cs.map fun _ => i) (cs.map List.length) = true := by
        rw [anyMatch_pos]; rintro ⟨c, hc, hl⟩; have := hm.2 c hc; omega
      obtain ⟨xs, d1, d2, d3⟩ := deref_ok cs i (fun c hc => by have := hm.2 c hc; omega)
      obtain ⟨ts, t1, t2, t3⟩ := ih (i + 1) fuel (by omega) (by omega)
      refine ⟨xs :: ts, ?_, by simp [t2], ?_⟩
      · rw [loop, if_neg hno, d1, incr_pos]
        simp only [R.bind_ok]
        rw [t1]; rfl
      · intro j n t c ht hc
        cases j with
        | zero => simp at ht; subst ht; exact ⟨d2, d3 n c hc⟩
        | succ j =>
          have := t3 j n t c (by simpa using ht) hc
          rwa [show i + 1 + j = i + (j + 1) by omega] at this
  obtain ⟨ts, t1, t2, t3⟩ := gen m 0 fuel (by omega) hf
  refine ⟨ts, t1, t2, fun i n t c ht hc => ?_⟩
  have := t3 i n t c ht hc
  rwa [Nat.zero_add] at this

/-- **C113** (countzip, enumerate): as zip, with the index i in front of the i-th tuple. -/
theorem C113_countzip (cs : List (List α)) (m : Nat) (hm : IsMinLen cs m) (fuel : Nat) (hf : m ≤ fuel) :
    ∃ ts, zip cs fuel = .ok (some ts) ∧ countzip cs fuel = .ok (some ((List.range m).zip ts)) := by
  have gen : ∀ (fuel i : Nat) (is : List Nat) (ts : List (List α)), loop cs (cs.map List.length) fuel is = .ok (some ts) → countLoop cs (cs.map List.length) fuel i is = .ok (some ((List.range' i ts.length).zip ts)) := by
    intro fuel
    induction fuel with
    | zero =>
      intro i is ts h
      rw [loop] at h
      rw [countLoop]
      split at h
      · next hm => cases h; rw [if_pos hm]; rfl
      · cases h
    | succ f ih =>
      intro i is ts h
      rw [loop] at h
      rw [countLoop]
      split at h
      · next hm => cases h; rw [if_pos hm]; rfl
      · next hm =>
        rw [if_neg hm]
        cases hd : deref cs is with
        | ub => rw [hd] at h; simp at h
        | ok x =>
          rw [hd] at h
          simp only [R.bind_ok] at h ⊢
          cases hl : loop cs (cs.map List.length) f (incr is) with
          | ub => rw [hl] at h; simp at h
          | ok r =>
            rw [hl] at h
            simp only [R.bind_ok] at h
            cases r with
            | none => simp at h
            | some ts' =>
              simp only [Option.map_some, R.ok.injEq, Option.some.injEq] at h
              subst h
              rw [ih (i + 1) (incr is) ts' hl]
              simp [List.range'_succ]
  obtain ⟨ts, t1, t2, _⟩ := C113_zip cs m hm fuel hf
  refine ⟨ts, t1, ?_⟩
  have := gen fuel 0 _ ts t1
  rw [t2] at this
  rw [List.range_eq_range']
  exact this

/-- zip of no containers never ends: however many steps are allowed. -/
theorem C113_nothing (fuel : Nat) : zip ([] : List (List α)) fuel = .ok none := by
  show loop ([] : List (List α)) [] fuel [] = .ok none
  induction fuel with
  | zero => rfl
  | succ f ih =>
    rw [loop, if_neg (show ¬ anyMatch [] [] = true by decide)]
    simp only [deref, R.bind_ok, incr, List.map_nil]
    rw [ih]; rfl

example : zip [[1, 2, 3], [4, 5]] 9 = .ok (some [[1, 4], [2, 5]]) ∧ countzip [[1, 2, 3], [4, 5]] 9 = .ok (some [(0, [1, 4]), (1, [2, 5])]) := by decide

example : IsMinLen [[1, 2, 3], [4, 5]] 2 := ⟨⟨[4, 5], by decide, rfl⟩, by decide⟩

end Zip

namespace Owners

/-- Operations on Function (or BigBuffer) variables. -/
inductive Op where
  | default (x : Nat)
  | construct (x : Nat)
  | copy (x y : Nat)
  | assign (x y : Nat)
  | destroy (x : Nat)
  | call (x : Nat)

def step (s : Owners) : Op → R Owners
  | .default x => s.defaultCtor x
  | .construct x => s.construct x
  | .copy x y => s.copyCtor x y
  | .assign x y => s.assign x y
  | .destroy x => s.destroy x
  | .call x => do let _ ← s.call x; .ok s

def run (s : Owners) : List Op → R Owners
  | [] => .ok s
  | o :: os => do let s' ← step s o; run s' os

/-- No copies: neither copy construction nor assignment. -/
def Op.noCopy : Op → Prop
  | .copy _ _ => False
  | .assign _ _ => False
  | _ => True

structure Inv (s : Owners) : Prop where
  lt : ∀ r ∈ s.made, r < s.next
  nodup : s.made.Nodup
  freed_made : ∀ r ∈ s.freed, r ∈ s.made
  freed_nodup : s.freed.Nodup
  live : ∀ x r, s.vars x = some (some r) → r ∈ s.made ∧ r ∉ s.freed
  inj : ∀ x y r, s.vars x = some (some r) → s.vars y = some (some r) → x = y
  owned : ∀ r ∈ s.made, r ∉ s.freed → ∃ x, s.vars x = some (some r)

theorem inv_init : Inv init := by constructor <;> simp [init]

theorem inv_step (s s' : Owners) (o : Op) (hn : o.noCopy) (h : Inv s) (hs : step s o = .ok s') : Inv s' := by
  cases o with
  | copy x y => exact absurd hn (by simp [Op.noCopy])
  | assign x y => exact absurd hn (by simp [Op.noCopy])
  | call x =>
    simp only [step] at hs
    cases hc : s.call x with
    | ub => rw [hc] at hs; simp at hs
    | ok r => rw [hc] at hs; simp at hs; rw [← hs]; exact h
  | default x =>
    simp only [step, defaultCtor] at hs
    split at hs
    · next hx =>
      cases hs
      have hv : ∀ y r, (s.setVar x (some none)).vars y = some (some r) ↔ s.vars y = some (some r) := by
        intro y r
        show (if y = x then some none else s.vars y) = some (some r) ↔ _
        split
        · next e => subst e; simp [hx]
        · rfl
      constructor
      · exact h.lt
      · exact h.nodup
      · exact h.freed_made
      · exact h.freed_nodup
      · intro y r hy; exact h.live y r ((hv y r).mp hy)
      · intro y z r hy hz; exact h.inj y z r ((hv y r).mp hy) ((hv z r).mp hz)
      · intro r h1 h2; obtain ⟨y, hy⟩ := h.owned r h1 h2; exact ⟨y, (hv y r).mpr hy⟩
    · cases hs
  | construct x =>
    simp only [step, construct] at hs
    split at hs
    · next hx =>
      cases hs
      have hv : ∀ y r, (if y = x then some (some s.next) else s.vars y) = some (some r) ↔ (y = x ∧ r = s.next) ∨ s.vars y = some (some r) := by
        intro y r
        split
        · next e => subst e; simp [hx, eq_comm]
        · next e => simp [e]
      constructor
      · intro r hr
        rcases List.mem_cons.mp hr with e | hr
        · rw [e]; exact Nat.lt_succ_self _
        · exact Nat.lt_succ_of_lt (h.lt r hr)
      · exact List.nodup_cons.mpr ⟨fun hm => Nat.lt_irrefl _ (h.lt _ hm), h.nodup⟩
      · intro r hr; exact List.mem_cons_of_mem _ (h.freed_made r hr)
      · exact h.freed_nodup
      · intro y r hy
        rcases (hv y r).mp hy with ⟨_, e⟩ | hy
        · rw [e]; exact ⟨List.mem_cons_self, fun hf => Nat.lt_irrefl _ (h.lt _ (h.freed_made _ hf))⟩
        · exact ⟨List.mem_cons_of_mem _ (h.live y r hy).1, (h.live y r hy).2⟩
      · intro y z r hy hz
        rcases (hv y r).mp hy with ⟨e1, e2⟩ | hy <;> rcases (hv z r).mp hz with ⟨e3, e4⟩ | hz
        · rw [e1, e3]
        · exact absurd (h.lt _ (h.live z r hz).1) (by omega)
        · exact absurd (h.lt _ (h.live y r hy).1) (by omega)
        · exact h.inj y z r hy hz
      · intro r h1 h2
        rcases List.mem_cons.mp h1 with e | h1
        · exact ⟨x, (hv x r).mpr (.inl ⟨rfl, e⟩)⟩
        · obtain ⟨y, hy⟩ := h.owned r h1 h2; exact ⟨y, (hv y r).mpr (.inr hy)⟩
    · cases hs
  | destroy x =>
    simp only [step, destroy] at hs
    split at hs
    · cases hs
    · next hx =>
      cases hs
      have hv : ∀ y r, (if y = x then none else s.vars y) = some (some r) ↔ s.vars y = some (some r) := by
        intro y r
        split
        · next e => subst e; simp [hx]
        · rfl
      constructor
      · exact h.lt
      · exact h.nodup
      · exact h.freed_made
      · exact h.freed_nodup
      · intro y r hy; exact h.live y r ((hv y r).mp hy)
      · intro y z r hy hz; exact h.inj y z r ((hv y r).mp hy) ((hv z r).mp hz)
      · intro r h1 h2; obtain ⟨y, hy⟩ := h.owned r h1 h2; exact ⟨y, (hv y r).mpr hy⟩
    · next q hx =>
      cases hs
      have hv : ∀ y r, (if y = x then none else s.vars y) = some (some r) ↔ y ≠ x ∧ s.vars y = some (some r) := by
        intro y r
        split
        · next e => simp [e]
        · next e => simp [e]
      constructor
      · exact h.lt
      · exact h.nodup
      · intro r hr
        rcases List.mem_cons.mp hr with e | hr
        · rw [e]; exact (h.live x q hx).1
        · exact h.freed_made r hr
      · exact List.nodup_cons.mpr ⟨(h.live x q hx).2, h.freed_nodup⟩
      · intro y r hy
        obtain ⟨e, hy⟩ := (hv y r).mp hy
        refine ⟨(h.live y r hy).1, fun hf => ?_⟩
        rcases List.mem_cons.mp hf with e' | hf
        · exact e (h.inj y x r hy (by rw [e']; exact hx))
        · exact (h.live y r hy).2 hf
      · intro y z r hy hz; exact h.inj y z r ((hv y r).mp hy).2 ((hv z r).mp hz).2
      · intro r h1 h2
        obtain ⟨y, hy⟩ := h.owned r h1 (fun hf => h2 (List.mem_cons_of_mem _ hf))
        refine ⟨y, (hv y r).mpr ⟨fun e => ?_, hy⟩⟩
        rw [e, hx] at hy
        cases hy
        exact h2 List.mem_cons_self

theorem inv_run (os : List Op) (s s' : Owners) (hn : ∀ o ∈ os, o.noCopy) (h : Inv s) (hs : run s os = .ok s') : Inv s' := by
  induction os generalizing s with
  | nil => cases hs; exact h
  | cons o os ih =>
    rw [run] at hs
    cases ho : step s o with
    | ub => rw [ho] at hs; simp at hs
    | ok t =>
      rw [ho] at hs
      exact ih t (fun o' h' => hn o' (List.mem_cons_of_mem _ h')) (inv_step s t o (hn o List.mem_cons_self) h ho) hs

/-- **C114** (partial: without copies and assignments). After every such history nothing has been destroyed that was not constructed, nothing has been destroyed twice, a variable that holds a callable holds a live one
of its own (so calling it is defined), and once all variables are destroyed every callable has been destroyed exactly once. -/
theorem C114_once_partial (os : List Op) (hn : ∀ o ∈ os, o.noCopy) (s : Owners) (hs : run init os = .ok s) :
    s.made.Nodup ∧ s.freed.Nodup ∧ (∀ r ∈ s.freed, r ∈ s.made) ∧ (∀ x r, s.vars x = some (some r) → s.call x = .ok r) ∧ ((∀ x, s.vars x = none) → ∀ r, s.made.count r = s.freed.count r) := by
  have h := inv_run os init s hn inv_init hs
  refine ⟨h.nodup, h.freed_nodup, h.freed_made, ?_, ?_⟩
  · intro x r hx
    unfold call
    rw [hx]
    simp only
    rw [if_neg (h.live x r hx).2]
  · intro hall r
    by_cases hm : r ∈ s.made
    · have hf : r ∈ s.freed := by
        by_contra hf
        obtain ⟨x, hx⟩ := h.owned r hm hf
        rw [hall x] at hx; cases hx
      rw [List.count_eq_one_of_mem h.nodup hm, List.count_eq_one_of_mem h.freed_nodup hf]
    · rw [List.count_eq_zero_of_not_mem hm, List.count_eq_zero_of_not_mem (fun hf => hm (h.freed_made r hf))]

/-- **C114** violated by copying: one callable constructed, destroyed twice; calling the copy after the original is gone uses a destroyed callable. -/
theorem C114_copy_violated : (∃ s, run init [.construct 0, .copy 1 0, .destroy 0, .destroy 1] = .ok s ∧ s.made.count 0 = 1 ∧ s.freed.count 0 = 2) ∧
    run init [.construct 0, .copy 1 0, .destroy 0, .call 1] = .ub := ⟨⟨_, rfl, rfl, rfl⟩, rfl⟩

/-- **C114** violated by assignment: the callable that was there is never destroyed, the other one twice. -/
theorem C114_assign_violated : ∃ s, run init [.construct 0, .construct 1, .assign 0 1, .destroy 0, .destroy 1] = .ok s ∧ (∀ x, s.vars x = none) ∧ s.freed.count 0 = 0 ∧ s.freed.count 1 = 2 := by
  refine ⟨_, rfl, ?_, rfl, rfl⟩
  intro x
  show (if x = 1 then none else if x = 0 then none else if x = 0 then _ else if x = 1 then _ else if x = 0 then _ else none) = none
  split
  · rfl
  · split
    · rfl
    · simp_all

/-- **C114**: operator bool tells whether a callable is stored; calling an empty Function is undefined. -/
theorem C114_bool (s : Owners) (x : Nat) : (s.vars x = some none → s.isSet x = .ok false ∧ s.call x = .ub) ∧ (∀ r, s.vars x = some (some r) → s.isSet x = .ok true) := by
  constructor
  · intro h; unfold isSet call; rw [h]; exact ⟨rfl, rfl⟩
  · intro r h; unfold isSet; rw [h]; rfl

example : ∃ s, run init [.construct 0, .default 1, .call 0, .construct 2, .destroy 1, .destroy 2, .destroy 0] = .ok s ∧ s.made = [1, 0] ∧ s.freed = [0, 1] := ⟨_, rfl, rfl, rfl⟩

end Owners

namespace PaddedAligned

/-- **C129**: for a power-of-two alignment the total size is the least multiple of it that holds the data, and the padding is the difference (unless it does not fit in size_t). -/
theorem C129_size (w k d : Nat) (hk : k ≤ w) (h : d + (2 ^ k - 1) < 2 ^ w) :
    2 ^ k ∣ alignedSz w d (2 ^ k) ∧ d ≤ alignedSz w d (2 ^ k) ∧ alignedSz w d (2 ^ k) < d + 2 ^ k ∧ d + padSz w d (2 ^ k) = alignedSz w d (2 ^ k) := by
  have hp : 0 < 2 ^ k := Nat.two_pow_pos k
  have e : alignedSz w d (2 ^ k) = (d + (2 ^ k - 1)) / 2 ^ k * 2 ^ k := by
    unfold alignedSz
    rw [Nat.mod_eq_of_lt h]
    obtain ⟨x, hx⟩ : ∃ x, d + (2 ^ k - 1) = x := ⟨_, rfl⟩
    rw [hx] at h ⊢
    apply Nat.eq_of_testBit_eq
    intro i
    rw [Nat.testBit_and, show 2 ^ w - 1 - (2 ^ k - 1) = (2 ^ (w - k) - 1) * 2 ^ k by
      rw [Nat.sub_mul, ← pow_add, Nat.sub_add_cancel hk]; omega]
    rw [← Nat.shiftLeft_eq, ← Nat.shiftLeft_eq, Nat.testBit_shiftLeft, Nat.testBit_shiftLeft, Nat.testBit_two_pow_sub_one]
    by_cases hi : k ≤ i
    · simp only [hi, decide_true, Bool.true_and, ge_iff_le]
      rw [← Nat.shiftRight_eq_div_pow, Nat.testBit_shiftRight, Nat.add_sub_cancel' hi]
      by_cases hw : i - k < w - k
      · simp [hw]
      · have : x.testBit i = false := Nat.testBit_lt_two_pow (Nat.lt_of_lt_of_le h (Nat.pow_le_pow_right (by decide) (by omega)))
        simp [this]
    · simp [hi]
  have hdm := Nat.div_add_mod (d + (2 ^ k - 1)) (2 ^ k)
  have hml := Nat.mod_lt (d + (2 ^ k - 1)) hp
  rw [Nat.mul_comm] at hdm
  have h1 : d ≤ alignedSz w d (2 ^ k) := by rw [e]; omega
  have h2 : alignedSz w d (2 ^ k) < d + 2 ^ k := by rw [e]; omega
  have h3 : alignedSz w d (2 ^ k) < 2 ^ w := by rw [e]; omega
  refine ⟨?_, h1, h2, ?_⟩
  · rw [e]; exact Nat.dvd_mul_left _ _
  · unfold padSz
    have : (alignedSz w d (2 ^ k) + 2 ^ w - d) = (alignedSz w d (2 ^ k) - d) + 2 ^ w := by omega
    rw [this, Nat.add_mod_right, Nat.mod_eq_of_lt (by omega)]
    omega

example : alignedSz 32 33 32 = 64 ∧ padSz 32 33 32 = 31 := by decide

end PaddedAligned

namespace Neon

/-- **C130**: the portable vector operations work lane by lane, as the NEON intrinsics of the same names: for each lane. -/
theorem C130_lanes (x y z : V4) (c : ℚ) (i : Nat) (hi : i < 4) : ∃ p q r, V4.lane x i = .ok p ∧ V4.lane y i = .ok q ∧ V4.lane z i = .ok r ∧
    V4.lane (vmul x y) i = .ok (p * q) ∧ V4.lane (vmla z x y) i = .ok (r + p * q) ∧ V4.lane (vsub x y) i = .ok (p - q) ∧ V4.lane (vmax x y) i = .ok (max p q) ∧ V4.lane (vdup c) i = .ok c := by
  have : i = 0 ∨ i = 1 ∨ i = 2 ∨ i = 3 := by omega
  rcases this with rfl | rfl | rfl | rfl <;> exact ⟨_, _, _, rfl, rfl, rfl, rfl, rfl, rfl, rfl, rfl⟩

/-- **C130**: loading takes four consecutive elements; low and high halves and pairwise addition give the sum of all lanes. -/
theorem C130_load_sum (l : List ℚ) (h : 4 ≤ l.length) : ∃ v, vld1 l = .ok v ∧ (∀ i (hi : i < 4), V4.lane v i = .ok (l[i]'(by omega))) ∧
    ∃ s t, V2.lane (vpadd (vlow v) (vhigh v)) 0 = .ok s ∧ V2.lane (vpadd (vlow v) (vhigh v)) 1 = .ok t ∧ s + t = (l.take 4).sum := by
  match l, h with
  | a :: b :: c :: d :: r, _ =>
    refine ⟨⟨a, b, c, d⟩, rfl, ?_, a + b, c + d, rfl, rfl, ?_⟩
    · intro i hi
      have : i = 0 ∨ i = 1 ∨ i = 2 ∨ i = 3 := by omega
      rcases this with rfl | rfl | rfl | rfl <;> rfl
    · simp; ring

example : vmla (vdup 1) ⟨1, 2, 3, 4⟩ (vdup 2) = ⟨3, 5, 7, 9⟩ := by unfold vmla vdup; norm_num

end Neon
