import Verif.Model.ZipWrite
import Verif.Spec.ZipWrite
import Verif.Props.Small
/-! # Property C239: loops that write through zip() and countzip() -/

namespace ZipWrite
open Zip Spec

variable {α : Type}

theorem deref_row (args : List Nat) (m : Mem α) (i : Nat) (v : Nat → α) (hv : ∀ a ∈ args, (m a)[i]? = some (v a)) : deref (args.map m) (args.map fun _ => i) = .ok (args.map v) := by
  induction args with
  | nil => rfl
  | cons a args ih =>
    rw [List.map_cons, List.map_cons, deref, arrGet_some (hv a List.mem_cons_self), ih fun b hb => hv b (List.mem_cons_of_mem _ hb)]
    rfl

/-- The body at row `i`. -/
theorem body_row (args : List Nat) (i : Nat) (st : List (Stmt α)) : ∀ (m : Mem α) (v : Nat → α), (∀ p ∈ st, p.1 < args.length) → (∀ a ∈ args, (m a)[i]? = some (v a)) →
    ∃ m', runBody args (args.map fun _ => i) st m = .ok m' ∧ (∀ a, (m' a).length = (m a).length) ∧ (∀ a ∈ args, (m' a)[i]? = some (onRow args st v a)) ∧ (∀ a ∉ args, m' a = m a) ∧ ∀ a j, j ≠ i → (m' a)[j]? = (m a)[j]? := by
  induction st with
  | nil => intro m v _ hv; exact ⟨m, rfl, fun _ => rfl, hv, fun _ _ => rfl, fun _ _ _ => rfl⟩
  | cons p st ih =>
    intro m v hk hv
    obtain ⟨k, f⟩ := p
    have hk0 : k < args.length := hk (k, f) List.mem_cons_self
    obtain ⟨a, ha⟩ : ∃ a, args[k]? = some a := ⟨args[k], List.getElem?_eq_getElem hk0⟩
    have hmem : a ∈ args := List.mem_of_getElem? ha
    have hi : i < (m a).length := by
      have := hv a hmem
      exact (List.getElem?_eq_some_iff.1 this).1
    have hi2 : (args.map fun _ => i)[k]? = some i := by rw [List.getElem?_map, ha]; rfl
    obtain ⟨m1, hm1⟩ : ∃ m1 : Mem α, m1 = fun b => if b = a then (m a).set i (f (args.map v)) else m b := ⟨_, rfl⟩
    have hlen1 : ∀ b, (m1 b).length = (m b).length := by
      intro b; rw [hm1]; simp only; split
      · next e => rw [e, List.length_set]
      · rfl
    have hrow1 : ∀ b ∈ args, (m1 b)[i]? = some (if args[k]? = some b then f (args.map v) else v b) := by
      intro b hb
      rw [hm1, ha]; simp only [Option.some.injEq]
      by_cases e : b = a
      · rw [if_pos e, if_pos e.symm, List.getElem?_set_self hi]
      · rw [if_neg e, if_neg fun h => e h.symm]; exact hv b hb
    have hoth1 : ∀ b, b ∉ args → m1 b = m b := by
      intro b hb; rw [hm1]; simp only; rw [if_neg (fun e : b = a => hb (by rw [e]; exact hmem))]
    have hcol1 : ∀ b j, j ≠ i → (m1 b)[j]? = (m b)[j]? := by
      intro b j hj; rw [hm1]; simp only; split
      · next e => rw [e, List.getElem?_set_ne (Ne.symm hj)]
      · rfl
    obtain ⟨m', h1, h2, h3, h4, h5⟩ := ih m1 (fun b => if args[k]? = some b then f (args.map v) else v b) (fun p hp => hk p (List.mem_cons_of_mem _ hp)) hrow1
    refine ⟨m', ?_, fun b => by rw [h2, hlen1], ?_, fun b hb => by rw [h4 b hb, hoth1 b hb], fun b j hj => by rw [h5 b j hj, hcol1 b j hj]⟩
    · rw [runBody, deref_row args m i v hv]
      simp only [R.bind_ok, ha, hi2]
      rw [show write m a i (f (args.map v)) = .ok m1 by rw [write, arrSet_lt hi, hm1]; rfl]
      exact h1
    · exact h3

theorem anyMatch_const (args : List Nat) (len : Nat → Nat) (i : Nat) : anyMatch (args.map fun _ => i) (args.map len) = true ↔ ∃ a ∈ args, len a = i := by
  rw [anyMatch_iff, List.zip_map']
  simp only [List.mem_map]
  constructor
  · rintro ⟨p, ⟨c, hc, rfl⟩, h⟩; exact ⟨c, hc, h.symm⟩
  · rintro ⟨c, hc, h⟩; exact ⟨_, ⟨c, hc, rfl⟩, h.symm⟩

/-- **C239**: a loop over zip() or countzip() of at least one container, the shortest of length n, with any body of assignments through the references (which may depend on the count), ends; it carries out the body once on the i-th elements of the
containers for each i < n, each time on the values these elements had before the loop; elements from n on and other containers are untouched, and nothing outside a container is accessed. This holds even if a container is passed more than once: the
references then share the element. -/
theorem C239_rows (args : List Nat) (body : Nat → List (Stmt α)) (hb : ∀ i, ∀ p ∈ body i, p.1 < args.length) (m : Mem α) (n : Nat) (hn : ∃ a ∈ args, (m a).length = n) (hmin : ∀ a ∈ args, n ≤ (m a).length) (fuel : Nat) (hf : n ≤ fuel) :
    ∃ m', forEach args body fuel m = .ok (some m') ∧ (∀ a, (m' a).length = (m a).length) ∧
      (∀ i < n, ∀ v : Nat → α, (∀ a ∈ args, (m a)[i]? = some (v a)) → ∀ a ∈ args, (m' a)[i]? = some (onRow args (body i) v a)) ∧
      (∀ a i, n ≤ i → (m' a)[i]? = (m a)[i]?) ∧ ∀ a ∉ args, m' a = m a := by
  have gen : ∀ d (i fuel : Nat) (w : Mem α), n = i + d → d ≤ fuel → (∀ a, (w a).length = (m a).length) →
      ∃ m', loop args (args.map fun a => (m a).length) body fuel i (args.map fun _ => i) w = .ok (some m') ∧ (∀ a, (m' a).length = (m a).length) ∧
        (∀ j < n, i ≤ j → ∀ v : Nat → α, (∀ a ∈ args, (w a)[j]? = some (v a)) → ∀ a ∈ args, (m' a)[j]? = some (onRow args (body j) v a)) ∧
        (∀ a j, n ≤ j ∨ j < i → (m' a)[j]? = (w a)[j]?) ∧ ∀ a ∉ args, m' a = w a := by
    intro d
    induction d with
    | zero =>
      intro i fuel w hi _ hlen
      have hmatch : anyMatch (args.map fun _ => i) (args.map fun a => (m a).length) = true := by
        rw [anyMatch_const]; obtain ⟨a, ha, hl⟩ := hn; exact ⟨a, ha, by omega⟩
      refine ⟨w, ?_, hlen, fun j hj hij => by omega, fun _ _ _ => rfl, fun _ _ => rfl⟩
      cases fuel <;> rw [loop, if_pos hmatch]
    | succ d ih =>
      intro i fuel w hi hfu hlen
      obtain ⟨fuel, rfl⟩ : ∃ f, fuel = f + 1 := ⟨fuel - 1, by omega⟩
      have hno : ¬ anyMatch (args.map fun _ => i) (args.map fun a => (m a).length) = true := by
        rw [anyMatch_const]; rintro ⟨a, ha, hl⟩; have := hmin a ha; omega
      have hin : ∀ a ∈ args, i < (w a).length := by
        intro a ha; have := hmin a ha; rw [hlen]; omega
      obtain ⟨a0, ha0, _⟩ := hn
      have h0 := hin a0 ha0
      obtain ⟨w1, g1, g2, g3, g4, g5⟩ := body_row args i (body i) w (fun a => ((w a)[i]?).getD ((w a0)[i])) (hb i) (fun a ha => by rw [List.getElem?_eq_getElem (hin a ha)]; rfl)
      obtain ⟨m', k1, k2, k3, k4, k5⟩ := ih (i + 1) fuel w1 (by omega) (by omega) (fun a => by rw [g2, hlen])
      refine ⟨m', ?_, k2, ?_, ?_, fun a ha => by rw [k5 a ha, g4 a ha]⟩
      · rw [loop, if_neg hno, g1]
        simp only [R.bind_ok]
        rw [show incr (args.map fun _ => i) = args.map fun _ => i + 1 by unfold incr; rw [List.map_map]; rfl]
        exact k1
      · intro j hj hij v hv a ha
        rcases Nat.lt_or_eq_of_le hij with hlt | heq
        · exact k3 j hj hlt v (fun b hb' => by rw [g5 b j (by omega)]; exact hv b hb') a ha
        · subst heq
          rw [k4 a i (Or.inr (Nat.lt_succ_self _))]
          obtain ⟨w1', g1', -, g3', -⟩ := body_row args i (body i) w v (hb i) hv
          rw [g1] at g1'
          cases g1'
          exact g3' a ha
      · intro a j hj
        rw [k4 a j (by omega), g5 a j (by omega)]
  obtain ⟨m', h1, h2, h3, h4, h5⟩ := gen n 0 fuel m (by omega) hf (fun _ => rfl)
  exact ⟨m', h1, h2, fun i hi v hv => h3 i hi (Nat.zero_le _) v hv, fun a i hi => h4 a i (Or.inl hi), h5⟩

/-- **C239**, the example of the header: `for (auto &[in, out] : zip(a, b)) out = f(in)` with two different arrays makes the i-th element of the second f of the i-th of the first, as far as both go, and leaves the first alone. -/
theorem C239_transform (a b : Nat) (hab : a ≠ b) (f : α → α) (m : Mem α) (fuel : Nat) (hf : min (m a).length (m b).length ≤ fuel) [Inhabited α] :
    ∃ m', forEach [a, b] (fun _ => [(1, fun t => f (t.headD default))]) fuel m = .ok (some m') ∧ m' a = m a ∧ (m' b).length = (m b).length ∧
      ∀ i, (m' b)[i]? = if i < (m a).length then ((m b)[i]?).map fun _ => f ((m a)[i]?.getD default) else (m b)[i]? := by
  obtain ⟨m', h1, h2, h3, h4, h5⟩ := C239_rows [a, b] (fun _ => [(1, fun t => f (t.headD default))]) (by simp) m (min (m a).length (m b).length)
    (by rcases Nat.le_total (m a).length (m b).length with h | h
        · exact ⟨a, by simp, by omega⟩
        · exact ⟨b, by simp, by omega⟩) (by simp) fuel hf
  have row : ∀ i, i < min (m a).length (m b).length → (m' a)[i]? = (m a)[i]? ∧ (m' b)[i]? = some (f ((m a)[i]?.getD default)) := by
    intro i hi
    have ha : i < (m a).length := by omega
    have hb : i < (m b).length := by omega
    have := h3 i hi (fun x => ((m x)[i]?).getD default) (by
      intro x hx
      simp at hx
      rcases hx with rfl | rfl
      · rw [List.getElem?_eq_getElem ha]; rfl
      · rw [List.getElem?_eq_getElem hb]; rfl)
    refine ⟨?_, ?_⟩
    · rw [this a (by simp), List.getElem?_eq_getElem ha]
      simp only [onRow]
      rw [if_neg (by simpa using Ne.symm hab)]
      simp [ha]
    · rw [this b (by simp)]
      simp [onRow]
  refine ⟨m', h1, ?_, h2 b, ?_⟩
  · apply List.ext_getElem?
    intro i
    by_cases hi : i < min (m a).length (m b).length
    · exact (row i hi).1
    · exact h4 a i (by omega)
  · intro i
    by_cases hi : i < min (m a).length (m b).length
    · rw [(row i hi).2, if_pos (by omega), List.getElem?_eq_getElem (by omega : i < (m b).length)]
      rfl
    · rw [h4 b i (by omega)]
      by_cases ha : i < (m a).length
      · rw [if_pos ha, List.getElem?_eq_none (by omega)]; rfl
      · rw [if_neg ha]

/-- A container passed twice: `for (auto &[x, y] : zip(a, a)) { x += 1; y += x; }` — x and y are the same element, which becomes 2 (v + 1). -/
example (m : Mem Nat) (h : m 7 = [1, 5]) : ∃ m', forEach [7, 7] (fun _ => [(0, fun t => t[0]! + 1), (1, fun t => t[1]! + t[0]!)]) 2 m = .ok (some m') ∧ m' 7 = [4, 12] := by
  obtain ⟨m', h1, h2, h3, -, -⟩ := C239_rows [7, 7] (fun _ => [(0, fun t => t[0]! + 1), (1, fun t => t[1]! + t[0]!)]) (by simp) m 2 ⟨7, by simp, by rw [h]; rfl⟩ (by simp [h]) 2 (by decide)
  refine ⟨m', h1, ?_⟩
  have r0 := h3 0 (by decide) (fun _ => 1) (by simp [h]) 7 (by simp)
  have r1 := h3 1 (by decide) (fun _ => 5) (by simp [h]) 7 (by simp)
  have hl : (m' 7).length = 2 := by rw [h2, h]; rfl
  apply List.ext_getElem?
  intro i
  match i with
  | 0 => rw [r0]; rfl
  | 1 => rw [r1]; rfl
  | i + 2 => rw [List.getElem?_eq_none (by omega)]; rfl

example : ∃ m', forEach [0, 1] (fun _ => [(1, fun t => t.headD default * 2)]) 5 (fun x => if x = 0 then [1, 2, 3] else [0, 0, 0, 9] : Mem Nat) = .ok (some m') ∧ m' 1 = [2, 4, 6, 9] := ⟨_, rfl, rfl⟩

end ZipWrite
