import Verif.Model.CircBuf
import Verif.Model.CircStack
import Verif.Model.CircAccess
import Verif.Model.FixedVector
import Verif.Model.SeqMap
import Verif.Model.SequentialMap
/-!
# The project's own unit tests of the containers, run on the model

Each `example` is a test case of /repo/tests, with the same calls and the same expected values, evaluated on the model by
the kernel.  These are tests of the model's fidelity, not proofs of a property.
-/
namespace Conform.Containers

/-! ## tests/circular_buffer_tests.cc -/
section
open CircBuf

/-- circular_buffer_tests.cc:4-17. -/
example : (run 4 0 (init 4 0) [.put 1, .put 2, .put 3, .put 4, .get, .get, .get, .get]).bind
    (fun r => .ok r.2) = .ok [1, 2, 3, 4] := by decide +kernel

/-- circular_buffer_tests.cc:19-33. -/
example : (run 4 0 (init 4 0) [.put 1, .put 2, .put 3, .put 4, .put 5, .get, .get, .get, .get]).bind
    (fun r => .ok r.2) = .ok [2, 3, 4, 5] := by decide +kernel

/-- circular_buffer_tests.cc:35-46. -/
example : (run 4 0 (init 4 0) [.put 1, .put 2, .get, .get, .put 3, .get, .put 4, .get]).bind
    (fun r => .ok r.2) = .ok [1, 2, 3, 4] := by decide +kernel

/-- circular_buffer_tests.cc:48-61. -/
example : (run 4 0 (init 4 0) [.get, .get, .get, .get, .put 1, .get, .get, .get, .get, .get]).bind
    (fun r => .ok r.2) = .ok [0, 0, 0, 0, 1, 0, 0, 0, 0] := by decide +kernel

/-- circular_buffer_tests.cc:63-74: `count()` after 0, 1, 2, 3 and 4 calls of `put`. -/
example : (List.range 5).map (fun n => (run 4 0 (init 4 0) (([.put 1, .put 2, .put 3, .put 4] : List (Op Nat)).take n)).bind
    (fun r => .ok (count 4 r.1))) = [.ok 0, .ok 1, .ok 2, .ok 3, .ok 4] := by decide +kernel

/-- circular_buffer_tests.cc:76-103: `(empty(), full())` at the points of the test. -/
example : ([[], [.put 1], [.put 1, .put 2, .put 3, .put 4], [.put 1, .put 2, .put 3, .put 4, .put 5],
      [.put 1, .put 2, .put 3, .put 4, .put 5, .get],
      [.put 1, .put 2, .put 3, .put 4, .put 5, .get, .get, .get, .get]] : List (List (Op Nat))).map
    (fun ops => (run 4 0 (init 4 0) ops).bind (fun r => .ok (empty r.1, isFull r.1))) =
    [.ok (true, false), .ok (false, false), .ok (false, true), .ok (false, true), .ok (false, false),
      .ok (true, false)] := by decide +kernel

/-- circular_buffer_tests.cc:104-115. -/
example : (run 4 0 (init 4 0) [.put 1, .put 2, .put 3, .put 4, .reset]).bind
    (fun r => .ok (empty r.1, isFull r.1, count 4 r.1)) = .ok (true, false, 0) := by decide +kernel
end

/-! ## tests/circular_stack_tests.cc -/
section
open CircStack

/-- circular_stack_tests.cc:4-25 (the four elements of a new stack are indeterminate; here 70..73). -/
example : (run 4 0 (init [70, 71, 72, 73]) [.size, .push 2, .size, .pop, .size, .push 3, .pop, .push 4, .pop, .push 5, .pop,
    .push 6, .pop]).bind (fun r => .ok r.2) =
    .ok [.num 0, .num 1, .opt (some 2), .num 0, .opt (some 3), .opt (some 4), .opt (some 5), .opt (some 6)] := by
  decide +kernel

/-- circular_stack_tests.cc:27-58. -/
example : (run 4 0 (init [70, 71, 72, 73]) [.size, .push 7, .size, .push 8, .size, .push 9, .size, .push 10, .size,
    .push 11, .size, .pop, .size, .pop, .size, .pop, .size, .pop, .size]).bind (fun r => .ok r.2) =
    .ok [.num 0, .num 1, .num 2, .num 3, .num 4, .num 4, .opt (some 11), .num 3, .opt (some 10), .num 2, .opt (some 9),
      .num 1, .opt (some 8), .num 0] := by
  decide +kernel

/-- circular_stack_tests.cc:60-101. -/
example : (run 4 0 (init [70, 71, 72, 73]) [.pop, .size, .push 1, .size, .pop, .size, .pop, .pop, .push 2, .size, .pop, .size,
    .pop, .push 22, .push 23, .push 24, .push 25, .push 26, .push 27, .pop, .pop, .pop, .pop, .pop,
    .push 32, .push 33, .push 34, .push 35, .pop, .pop, .pop, .pop]).bind (fun r => .ok r.2) =
    .ok [.opt none, .num 0, .num 1, .opt (some 1), .num 0, .opt none, .opt none, .num 1, .opt (some 2), .num 0, .opt none,
      .opt (some 27), .opt (some 26), .opt (some 25), .opt (some 24), .opt none,
      .opt (some 35), .opt (some 34), .opt (some 33), .opt (some 32)] := by
  decide +kernel
end

/-! ## tests/circular_buffer_block_tests.cc -/

/-- circular_buffer_block_tests.cc:5-36 (`char` elements: one byte each). -/
example : (do
    let d ← CircBlock.write 8 1 [0, 0, 0, 0, 0, 0, 0, 0] [1, 2, 3, 4, 5, 6] 0
    let d2 ← CircBlock.write 8 1 d [7, 8, 9, 10, 11, 12] 6
    let d3 ← CircBlock.write 8 1 d2 [99] 8
    let d4 ← CircBlock.write 8 1 d3 [88] 7
    pure (d.take 6, d2, d3.head?, d4[7]?) : R _) =
    .ok ([1, 2, 3, 4, 5, 6], [9, 10, 11, 12, 5, 6, 7, 8], some 99, some 88) := by decide +kernel

/-! ## tests/circular_buffer_access_tests.cc -/
section
open CircAccess

/-- A write at the default crossfade phase 1: `mixInt` with phase 1 gives the new element (circular_buffer_ext.hh:63). -/
def new (d _old : Int) : Int := d

/-- circular_buffer_access_tests.cc:6-36: writing 10 and then 10 elements to a buffer of 16. -/
example : (do
    let s := clear 0 (init (1 :: List.replicate 15 (77 : Int)) 0)
    let (s1, w1) ← write new s [1, 2, 3, 4, 5, 6, 7, 8, 9, 10] false
    let (s2, w2) ← write new s1 [11, 12, 13, 14, 15, 16, 17, 18, 19, 20] false
    pure ([s.buf.length, s1.wr, s2.wr], [s.buf[0]?, s1.buf[0]?, s1.buf[1]?, s1.buf[9]?], [w1, w2], s2.buf) : R _) =
    .ok ([16, 10, 4], [some 0, some 1, some 2, some 10], [false, true],
      [17, 18, 19, 20, 5, 6, 7, 8, 9, 10, 11, 12, 13, 14, 15, 16]) := by decide +kernel

/-- circular_buffer_access_tests.cc:38-80: `write_check_crossed` in the test's six situations, with the final positions. -/
example : (do
    let s : St Int := ⟨List.replicate 16 0, 0, 4⟩
    let (s, c1) ← writeCheckCrossed new s (List.replicate 3 5) 6
    let p1 := s.wr
    let (s, c2) ← writeCheckCrossed new s (List.replicate 3 5) 6
    let p2 := s.wr
    let (s, c3) ← writeCheckCrossed new s (List.replicate 9 5) 6
    let p3 := s.wr
    let (s, _) ← write new s (List.replicate 10 1) false
    let p4 := s.wr
    let (s, c5) ← writeCheckCrossed new s (List.replicate 7 5) 2
    let p5 := s.wr
    let (s, c6) ← writeCheckCrossed new s (List.replicate 3 5) 12
    let p6 := s.wr
    let (s, c7) ← writeCheckCrossed new s (List.replicate 13 5) 12
    pure ([c1, c2, c3, c5, c6, c7], [p1, p2, p3, p4, p5, p6, s.wr]) : R _) =
    .ok ([true, false, false, true, false, true], [7, 10, 3, 13, 4, 7, 4]) := by decide +kernel

/-- circular_buffer_access_tests.cc:86-130. -/
example : (do
    let s : St Int := init [1, 2, 3, 4, 5, 6, 7, 8] 0
    let (s, ds, w) ← read s 8 false
    let p1 := s.rd
    let (s, _, c2) ← readCheckCrossed s 6 3
    let p2 := s.rd
    let (s, _, c3) ← readCheckCrossed s 5 3
    let p3 := s.rd
    let (s, _, c4) ← readCheckCrossed s 4 3
    pure (ds, w, [c2, c3, c4], [p1, p2, p3, s.rd]) : R _) =
    .ok ([1, 2, 3, 4, 5, 6, 7, 8], true, [true, false, true], [0, 6, 3, 7]) := by decide +kernel

/-- circular_buffer_access_tests.cc:132-192: two halves of one array used as separate buffers. -/
example : (do
    let (a, r1, w1) ← read (init ([1, 2, 3, 4] : List Int) 0) 4 false
    let (b, r2, w2) ← read (init ([5, 6, 7, 8] : List Int) 0) 4 false
    let (a, _) ← write new a [9, 10, 11, 12, 13, 14, 15, 16] false
    let (b, _) ← write new b [29, 20, 21, 22, 23, 24, 25, 26] false
    let (a, r3, w3) ← read a 4 false
    let (b, r4, w4) ← read b 4 false
    let (_, big, w5) ← read (init (a.buf ++ b.buf) 0) 8 false
    pure ([r1, r2, r3, r4, big], [w1, w2, w3, w4, w5]) : R _) =
    .ok ([[1, 2, 3, 4], [5, 6, 7, 8], [13, 14, 15, 16], [23, 24, 25, 26], [13, 14, 15, 16, 23, 24, 25, 26]],
      [true, true, true, true, true]) := by decide +kernel
end

/-! ## tests/fixed_vector_tests.cc -/
section
open FixedVector

/-- fixed_vector_tests.cc:5-16: after `sort` (and `unique`, which leaves 1 2 3 in front) the tail is erased. -/
example : (run true 0 (ofValues 20 0 ([1, 2, 3] ++ List.replicate 15 (3 : Int)))
    [.size, .eraseRange 3 18, .size, .get 0, .get 1, .get 2]).bind (fun r => .ok r.2) =
    .ok [.num 18, .num 3, .val 1, .val 2, .val 3] := by decide +kernel

/-- fixed_vector_tests.cc:18-44 (`begin(),begin()` and `end(),end()`). -/
example : (run true 0 (ofValues 6 0 [1, 2, 3, 1]) [.eraseRange 0 0, .size, .iterate, .eraseRange 4 4, .size, .iterate]).bind
    (fun r => .ok r.2) = .ok [.num 4, .list [1, 2, 3, 1], .num 4, .list [1, 2, 3, 1]] := by decide +kernel

/-- fixed_vector_tests.cc:46-71. -/
example : (run true 0 (ofValues 6 0 [1, 2, 3, 99]) [.eraseRange 1 3, .size, .get 0, .get 1]).bind (fun r => .ok r.2) =
      .ok [.num 2, .val 1, .val 99] ∧
    (run true 0 (ofValues 6 0 [1, 2, 3, 99]) [.eraseRange 0 1, .size, .get 0, .get 1, .get 2]).bind (fun r => .ok r.2) =
      .ok [.num 3, .val 2, .val 3, .val 99] ∧
    (run true 0 (ofValues 6 0 [1, 2, 3, 99]) [.eraseRange 0 4, .size]).bind (fun r => .ok r.2) = .ok [.num 0] := by
  decide +kernel

/-- fixed_vector_tests.cc:73-76, 118-121. -/
example : size (ofValues 8 0 [1, 3, 5]) = 3 ∧ at' (ofValues 7 0 [4, 7]) 1 = .ok 7 := by decide +kernel

/-- fixed_vector_tests.cc:78-94. -/
example : (run true 99999 (ofValues 3 99999 [1, 3, 5]) [.back, .pop, .back, .pop, .back, .pop, .back, .pop]).bind
    (fun r => .ok r.2) = .ok [.val 5, .val 5, .val 3, .val 3, .val 1, .val 1, .val 99999, .val 99999] := by decide +kernel

/-- fixed_vector_tests.cc:96-102. -/
example : (run true 0 (ofValues 4 0 [1, 2, 3, 4]) [.get 0, .get 1, .get 2, .get 3]).bind (fun r => .ok r.2) =
    .ok [.val 1, .val 2, .val 3, .val 4] := by decide +kernel

/-- fixed_vector_tests.cc:123-163. -/
example : (run true 0 (ofValues 5 0 []) [.size, .push 3, .get 0, .size, .push 4, .get 1, .size, .push 5, .get 2, .size,
    .pop, .size, .pop, .size, .pop, .size, .pop, .pop]).bind (fun r => .ok r.2) =
    .ok [.num 0, .bool true, .val 3, .num 1, .bool true, .val 4, .num 2, .bool true, .val 5, .num 3,
      .val 5, .num 2, .val 4, .num 1, .val 3, .num 0, .val 0, .val 0] := by decide +kernel

/-- fixed_vector_tests.cc:165-262, with the reading of `&data[N]` that does not trap. -/
example : (run false 0 (ofValues 4 0 []) [.size, .erase 0, .erase 10, .size, .insert 1 16, .insert 13 16, .size,
    .insert 0 16, .size, .get 0, .erase 1, .size, .erase 0, .size,
    .insert 0 16, .insert 1 31, .get 0, .get 1, .size, .erase 0, .erase 0, .size,
    .insert 0 16, .insert 0 31, .insert 0 99, .get 0, .get 1, .get 2,
    .erase 2, .get 0, .get 1, .size, .erase 1, .get 0, .size, .erase 0, .size,
    .insert 0 16, .insert 1 31, .insert 2 99, .get 0, .get 1, .get 2, .erase 1, .get 0, .get 1,
    .erase 0, .get 0, .erase 0, .erase 0, .erase 0, .size, .insert 0 16, .size, .get 0,
    .insert 1 16, .insert 2 31, .insert 3 99, .insert 4 (-1), .insert 4 (-1), .size]).bind (fun r => .ok r.2) =
    .ok [.num 0, .num 0, .num 0, .num 1, .val 16, .num 1, .num 0, .val 16, .val 31, .num 2, .num 0,
      .val 99, .val 31, .val 16, .val 99, .val 31, .num 2, .val 99, .num 1, .num 0,
      .val 16, .val 31, .val 99, .val 16, .val 99, .val 99, .num 0, .num 1, .val 16, .num 4] := by decide +kernel
end

/-! ## tests/seq_map_tests.cc (keys are numbered: a = 1, b = 2, …; the empty key is 0) -/
section
open SeqMap

/-- A new map with `n` places (seq_map.hh:8-11). -/
def mk (n : Nat) : St Nat Nat := init (List.replicate n 0) (List.replicate n 0)

/-- seq_map_tests.cc:7-24. -/
example : (do
    let (m, _) ← insert (mk 16) 1 11
    let (m, _) ← insert m 2 22
    let a ← get m 1
    let b ← get m 2
    pure (m.keys.take 2, a, b) : R _) = .ok ([1, 2], some 11, some 22) := by decide +kernel

/-- seq_map_tests.cc:37-70. -/
example : (do
    let e0 := getIdx (mk 16) 0
    let (m, _) ← insert (mk 16) 1 11
    let (m, _) ← insert m 2 22
    let e1 := getIdx m 0
    let (m, _) ← insert m 0 33
    let v ← get m 0
    pure (e0, e1, v) : R _) = .ok (none, none, some 33) := by decide +kernel

/-- seq_map_tests.cc:72-99. -/
example : (do
    let m ← runOverwrites (mk 4) [(1, 1), (2, 2), (3, 3), (4, 4)]
    let sz := size m
    let a ← get m 1
    let b ← get m 2
    let c ← get m 3
    let d ← get m 4
    let (m, e) ← overwrite m 5 5
    let a' := getIdx m 1
    let ev ← get m 5
    let e' := getIdx m 5
    let (m, b2) ← overwrite m 2 6
    let bv ← get m 2
    let b2' := getIdx m 2
    let (m, ok) ← insert m 6 7
    pure (sz, [a, b, c, d, ev, bv], [a', getIdx m 6], [decide (some e = e'), decide (some b2 = b2'), ok]) : R _) =
    .ok (4, [some 1, some 2, some 3, some 4, some 5, some 6], [none, none], [true, true, false]) := by decide +kernel

/-- seq_map_tests.cc:101-133. -/
example : (do
    let (m, _) ← insert (mk 4) 1 1
    let (m, _) ← insert m 2 2
    let m ← runOverwrites m [(3, 3), (4, 4)]
    let sz := size m
    let (m, ok) ← insert m 2 22
    let b ← get m 2
    let (m, i) ← overwrite m 2 22
    let b1 ← arrGet m.vals i
    let (m, ok1) ← insert m 2 22
    let (m, _) ← overwrite m 3 33
    let (m, ok2) ← insert m 2 22
    let (m, _) ← overwrite m 4 44
    let (m, ok3) ← insert m 2 22
    let (m, _) ← overwrite m 5 55
    let (m, ok4) ← insert m 2 22
    let b2 ← get m 2
    let c ← get m 3
    let d ← get m 4
    let e ← get m 5
    pure ([sz, b1, size m], [ok, ok1, ok2, ok3, ok4], [b, b2, c, d, e]) : R _) =
    .ok ([4, 22, 4], [false, false, false, false, false], [some 2, some 22, some 33, some 44, some 55]) := by decide +kernel

/-- seq_map_tests.cc:135-161. -/
example : (do
    let k0 := keyExists (mk 4) 1
    let (m, i1) ← insert (mk 4) 1 9999
    let k1 := keyExists m 1
    let (m, i2) ← insert m 4 10000
    let (m, i3) ← insert m 5 10001
    let (m, i4) ← insert m 6 10002
    let (m, i5) ← insert m 7 10003
    let k2 := keyExists m 1
    let v ← get m 4
    let (m, _) ← overwrite m 4 123
    let v' ← get m 4
    let k3 := keyExists m 1
    let (m, h) ← overwrite m 8 888
    let k4 := keyExists m 1
    let hv ← arrGet m.vals h
    pure ([k0, k1, k2, k3, k4], [i1, i2, i3, i4, i5], v, v', hv) : R _) =
    .ok ([false, true, true, true, false], [true, true, true, true, false], some 10000, some 123, 888) := by
  decide +kernel

/-- seq_map_tests.cc:169-185. -/
example : (do
    let (m, _) ← insert (mk 4) 1 123
    let (m, _) ← insert m 2 456
    let (m, _) ← insert m 3 789
    let (m, _) ← insert m 4 101213
    let (m, ok) ← remove 0 0 m 2
    let (m', ok') ← remove 0 0 m 2
    pure (ok, [keyExists m 2, keyExists m 1, keyExists m 3, keyExists m 4], ok', decide (m' = m)) : R _) =
    .ok (true, [false, true, true, true], false, true) := by decide +kernel
end

/-! ## tests/sequential_map_tests.cc -/
section
open SequentialMap

/-- sequential_map_tests.cc:4-46 (the `float` values are multiplied by 1000: the map only moves them about). -/
example : (run (FixedVector.ofValues 4 (0, 0) []) [.size, .isFull, .assign 2 3000, .size, .isFull, .contains 2, .read 2,
    .assign 9 99000, .size, .isFull, .contains 9, .read 9, .assign 2 5000, .size, .isFull, .contains 2, .read 2,
    .assign 20 20200, .size, .isFull, .assign 30 30300, .size, .isFull, .contains 30, .assign 99 10010, .contains 30,
    .contains 99]).bind (fun r => .ok r.2) =
    .ok [.num 0, .bool false, .num 1, .bool false, .bool true, .val 3000, .num 2, .bool false, .bool true, .val 99000,
      .num 2, .bool false, .bool true, .val 5000, .num 3, .bool false, .num 4, .bool true, .bool true, .bool false,
      .bool true] := by decide +kernel

/-- The four entries of sequential_map_tests.cc:48-54. -/
def abcd : R (St Nat Nat) := (run (FixedVector.ofValues 4 (0, 0) []) [.assign 97 1, .assign 98 10, .assign 99 100,
  .assign 100 1000]).bind fun r => .ok r.1

/-- sequential_map_tests.cc:58-70, 92-96: erasing the first entry invalidates an iterator to the second. -/
example : (do
    let m ← abcd
    let it := find m 98
    let (m, n) ← erase m 97
    let p ← arrGet m.data it
    let (_, o) ← run m [.size, .contains 97, .contains 98, .contains 99, .contains 100, .assign 101 10000, .contains 101,
      .read 101]
    pure (n, o, decide (p.1 = 98), decide (p.2 = 10)) : R _) =
    .ok (1, [.num 3, .bool false, .bool true, .bool true, .bool true, .bool true, .val 10000], false, false) := by
  decide +kernel

/-- sequential_map_tests.cc:72-79, 92-96. -/
example : (do
    let m ← abcd
    let (m, n) ← erase m 98
    let (_, o) ← run m [.size, .contains 97, .contains 98, .contains 99, .contains 100, .assign 101 10000, .contains 101,
      .read 101]
    pure (n, o) : R _) =
    .ok (1, [.num 3, .bool true, .bool false, .bool true, .bool true, .bool true, .val 10000]) := by decide +kernel

/-- sequential_map_tests.cc:81-96: erasing the last entry leaves an iterator to the second valid. -/
example : (do
    let m ← abcd
    let it := find m 98
    let (m, n) ← erase m 100
    let p ← arrGet m.data it
    let (_, o) ← run m [.size, .contains 97, .contains 98, .contains 99, .contains 100, .assign 101 10000, .contains 101,
      .read 101]
    pure (n, o, p) : R _) =
    .ok (1, [.num 3, .bool true, .bool true, .bool true, .bool false, .bool true, .val 10000], (98, 10)) := by
  decide +kernel
end

end Conform.Containers
