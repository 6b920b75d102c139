import Verif.Model.Poll
import Verif.Model.Toggler
import Verif.Model.Small
import Verif.Model.DoubleBuf
import Verif.Model.Spsc
import Verif.Model.WearLevel
/-!
# The project's own unit tests of polling, switches, zip, streams, queues and wear levelling, run on the model

Each `example` is a test case of /repo/tests, with the same calls and the same expected values, evaluated on the model by
the kernel.  These are tests of the model's fidelity, not proofs of a property.
-/
namespace Conform.Events

/-! ## tests/poll_event_tests.cc -/

/-- `test_overflow<TimeT>(starting_time)` for a type with `W` values: the 13 answers (poll_event_tests.cc:7-31). -/
def overflow (W start : Nat) : List Bool := PollEvent.polls W 4 0 ((List.range 13).map fun i => (start + i) % W)

/-- poll_event_tests.cc:33-66: all 24 starting times. -/
example : ∀ w ∈ [8, 16, 32, 64], ∀ k ∈ [5, 4, 3, 2, 1, 0],
    overflow (2 ^ w) (2 ^ w - 1 - k) = (List.range 13).map (fun i => decide (i % 4 = 0)) := by decide +kernel

/-! ## tests/debouncer_tests.cc -/
section
open TogglerCounter

/-- The samples processed on a new counter. -/
def proc (l : List Nat) : TogglerCounter := l.foldl registerState {}
/-- `is_just_pressed()` then `is_just_released()`. -/
def ev (s : TogglerCounter) : Bool × Bool := (s.t.isJustPressed.1, s.t.isJustPressed.2.isJustReleased.1)

/-- debouncer_tests.cc:4-13. -/
example : (proc []).t.isHigh = false ∧ steadyStateCount (proc []) = 0 ∧ ev (proc []) = (false, false) := by decide +kernel

/-- debouncer_tests.cc:15-24. -/
example : (proc [1]).t.isHigh = true ∧ steadyStateCount (proc [1]) = 0 ∧ ev (proc [1]) = (true, false) ∧
    ((proc [1]).t.isJustPressed.2.isJustPressed).1 = false := by decide +kernel

/-- debouncer_tests.cc:26-41. -/
example : steadyStateCount (proc [0]) = 1 ∧ ev (proc [0]) = (false, false) ∧ steadyStateCount (proc [0, 0]) = 2 ∧
    steadyStateCount (proc [0, 0, 0]) = 3 ∧ (proc [0, 0, 0]).t.isHigh = false := by decide +kernel

/-- debouncer_tests.cc:43-59. -/
example : steadyStateCount (proc [1]) = 0 ∧ steadyStateCount (proc [1, 1, 1]) = 2 ∧ steadyStateCount (proc [1, 1, 1, 0]) = 0 ∧
    (proc [1, 1, 1, 0]).t.isJustReleased.1 = true ∧ (proc [1, 1, 1, 0]).t.isJustReleased.2.isJustReleased.1 = false := by
  decide +kernel

/-- debouncer_tests.cc:61-81. -/
example : ∀ i ∈ List.range 11, steadyStateCount (proc (1 :: List.replicate i 1)) = BitVec.ofNat 32 i ∧
    steadyStateCount (proc (List.replicate i 0)) = BitVec.ofNat 32 i := by decide +kernel

/-- debouncer_tests.cc:98-115. -/
example : steadyStateCount (proc [1, 1, 1, 1]) = 3 ∧ steadyStateCount (resetCount (proc [1, 1, 1, 1])) = 0 ∧
    (resetCount (proc [1, 1, 1, 1])).t.isHigh = true ∧
    steadyStateCount (registerState (resetCount (proc [1, 1, 1, 1])) 1) = 1 := by decide +kernel

/-- debouncer_tests.cc:117-132: `reset()` is `Toggler`'s and leaves the count. -/
example : steadyStateCount (proc [1, 1]) = 1 ∧ (proc [1, 1]).t.reset = {} ∧
    steadyStateCount (registerState { (proc [1, 1]) with t := (proc [1, 1]).t.reset } 0) = 2 := by decide +kernel

/-- debouncer_tests.cc:134-147. -/
example : ev (step (proc [1]) .clearEvents) = (false, false) ∧ (step (proc [1]) .clearEvents).t.isHigh = true ∧
    steadyStateCount (registerState (step (proc [1]) .clearEvents) 1) = 1 := by decide +kernel

/-- debouncer_tests.cc:149-167. -/
example : (run [.sample true, .isJustPressed, .sample false] {}).t.isJustReleased.1 = true ∧
    (run [.sample true, .isJustPressed, .sample false, .isJustReleased, .sample true] {}).t.isJustPressed.1 = true ∧
    (run [.sample true, .isJustPressed, .sample false, .isJustReleased, .sample true, .isJustPressed, .sample false]
      {}).t.isJustReleased.1 = true ∧
    (run [.sample true, .isJustPressed, .sample false, .isJustReleased, .sample true, .isJustPressed, .sample false]
      {}).ctr = 0 := by decide +kernel

/-- debouncer_tests.cc:169-179. -/
example : (proc [1, 1, 1]).t.isJustPressed.1 = true ∧ (proc [1, 1, 1]).t.isJustPressed.2.isJustPressed.1 = false ∧
    steadyStateCount (proc [1, 1, 1]) = 2 ∧ (proc [1, 1, 1]).t.isHigh = true := by decide +kernel
end

/-! ## tests/schmitt_trigger_tests.cc (values in hundredths, thresholds 40 and 60: only the order matters) -/

/-- schmitt_trigger_tests.cc:4-56: `(just_went_high, just_went_low, is_high)` after each sample. -/
example : Schmitt.trace (fun a b : Int => decide (a < b)) 40 60 {} [30, 50, 60, 61, 70, 60, 50, 40, 39] =
    [(false, false, false), (false, false, false), (false, false, false), (true, false, true), (false, false, true),
      (false, false, true), (false, false, true), (false, false, true), (false, true, false)] := by decide +kernel

/-! ## tests/quadrature_encoder_tests.cc -/

/-- quadrature_encoder_tests.cc:10-62. -/
example : Quad.motions false 0
    [(true, false), (false, false), (false, true), (true, true),
      (true, false), (true, false), (true, false), (true, false),
      (false, false), (false, false), (false, false), (false, false),
      (false, true), (false, true), (false, true), (false, true),
      (true, true), (true, true), (true, true), (true, true),
      (false, true), (false, false), (true, false), (true, true),
      (false, true), (false, true), (false, false), (false, false), (true, false), (true, false), (true, true), (true, true)] =
    [.none, .none, .none, .cw, .none, .none, .none, .none, .none, .none, .none, .none, .none, .none, .none, .none,
      .cw, .none, .none, .none, .none, .none, .none, .ccw, .none, .none, .none, .none, .none, .none, .ccw, .none] := by
  decide +kernel

/-! ## tests/zip_tests.cc, countzip_tests.cc (a `Frame {l, r}` is written `10 l + r`) -/

/-- zip_tests.cc:11-46. -/
example : Zip.zip [[0, 0, 0, 0]] 10 = .ok (some [[0], [0], [0], [0]]) ∧
    Zip.zip [[0, 0, 0, 0], [1, 23, 45, 67]] 10 = .ok (some [[0, 1], [0, 23], [0, 45], [0, 67]]) ∧
    Zip.zip [[0, 0, 0, 0], [1, 23, 45, 67], [91, 83, 75, 67]] 10 =
      .ok (some [[0, 1, 91], [0, 23, 83], [0, 45, 75], [0, 67, 67]]) := by decide +kernel

/-- countzip_tests.cc:12-51. -/
example : Zip.countzip [[0, 0, 0, 0]] 10 = .ok (some [(0, [0]), (1, [0]), (2, [0]), (3, [0])]) ∧
    Zip.countzip [[0, 0, 0, 0], [1, 23, 45, 67], [91, 83, 75, 67]] 10 =
      .ok (some [(0, [0, 1, 91]), (1, [0, 23, 83]), (2, [0, 45, 75]), (3, [0, 67, 67])]) := by decide +kernel

/-! ## tests/callable_tests.cc -/
section
open Owners

/-- callable_tests.cc:108-124: a callback is called twice and deleted, an empty one is deleted: the callable is destroyed once. -/
example : ((construct init 0).bind fun s => (call s 0).bind fun a => (call s 0).bind fun b => (destroy s 0).bind fun s =>
    (defaultCtor s 1).bind fun s => (destroy s 1).bind fun s => .ok (a, b, s.made, s.freed)) = .ok (0, 0, [0], [0]) := by
  decide +kernel

/-- callable_tests.cc:126-138: `operator bool` before and after an assignment from a temporary. -/
example : ((defaultCtor init 0).bind fun s => (isSet s 0).bind fun b0 => (construct s 1).bind fun s =>
    (assign s 0 1).bind fun s => (destroy s 1).bind fun s => (isSet s 0).bind fun b1 => .ok (b0, b1)) = .ok (false, true) := by
  decide +kernel
end

/-! ## tests/doublebuf_stream_tests.cc -/
section
open DoubleBuf

/-- The calls of a test: `some word` is `transmit(word)`, `none` is `tx_done_callback()`; the results of the transmissions and
everything handed to the transmit function, which always succeeds. -/
def stream : List (Option (List Nat)) → DoubleBuf Nat → List Bool × List Nat
  | [], _ => ([], [])
  | some w :: l, s =>
    let r := transmit 8 s w true
    let q := stream l r.1
    (r.2.2 :: q.1, r.2.1.getD [] ++ q.2)
  | none :: l, s =>
    let r := done s true
    let q := stream l r.1
    (q.1, r.2.getD [] ++ q.2)

/-- doublebuf_stream_tests.cc:5-52. -/
example : stream [some [65, 98, 99], none, some [0xb0, 0x22, 0x7f], none, some [1, 2, 3, 4, 5, 6, 7, 8], none,
    some [1, 2, 3, 4, 5, 6, 7, 8, 9]] {} =
    ([true, true, true, false], [65, 98, 99, 0xb0, 0x22, 0x7f, 1, 2, 3, 4, 5, 6, 7, 8]) := by decide +kernel

/-- doublebuf_stream_tests.cc:54-94: before and after the end of the first transmission. -/
example : stream [some [1, 2, 3], some [4, 5, 6, 7], some [8], some [9, 10]] {} = ([true, true, true, true], [1, 2, 3]) ∧
    stream [some [1, 2, 3], some [4, 5, 6, 7], some [8], some [9, 10], none] {} =
      ([true, true, true, true], [1, 2, 3, 4, 5, 6, 7, 8, 9, 10]) := by decide +kernel
end

/-! ## tests/lockfree_fifo_spsc_tests.cc -/
section
open Spsc

/-- A whole call of the producer resp. of the consumer without interruption. -/
def P (op : POp Nat) : List (Act Nat) := .pCall op :: List.replicate 4 (.pStep true)
/-- See `P`. -/
def C (op : COp) : List (Act Nat) := .cCall op :: List.replicate 4 (.cStep true)
/-- Put. -/
def put (n : Nat) : List (Act Nat) := P (.put n)
/-- Get. -/
def get : List (Act Nat) := C .get

/-- What is observed (calls that only mark their beginning are left out). -/
def obs (off : Nat) (l : List (List (Act Nat))) : List (Ev Nat) :=
  (run (fixedCfg 64 2) 0 id (init 64 4 0 off) l.flatten).2.filter
    (fun e => !decide (e = .numFreeCall) && !decide (e = .numFilledCall) && !decide (e = .resetCall))

/-- lockfree_fifo_spsc_tests.cc:4-17. -/
example : obs 0 [put 1, put 2, put 3, put 4, get, get, get, get] =
    [.putRet 1 true, .putRet 2 true, .putRet 3 true, .putRet 4 true, .getRet (some 1), .getRet (some 2), .getRet (some 3),
      .getRet (some 4)] := by decide +kernel

/-- lockfree_fifo_spsc_tests.cc:19-33. -/
example : obs 0 [put 1, put 2, put 3, put 4, put 5, get, get, get, get] =
    [.putRet 1 true, .putRet 2 true, .putRet 3 true, .putRet 4 true, .putRet 5 false, .getRet (some 1), .getRet (some 2),
      .getRet (some 3), .getRet (some 4)] := by decide +kernel

/-- lockfree_fifo_spsc_tests.cc:35-46. -/
example : obs 0 [put 1, put 2, get, get, put 3, get, put 4, get] =
    [.putRet 1 true, .putRet 2 true, .getRet (some 1), .getRet (some 2), .putRet 3 true, .getRet (some 3), .putRet 4 true,
      .getRet (some 4)] := by decide +kernel

/-- lockfree_fifo_spsc_tests.cc:48-61. -/
example : obs 0 [get, get, put 1, get, get, get] =
    [.getRet none, .getRet none, .putRet 1 true, .getRet (some 1), .getRet none, .getRet none] := by decide +kernel

/-- lockfree_fifo_spsc_tests.cc:63-74. -/
example : obs 0 [C .numFilled, put 1, C .numFilled, put 2, C .numFilled, put 3, C .numFilled, put 4, C .numFilled] =
    [.numFilledRet 0, .putRet 1 true, .numFilledRet 1, .putRet 2 true, .numFilledRet 2, .putRet 3 true, .numFilledRet 3,
      .putRet 4 true, .numFilledRet 4] := by decide +kernel

/-- lockfree_fifo_spsc_tests.cc:76-103. -/
example : obs 0 [C .empty, P .full, put 1, C .empty, P .full, put 2, put 3, put 4, C .empty, P .full, put 5, C .empty, P .full,
    get, C .empty, P .full, get, get, get, C .empty, P .full] =
    [.emptyRet true, .fullRet false, .putRet 1 true, .emptyRet false, .fullRet false, .putRet 2 true, .putRet 3 true,
      .putRet 4 true, .emptyRet false, .fullRet true, .putRet 5 false, .emptyRet false, .fullRet true, .getRet (some 1),
      .emptyRet false, .fullRet false, .getRet (some 2), .getRet (some 3), .getRet (some 4), .emptyRet true,
      .fullRet false] := by decide +kernel

/-- lockfree_fifo_spsc_tests.cc:105-116. -/
example : obs 0 [put 1, put 2, put 3, put 4, C .reset, C .empty, P .full, C .numFilled] =
    [.putRet 1 true, .putRet 2 true, .putRet 3 true, .putRet 4 true, .resetRet 4, .emptyRet true, .fullRet false,
      .numFilledRet 0] := by decide +kernel

/-- lockfree_fifo_spsc_tests.cc:118-133: construction with an offset of 2. -/
example : obs 2 [put 1, get, put 2, get, put 3, get, put 4, get, put 5, get, put 6, get] =
    [.putRet 1 true, .getRet (some 0), .putRet 2 true, .getRet (some 0), .putRet 3 true, .getRet (some 1), .putRet 4 true,
      .getRet (some 2), .putRet 5 true, .getRet (some 3), .putRet 6 true, .getRet (some 4)] := by decide +kernel

/-- lockfree_fifo_spsc_tests.cc:135-170. -/
example : (obs 0 [P .numFree, put 1, P .numFree, put 2, P .numFree, put 3, P .numFree, put 4, P .numFree, put 5, P .numFree,
    get, P .numFree, put 6, P .numFree, get, P .numFree, get, P .numFree, get, P .numFree, get, P .numFree, get, P .numFree,
    put 7, P .numFree, put 8, P .numFree]).filterMap (fun e => match e with | .numFreeRet n => some n | _ => none) =
    [4, 3, 2, 1, 0, 0, 1, 0, 1, 2, 3, 4, 4, 3, 2] := by decide +kernel
end

/-! ## tests/wear_level_tests.cc -/
section
open WearLevel

/-- The state of the test's storage: four cells and the spy variables (wear_level_tests.cc:18-45). -/
structure Sim where
  cells : List Nat
  reads : Nat := 0
  writes : Nat := 0
  erases : Nat := 0
  lastWritten : Nat := 0xFFFFFFFF
  lastRead : Nat := 0xFFFFFFFF
  deriving DecidableEq

/-- The test's `DataBlock` (wear_level_tests.cc:53-97): writing can only clear bits; `bad` is the cell that cannot be written,
`garbage` what a failed erase leaves. -/
def block (bad : Option Nat) (garbage : Option (List Nat)) : Storage Sim Nat where
  read s d c := let s := { s with reads := s.reads + 1, lastRead := c }
    match s.cells[c]? with
    | some x => (s, true, x)
    | none => (s, false, d)
  write s d c := let s := { s with writes := s.writes + 1, lastWritten := c }
    match s.cells[c]? with
    | some x => ({ s with cells := if bad = some c then s.cells else s.cells.set c (x &&& d) }, true)
    | none => (s, false)
  erase s := ({ s with erases := s.erases + 1, cells := match garbage with
    | some g => g
    | none => List.replicate 4 0xFFFFFFFF }, true)
  writeable s c := (s, decide (s.cells[c]? = some 0xFFFFFFFF))

/-- `validate()` (wear_level_tests.cc:9-14). -/
def valid (d : Nat) : Bool := d % 1000 == 0

/-- The calls of a test on `WearLevel`: `some d` writes, `none` reads (into a variable holding 0); the results with the spy
variables, and the value read. -/
def runW (S : Storage Sim Nat) : List (Option Nat) → Nat → Sim → List (Bool × Nat × List Nat)
  | [], _, _ => []
  | some d :: l, cell, s =>
    let r := write S .level 4 d cell s
    (r.2.2, d, [r.1.reads, r.1.writes, r.1.erases, r.1.lastWritten]) :: runW S l r.2.1 r.1
  | none :: l, cell, s =>
    let r := read S valid cell s 0
    (r.2.1, r.2.2, [r.1.reads, r.1.writes, r.1.erases, r.1.lastRead]) :: runW S l cell r.1

/-- The whole test: construct and make the calls. -/
def test (S : Storage Sim Nat) (cells : List Nat) (l : List (Option Nat)) : List (Bool × Nat × List Nat) :=
  let r := ctor S valid 4 { cells := cells } 0xFFFFFFFF
  runW S l r.2 r.1

/-- A blank block. -/
def blank : List Nat := List.replicate 4 0xFFFFFFFF

/-- wear_level_tests.cc:99-190: the constructor of a blank block reads every cell; the first read fails without reading; four
writes fill the block, each read back; the fifth erases once; invalid values are skipped when reading. -/
example : test (block none none) blank [none, some 1000, none, some 1000, none, some 2000, none, some 3000, none, some 9000,
      none, some 1, none, some 999, none, some 4000, none] =
    [(false, 0, [4, 0, 0, 0]), (true, 1000, [4, 1, 0, 0]), (true, 1000, [5, 1, 0, 0]), (true, 1000, [5, 2, 0, 1]),
      (true, 1000, [6, 2, 0, 1]), (true, 2000, [6, 3, 0, 2]), (true, 2000, [7, 3, 0, 2]), (true, 3000, [7, 4, 0, 3]),
      (true, 3000, [8, 4, 0, 3]), (true, 9000, [8, 5, 1, 0]), (true, 9000, [9, 5, 1, 0]), (true, 1, [9, 6, 1, 1]),
      (true, 9000, [11, 6, 1, 0]), (true, 999, [11, 7, 1, 2]), (true, 9000, [14, 7, 1, 0]), (true, 4000, [14, 8, 1, 3]),
      (true, 4000, [15, 8, 1, 3])] := by
  simp [test, runW, ctor, scan, WearLevel.read, write, writeLoop, block, valid, blank]

/-- wear_level_tests.cc:193-213: a block that fails to erase. The test writes `SomeData{}` (all ones), which leaves a cell blank. -/
example : (test (block none (some [1, 2, 3, 4])) blank [some 0xFFFFFFFF, some 0xFFFFFFFF, some 0xFFFFFFFF, some 0xFFFFFFFF,
    some 0xFFFFFFFF]).map (·.1) = [true, true, true, true, false] := by
  simp [test, runW, ctor, scan, WearLevel.read, write, writeLoop, block, valid, blank]

/-- wear_level_tests.cc:215-279: a bad cell; first sub-case. -/
example : test (block (some 2) none) blank [some 1000, none, some 2000, none, some 3000, none, some 4000, none, some 5000,
      none] =
    [(true, 1000, [4, 1, 0, 0]), (true, 1000, [5, 1, 0, 0]), (true, 2000, [5, 2, 0, 1]), (true, 2000, [6, 2, 0, 1]),
      (true, 3000, [6, 3, 0, 2]), (true, 2000, [8, 3, 0, 1]), (true, 4000, [8, 4, 0, 3]), (true, 4000, [9, 4, 0, 3]),
      (true, 5000, [9, 5, 1, 0]), (true, 5000, [10, 5, 1, 0])] := by
  simp [test, runW, ctor, scan, WearLevel.read, write, writeLoop, block, valid, blank]

/-- wear_level_tests.cc:281-291: second sub-case. -/
example : (test (block (some 2) none) blank [some 1000, none, some 2000, none, some 3000, some 4000, none]).map
    (fun r => (r.1, r.2.1)) = [(true, 1000), (true, 1000), (true, 2000), (true, 2000), (true, 3000), (true, 4000),
      (true, 4000)] := by
  simp [test, runW, ctor, scan, WearLevel.read, write, writeLoop, block, valid, blank]

/-- wear_level_tests.cc:294-318: garbage on power-up: the first read fails, the first write erases. -/
example : test (block none none) [11, 22, 33, 44] [none, some 3000, none] =
    [(false, 0, [4, 0, 0, 0]), (true, 3000, [4, 1, 1, 0]), (true, 3000, [5, 1, 1, 0])] := by
  simp [test, runW, ctor, scan, WearLevel.read, write, writeLoop, block, valid, blank]

/-- wear_level_tests.cc:346-371: valid data on power-up. -/
example : test (block none none) [4000, 5000, 0xFFFFFFFF, 0xFFFFFFFF] [none, some 6000, none] =
    [(true, 5000, [4, 0, 0, 1]), (true, 6000, [4, 1, 0, 2]), (true, 6000, [5, 1, 0, 2])] := by
  simp [test, runW, ctor, scan, WearLevel.read, write, writeLoop, block, valid, blank]
end

end Conform.Events
