# Formal model of 4ms/cpputil in Lean 4 — design

## 1. Layout

* `lean/Verif/Basic.lean`, `lean/Verif/Mem.lean` – the outcome monad `R α = ok a | ub` (undefined behaviour is an explicit
  outcome), bounds-checked array accesses, byte-level memory copies.
* `lean/Verif/Flt.lean` – binary32 numbers (`Flt.F32`) and what it means to round to the nearest one (`Flt.Nearest`).
* `lean/Verif/Model/X.lean` – the model of one or a few headers; each definition cites the file and lines it models.
* `lean/Verif/Spec/X.lean` – small specifications that do not mention the model (lists, functions, relations).
* `lean/Verif/Lemmas/X.lean` – helper lemmas.
* `lean/Verif/Props/X.lean` – the property theorems (names `Cnn_…`), each with an `example` showing that a concrete
  non-trivial case satisfies its hypotheses.
* `properties.jsonl` – the properties in English; `MANIFEST.json` – which theorems prove which property.
* `seeded/LOG.jsonl` – mutation log: wrong programs on which the theorems were tried.

## 2. Trusted base

* Lean 4.33.0's kernel, and Mathlib 4.33.0's definitions where a statement mentions them (ℚ, ℝ, `List`, `BitVec` …).
* Axioms: every theorem depends on at most `propext`, `Classical.choice`, `Quot.sound` (`#print axioms`, checked by vcheck).
  No own axioms, no `sorry`, no `native_decide`, no `bv_decide`. `decide +kernel` is used only where the kernel evaluates a whole finite
  domain (the 2048-entry tables, the 256 byte values) or a concrete witness.
* The fidelity of the hand-written model to the C++ text (each definition cites file and lines and says what it simplifies).
* C++ semantics assumed: unsigned arithmetic modulo 2^w, signed overflow / out-of-bounds access / division by zero / out-of-range
  float→int conversion are undefined behaviour (modelled as `R.ub`), two's complement, little-endian layout where bytes of objects are
  seen, evaluation order as written, or both orders where C++ leaves it open (occupancy queries of the FIFO).

### What is modelled

Every header of `util/` with run-time behaviour: lockfree_fifo_spsc(.hh, _dyn.hh), circular_buffer(.hh, _opt, _ext, _block), circular_stack,
fixed_vector, static_string, seq_map, sequential_map, wear_level, pool, thread_safe_pool, monotonic_allocator, aligned_allocator,
compact_binary_{writer,serializer,parser}, int_to_str(.hh, .cc), print, version_tools, string_util, string_compare, contains_word,
partition, debouncer(.hh, _compact), schmitt_trigger, edge_detector, change_detector, rotary_motion, poll_event, poll_change,
quadrature_encoder, doublebuf_stream, math, cortex_math, smallest_integer, math_tables(.hh, .cc), colors, colors_rgb565, hsv, oscs, rgbled,
filter, interp_array, lookup_table, filtered_interp_array, interp_param, parameter, analyzed_signal, calibrator, voct_calibrator,
audio_frame, mem_test, byte_block, input_output_buffer, bitfield, zip, countzip, iterator_helpers, callable, big_buffer, padded_aligned,
soft_neon, geometry, term_codes.

### What is not modelled

* `overloaded.hh`, `base_concepts.hh` (type-level only), `lut.hh` (an include).
* Compile-time meta programming as such (concepts, SFINAE, `static_assert`s other than the ones a property is about), copy/move cost,
  volatile hardware; exceptions and interrupts except where a property is about them: exceptions from element operations in C247, C255 and
  C258; other threads and interrupts in the models named `…Isr`, `…Weak`, `…Conc`, `Spsc…`, `Pool…`, `HandOver`, `ReadIsr`, `CircBufTake`.
* Floating point: exact rational arithmetic unless the theorem quantifies over a rounding function (`AudioFrame`, `SineOsc`, `TrigFloat`, `FilterFloat`, `ParamsFloat`, `InterpFloat`, `CalibFloat`, `VoctFloat`, `OscsFloat`, `ColorFloat`, `MathFloat`, `pow2`: both exact
  and binary32 arithmetic; the notes in section 4 say which). Infinities and NaN are modelled in `XFlt.lean` and the models
  whose names start with X, where a comparison is abstract (Schmitt triggers) and where the bit pattern is the subject (`is_finite_fastmath`); the others take finite numbers.
* ARM intrinsics (`__SSAT`, `__USAT`, `__UQADD8`) are modelled by their documented meaning.
* The standard library (`std::sort`, `strtol`, `std::string::find`, `std::ranges::min_element`, …) by its specification.
* The rounding-parametrised models round every operation separately (no contraction to fused multiply-add, FLT_EVAL_METHOD 0).
* The C++ memory model (release/acquire machines) for the FIFOs (C05, C167, C230, C232), `ThreadSafePool` (C157, C158, C231) and
  FilteredInterpArray's flag (C166); all other concurrent models are sequentially consistent.

## 3. Plan per property

One line per property: what is modelled and how it is proved. "Expected to FAIL" marks the properties the
code was already suspected to violate when the plan was written; section 4 says what was found.

* **C01** SPSC FIFO delivers every accepted item exactly once, in order — Small-step model: two threads, one shared-memory access per step, counters are `BitVec w`; ghost unbounded counters in the invariant; induction over steps.
* **C02** SPSC put() refuses only when full and never overwrites — Same model; invariant on the loaded snapshot of `tail_` in mid-put states.
* **C03** SPSC get() reports empty only when empty — Same model; invariant on the loaded snapshot of `head_` in mid-get states.
* **C04** SPSC occupancy queries are safe lower bounds for the side that acts on them — Same model with the query operations as extra steps.
* **C05** SPSC FIFO is free of data races under the C++ memory model — Release/acquire machine (two threads, message lists per atomic, vector clocks, slot access epochs, race = UB). Expected to FAIL for the code (relaxed load of head_ in the consumer): prove a reachable race, and race freedom for the acquire variant.
* **C06** SPSC reset() may be called from either side at any time — C01 model with reset steps. Expected to FAIL for the producer side; prove consumer side and give the bad interleaving.
* **C07** SPSC constructed or repositioned with an offset is a fixed delay line — Sequential semantics from the same model; list refinement with d initial items; induction over the stream.
* **C08** Run-time sized SPSC FIFO delivers in order for every capacity — Model with `% max_size` and `BitVec w` counters; FIFO refinement while fewer than 2^w puts or the capacity divides 2^w; counterexample after wrap otherwise.
* **C09** Run-time sized SPSC FIFO resize — Sequential model of resize.
* **C10** CircularBuffer and CircularBufferOpt are overwriting FIFO queues — Refinement: abstraction function to list, all operations commute; induction over op list.
* **C11** CircularBuffer occupancy and peek — Same abstraction function.
* **C12** CircularBuffer with set_head is a fixed delay — Invariant over the put/get stream.
* **C13** CircularBuffer fill_buffer sets every slot — Byte-level fill model parameterised by sizeof(T); Opt expected to FAIL.
* **C14** CircularBufferAccess reads and writes wrap exactly — Model the loops; closed form by induction over n.
* **C15** CircularBufferAccess reverse access mirrors forward access — Same.
* **C16** Marker crossing is reported exactly — Same, with marker arithmetic.
* **C17** CircularBufferBlock stores a block at any position modulo SIZE — Byte-level model of the two memcpys with sizeof(T); expected to FAIL for sizeof(T) > 1.
* **C18** CircularStack is a stack that forgets the oldest — Refinement to list stack.
* **C19** FixedVector behaves like a capacity-bounded list — Refinement to list operations, UB monad for bounds.
* **C20** FixedVector reports capacity failures truthfully — Same.
* **C21** StaticString is always terminated and holds the longest prefix that fits — Byte array model of both copy loops, UB monad.
* **C22** StaticString copies and comparisons across capacities — Same.
* **C23** SeqMap overwrite/get is a bounded map evicting the oldest key — History induction; abstract FIFO-cache spec.
* **C24** SeqMap insert and lookup agree — Same.
* **C25** SeqMap remove really removes — Expected to FAIL (slot not freed, default key appears).
* **C26** SequentialMap operator[] behaves like a map while it has room — Refinement to association list.
* **C27** SequentialMap insert stores the entry — Expected to FAIL (value never stored).
* **C28** SequentialMap is memory safe when over-full — UB monad.
* **C29** Wear levelling: a successful write is what read returns — Block model (cells blank / record / garbage), loops as recursive functions; correctness for all blocks.
* **C30** Wear levelling survives a restart — Same with reboot operation; induction over histories.
* **C31** Wear levelling: interrupted record write keeps the previous record — Same with crash outcomes.
* **C32** Wear levelling never loses the only copy — Expected to FAIL for the erase-then-write window; witness.
* **C33** Wear levelling actually levels — Same; trace of low-level operations.
* **C34** Wear levelling write always terminates, also on broken storage — Storage as arbitrary answer function.
* **C35** Wear levelling read never presents data that is not in the block — Expected to FAIL (result of low-level read ignored).
* **C36** Failed erase does not lose access to the stored record — Expected to FAIL for WearLeveler (cell_ reset to 0); holds for WearLevel.
* **C37** Pool hands out distinct live objects — State machine, refinement to set of live ids.
* **C38** ThreadSafePool: exclusive ownership for any number of threads — Small-step model with arbitrarily many threads, one CAS per step.
* **C39** ThreadSafePool create() fails only if every entry was seen in use — Same.
* **C40** MonotonicAllocator blocks are disjoint and in the arena — Arithmetic invariant over request lists; exact fit expected to FAIL (strict comparison).
* **C41** Alignment arithmetic — Nat / BitVec arithmetic.
* **C42** Serialized data parses back — Inductive description trees, encoder, parser; round trip by induction.
* **C43** Imperative writer and declarative serializer produce the same bytes — Writer as event machine over buffer; equality with encoder by induction on trees.
* **C44** Measured size equals serialized size equals streamed size — Sink-parametric encoder.
* **C45** Writers never write outside the buffer and report the needed size — Truncating sink.
* **C46** Parser is safe on arbitrary bytes — Parser in the UB monad over arbitrary bytes.
* **C47** Character-array keys compare up to the terminator — Key comparison on byte lists.
* **C48** num_digits is the number of decimal digits — BitVec/Nat.
* **C49** int_to_str writes the decimal representation — Expected to FAIL (zero digits dropped); partial for values without zero digits.
* **C50** int_to_str_chop keeps sign and least significant digits — Expected to FAIL; partial likewise.
* **C51** print emits decimal and hexadecimal numbers exactly — Digit extraction proved equal to Nat.toDigits style spec; INT_MIN excluded.
* **C52** print of a string emits exactly its characters — string_view expected to FAIL without terminator.
* **C53** Version comparison is a total order consistent with equality — Lexicographic order on quadruples.
* **C54** Version parsing round-trips — Model of strtol based parser on char lists.
* **C55** Version hosting rule — Arithmetic.
* **C56** Pre-release marker is recognised anywhere after the numbers — Expected to FAIL for dashes in earlier fields.
* **C57** replace_all terminates and replaces every occurrence — Fuelled loop; expected to FAIL when the replacement has another length.
* **C58** tokenize_string yields exactly the maximal delimiter-free runs — List recursion.
* **C59** Case-insensitive comparison is a strict weak order and matching equivalence — Lexicographic order on lower-cased lists.
* **C60** contains_word finds exactly the space-delimited occurrences — Search spec on lists.
* **C61** Partition assigns every element exactly once — Greedy loop over any sorted permutation; invariant.
* **C62** Partition sums are balanced — Invariant on spread.
* **C63** Debouncer reports an edge exactly when the sample history matches — BitVec shift register; invariant: register = last n samples.
* **C64** Edge events are delivered at most once — Two-flag machine, induction.
* **C65** Toggler event transfer loses nothing — Expected to FAIL when both events are pending (else-if).
* **C66** TogglerCompact behaves exactly like Toggler — Bisimulation.
* **C67** TogglerCounter counts samples since the last change — Invariant.
* **C68** Schmitt triggers alternate and respect both thresholds — Invariant over a linear order.
* **C69** Change and edge detectors report exactly the changes — Invariant.
* **C70** PollEvent fires iff the period has elapsed, also across clock overflow — BitVec w; expected to FAIL when the clock wrapped but the deadline did not.
* **C71** PollEvent polled at least once per period never drifts out of range — Invariant under the polling discipline.
* **C72** PollChange samples at most once per period and misses no lasting change — BitVec 32; force_next_poll expected to FAIL for early times.
* **C73** Quadrature encoder emits one step per full detent and none while the pins rest — BitVec 8 shift register; run-length collapse spec; induction.
* **C74** RotaryMotion neither loses nor invents motion — Sum invariant.
* **C75** DoubleBufferStream transmits accepted data once, in order — Event machine, ghost streams.
* **C76** DoubleBufferStream never touches a buffer that is being transmitted — Same.
* **C77** DoubleBufferStream transmit() result tells whether the data will be sent — Expected to FAIL when the transmit function fails.
* **C78** Powers of two and logarithm — BitVec 32.
* **C79** next_power_of_2 is the least power of two not below the value — Bit smearing on BitVec; 64-bit instance expected to FAIL.
* **C80** wrap maps into range by whole periods — Int arithmetic, loop recursion.
* **C81** Clamp, min, max, between, differences — Ordered types / BitVec.
* **C82** Dead zone (plateau) is exact, odd and continuous — Int.
* **C83** Byte swaps — BitVec.
* **C84** Integer interpolation stays between its end points — Int with UB on overflow; negative values via truncating division.
* **C85** Saturation — Int.
* **C86** map_value hits its end points and is monotone — Rational / Int.
* **C87** Hysteresis gate switches at its documented thresholds — Expected to FAIL (midpoint).
* **C88** is_finite_fastmath classifies every bit pattern — BitVec 32.
* **C89** SmallestUnsignedInt / SmallestSignedInt pick the least sufficient type — Nat/Int.
* **C90** Colour blending is exact and stays between the colours — BitVec/Nat arithmetic for all channels.
* **C91** RGB565 conversions — BitVec 16/8.
* **C92** Packed 565 blend — Field-wise arithmetic.
* **C93** Colour addition saturates — Nat; operator+ on non-ARM expected to FAIL.
* **C94** HSV conversion — Nat arithmetic per sector.
* **C95** Oscillators: exact phase, symmetric triangle, one-shot down counter — BitVec 32.
* **C96** set_period_ms is safe for every period — Expected to FAIL (< 1000 ms divides by zero).
* **C97** OneShot pulse has exactly the requested length — Rational arithmetic.
* **C98** MovingAverage is the exact floor average of the last Size samples — Ring buffer invariant; Nat with explicit overflow bound.
* **C99** Oversampler outputs the floor average of each complete block — Invariant.
* **C100** Smoothing filters stay within the input range — Rational arithmetic.
* **C101** Linear interpolation tables — Rational arithmetic, UB monad.
* **C102** LookupTable clamps and interpolates — Same.
* **C103** Calibrator maps measured points to targets and is invertible — Field algebra.
* **C104** V/oct calibration recovers the line — Field algebra, invariant.
* **C105** Parameter interpolation reaches its target — Field algebra, induction.
* **C106** Parameter change detection — Invariant.
* **C107** Peak meters report the extremes of everything seen — Floating max initial value expected to FAIL.
* **C108** Memory test passes good memory and catches aliased addresses — LCG injectivity over BitVec 32 (Hull–Dobell for this multiplier proved directly), memory as function with alias map.
* **C109** Byte block encodes little-endian — BitVec.
* **C110** Input and output buffers stop at capacity — List refinement.
* **C111** Rectangle intersection is exact and symmetric — Expected to FAIL (containment); partial.
* **C112** Concavity test is invariant — Int cross products, cyclic lists.
* **C113** zip and countzip visit exactly the common prefix — Iterator loop model.
* **C114** Stored callables are constructed and destroyed exactly once — Event counting; copying expected to FAIL.
* **C115** Bit-field combination — BitVec; OR() expected to FAIL (uninitialised).
* **C116** Audio samples: sign extension and scaling — BitVec 32 / Int / rational.
* **C117** Math tables are well-formed — Whole finite table checked by the kernel, then induction/algebra for interpolated arguments.
* **C118** sin/cos accept any argument — Expected to FAIL for negative x.
* **C119** SPSC FIFO constructed from a span holds the span's elements — Byte-level memcpy model; expected to FAIL for elements wider than a byte (count instead of size).
* **C120** CircularStack constructed from values holds them — The CircularStack model; expected to FAIL (indices not advanced).
* **C121** SequentialMap operator[] of a new key yields a value-initialised value — The SequentialMap refinement; expected to FAIL after erase (slot keeps its old value).
* **C122** SequentialMap const operator[] is usable for absent keys — References modelled by what they point into, a temporary by UB; expected to FAIL.
* **C123** FixedVector insert and erase keep std::array's subscript precondition — The FixedVector model with a bounds-checked `&data[i]`; expected to FAIL.
* **C124** ipow and bipolar_type_range — Nat arithmetic modulo 2^32, induction on the exponent.
* **C125** array_adj_diff telescopes — List recursion, telescoping sum by induction.
* **C126** Float interpolation and the parabolic sine — Rational arithmetic.
* **C127** RGB LED flash lasts as long as requested, then the base colour returns — Model of the LED animator over the DownCounter model; expected to FAIL for long flashes.
* **C128** Filter composition — Filters as state machines; induction over the sample list.
* **C129** PaddedAligned rounds the size up to the alignment — Nat arithmetic.
* **C130** Portable NEON replacements work lane by lane — Lanes as lists, each operation proved lane-wise.
* **C131** BigBuffer owns its heap object exactly once — The ownership model of C114; copies expected to FAIL.
* **C132** randomNumber stays within its bounds — Rational / integer arithmetic on top of map_value.
* **C133** Sine oscillator output range and observers — Rounding-parametrised float model over the sine table; induction on the number of calls.
* **C134** CircularBufferAccess cross-fades new elements with old ones — Closed form of the write loop with an arbitrary blend; blend itself rounding-parametrised.
* **C135** Table sine and cosine are sine and cosine — Kernel-checked comparison of all 2048 entries with a fixed-point rotation whose error is bounded by induction (Real.sin via Complex.exp), then the interpolation error bound M h^2/8.
* **C136** Powers of two are accurate — Entries checked by raising them to the 2047th power (whole finite table), then convexity / interpolation error.
* **C137** The logarithm table and the normalised frequency are accurate — Entries checked against rational bounds of exp at fixed points, then the interpolation error.
* **C138** Table tangent is the tangent — Entries checked against the fixed-point rotation; error bound away from the pole; expected to FAIL next to the pole.
* **C139** Table sine and cosine keep their accuracy in binary32 — Rounding-parametrised model; relative error bounds of rounding on top of C135.
* **C140** The sine oscillator produces a sine wave — Phase accumulator induction plus C139.
* **C141** A generated look-up table approximates its function — Mathlib derivative bounds for linear interpolation, on top of the cell lemmas of C102.
* **C142** contains_word is defined for every string — contains_word with the conversion of char to int and the precondition of std::tolower; expected to FAIL for signed char.
* **C143** Smoothing filters stay between their inputs in binary32 — Rounding-parametrised model; monotonicity of rounding plus relative error bounds for the effective gain.
* **C144** Interpolated parameters reach their target in binary32 — Rounding-parametrised model; error recurrence over the updates. Exact arrival expected to FAIL for InterpParam.
* **C145** Look-up tables in binary32: in range, monotone, accurate — Rounding-parametrised model; key lemma: a fraction below 1 of a rounded difference, rounded, is at most the exact difference; broken line as Lipschitz function for accuracy.
* **C146** generate samples its function inside the range — Rounding-parametrised model; the last argument expected to FAIL.
* **C147** InterpArray in binary32: in bounds, exact at the elements, between neighbours — Rounding-parametrised model, error bounds; between-ness expected to FAIL (two products rounded separately).
* **C148** Calibration round trips in binary32 — Rounding-parametrised model, relative error bounds; exact round trip expected to FAIL.
* **C149** Oscillators in binary32: value range, frequency and period accuracy — Rounding-parametrised model; monotonicity of rounding, exact scaling by powers of two, relative error bounds.
* **C150** OneShot pulse length in binary32 — Rounding-parametrised model, error accumulation by induction over updates; exact length expected to FAIL for long pulses.
* **C151** Colour blending and scaling in binary32 — Rounding-parametrised model, error bounds per channel; between-ness expected to FAIL (two products rounded separately).
* **C152** LED animations with float arguments in binary32 — Rounding-parametrised model; reduction to the exact model of C127, failing where truncation meets rounding.
* **C153** Value mapping and interpolation in binary32 — Rounding-parametrised model; monotonicity, scaled-difference lemma, error bounds; upper ends expected to FAIL.
* **C154** faster_sine in binary32 — Rounding-parametrised model; exact subtraction of 1/4 bounds the parabola.
* **C155** Hysteresis gates in binary32 — Rounding-parametrised model; error bounds; induction over the signal.
* **C156** The signal analyser in binary32 — Rounding-parametrised model; invariant by induction over samples; convergence expected to FAIL (absorption).
* **C157** Entries of a thread-safe pool change hands without data races — Vector-clock model of `create`/`destroy` and the entries' data, any number of threads; invariant (who owns an entry knows all earlier accesses to it) by induction over the schedule.
* **C158** Clearing a thread-safe pool — Same model with the assignments of `clear` as separate steps; expected to FAIL (nothing is acquired); the quiescent case by the same invariant.
* **C159** Powers of two and pitch multiples in binary32 — Rounding-parametrised model; the rounded table look-up is the exact one at a nearby argument plus a rounding error; then C136; induction over the turns of the loop.
* **C160** Normalised frequency in binary32 — The same with C137.
* **C161** Nearest-entry cosine and both tangents in binary32 — The same with C135 and C138 at nearby arguments; next to half pi expected to FAIL (the table blends across the pole).
* **C162** V/oct calibration with noise and rounding — Rounding-parametrised `record_measurement`; the invariant of C104 with intervals instead of equalities, by induction over the history.
* **C163** Latched parameters in binary32 — Rounding-parametrised `store_changed`; monotonicity of rounding; the exact threshold expected to FAIL (the difference is rounded).
* **C164** A transmit function that calls back into DoubleBufferStream — The stream's functions with the transmit function's own calls as a continuation, a tree of calls; every tree equals the sequence of its calls (mutual induction), then C75 and C76.
* **C165** Readings that arrive while FilteredInterpArray takes them over — Interleaving model of add_new_readings() with a producer; per-channel counts of written, announced and used readings as the specification; an invariant over all schedules.
* **C166** FilteredInterpArray's new-data flag between two cores — View-based operational model of the flag (sequentially consistent) and of relaxed readings; coherence and release/acquire knowledge as an invariant; the lost announcement as a witness.
* **C167** LockFreeFifoSpscDyn is free of data races under the C++ memory model — The machine of C05 with the index function of the dynamic FIFO.
* **C168** Inner products with the portable vector operations in binary32 — Rounded lanes, plain and fused multiply-add; error bound by induction over the blocks.
* **C169** Button events registered by an interrupt — Steps are single accesses to memory; the flags equal a specification's book of owed answers as an invariant over all schedules; for the bit-fields a load and a store of the byte, with the lost release as a witness.
* **C170** StaticString copied from part of itself — The copy loops with the source in the array that is written; induction on the characters left, the unread part being unchanged.
* **C171** Interpolated parameters of machine integer types — Arithmetic of a w-bit type, signed or not, with promotion, wrapping and undefined overflow; truncated division keeps every step between the ends.
* **C172** Cross-fading writes in binary32 — Error of four roundings against the exact blend; truncation of the result; the lost unit as a witness for every rounding.
* **C173** Averages of signed and narrow samples — The unsigned accumulator is the sum modulo 2^32; dividing by 2^k and converting to w bits undoes the wrap because 2^w divides 2^(32-k).
* **C174** The hysteresis filter on integers — Integer difference, binary32 transfer and sum, truncation to the type; monotone rounding keeps the sum between two integers, truncation keeps it there.
* **C175** Interpolating arrays of integers — The float blend of C147 on integer elements, then truncation; integer bounds survive with at most one unit lost; a witness for the lost unit.
* **C176** Mapping between float and integer ranges — The float map of C153 between integer bounds, then truncation; exact end for power-of-two widths; a witness for the lost unit.
* **C177** wrap in narrow, unsigned and signed types — Loops with fuel and wrapping arithmetic; the wrapped period cancels because every intermediate value is between bounds of the type; induction on the distance to the range.
* **C178** The compact binary format with signed sizes — The parser with sizes read as two's complement and converted to size_t; on encodings with sizes in the lower half it finds what the unsigned parser finds (induction on the description); exact case analysis of get_node on arbitrary bytes.
* **C179** V/oct calibration in integers — Machine integer arithmetic as in C171; under the stated bound every call agrees with unbounded integers, and on integer lines those agree with the exact model of C104.
* **C180** Motion and changes registered by an interrupt — A transition system with the interrupt between the accesses of each call; induction over schedules with the motion pending in memory or in the running call; the flag is exactly the answer owed.
* **C181** Distances and latched parameters in every integer type — Machine integer arithmetic as in C171; the distance as the type sees it, in closed form; induction over histories.
* **C182** Parameters set by an interrupt — A transition system with the interrupt between the accesses of each call; induction over schedules relating the flag to the answer owed.
* **C183** Recalibrating V/oct without a reset — The model of C104 from an arbitrary state: two measurements determine the data points, the slope and the offset.
* **C184** A circular buffer filled by an interrupt — A transition system with the interrupt's put() between the accesses of get(); an invariant relating members and queue at each point of get(), by induction over schedules.
* **C185** wrap with float arguments — The loops with fuel over rationals with rounding; on a common grid every operation is exact, so the loops are integer loops in grid units.
* **C186** Averages of float samples — Simulation of the float class by the integer class on whole samples; error induction over the samples of a block for ResizingOversampler.
* **C187** Partitions of signed and floating-point values — Model: the code of Partition with values in the rationals and the addition of the type as a parameter (wrapping undefined for signed integers, rounded for floats). Proof: an invariant over the placing loop, generic in the addition: the computed sums differ by at most one rounded addition of the bound, and drift from the true sums by one rounding per element.
* **C188** Look-up tables of integers — Model: lookup with C++ promotions, wrapping and undefined overflow for a type of any width and signedness, and a size_t of any width. Proof: the index is computed exactly where it fits, else wrapped; the phase is always 0.
* **C189** Polling with narrow signed and float clocks — Model: poll with the promotion to int and the conversion back, and with rounded float arithmetic. Proof: the narrow signed clock is the unsigned clock of C70 counted from its smallest value; for floats, monotone rounding and its relative error.
* **C190** When the end of a transmission may interrupt transmit() — Model: transmit() cut at every access to shared members, tx_done_callback() between any two steps. Proof: an invariant at each point of transmit(), by induction over schedules.
* **C191** A circular buffer of floats replaces what was stored, for every float — `Verif/XFlt.lean` models IEEE binary32 with NaN and infinities over any correctly rounding function; the write is the blend in that arithmetic; invariance of NaN by induction on the history.
* **C192** Look-up tables, interpolated arrays and pow2 for every float argument — models in the arithmetic of `Verif/XFlt.lean` with float-to-integer conversion as an undefined outcome out of range; agreement with the finite models for the safe arguments.
* **C193** Filters and analysers recover from special samples — the filters in the arithmetic of `Verif/XFlt.lean`; NaN as an absorbing state by induction on the samples; equality with the finite model of C143 in range; block structure of the oversampler by induction.
* **C194** The arithmetic helpers and Schmitt triggers for every float — the functions in the arithmetic of `Verif/XFlt.lean`; case analysis on the kind of float, agreement with the finite models under range bounds, induction over the samples for the triggers.
* **C195** Parameters and interpolated parameters for every float — state machines in the arithmetic of `Verif/XFlt.lean`; non-finiteness as an invariant over all later operations by induction.
* **C196** Audio samples from every float — scaleOutput in the arithmetic of `Verif/XFlt.lean`; the conversions agree with those of the finite model because what overflows is out of range of every integer type.
* **C197** Oscillators, one-shots, colours and LEDs given any float — the functions in the arithmetic of `Verif/XFlt.lean`; agreement of the conversions, non-finiteness of products and sums with a special operand; the pulse by induction on the updates.
* **C198** Calibrator for every float — the class in the arithmetic of `Verif/XFlt.lean`; magnitude bounds for each intermediate result; non-finite slope or offset makes every adjusted value non-finite.
* **C199** VoctCalibrator for every float — state machine in the arithmetic of `Verif/XFlt.lean`; simulation of the finite model by induction over histories; what two measurements leave, from any state of at most two points.
* **C200** wrap returns for every float — the loops with fuel in the arithmetic of `Verif/XFlt.lean`; induction on the fuel with a magnitude invariant.
* **C201** References and iterators into the maps stay attached to their key — histories of calls on SeqMap by induction with the position of the key as invariant; positions in SequentialMap from the keys' indices before and after.
* **C202** Removed and moved-from elements of FixedVector — element-wise std::move loops with an arbitrary moved-from state; the array is the elements followed by the list of objects behind them, invariant over histories.
* **C203** Wear levelling through any history of power cuts — `Spec/WearCrash.lean`: histories of writes, restarts, power failures after `k` low-level operations with any residue, and damage; the log of what reached the block; invariant: nothing valid at or above `cell_`, and the topmost valid record is the last valid one since the last erase.
* **C204** A circular buffer emptied by an interrupt — `Model/CircBufTake.lean`: put() cut at every access to a member, get() and remove_first() as whole interrupts; `Spec/CircBufTake.lean`: a bounded queue driven by the observed events; invariant at each point of put(), induction over the schedule.
* **C205** Tokenizing a string that is in the receiving vector — `Model/TokenAlias.lean`: the loop with the vector's capacity; a push_back at full capacity invalidates what refers into the vector. Induction over the rounds, simulation of the loop of C58.
* **C206** A Function or Callback that tests true can be called — what a Function holds as an inductive type (empty, object, function pointer, smaller Function), calling it with undefined behaviour for the empty and the null one; the address of m_data.
* **C207** Reading into, and writing from, the buffer's own memory — `Model/CircOverlap.lean`: the loops with source and destination in one array. An invariant after i steps, with the origin of each element in closed form (repeating with period d, or mirrored).
* **C208** However a sample is handed over, it is debounced or compared with the thresholds — `Model/Entry.lean`: the inherited members on the derived objects; induction over the samples, the histories of a bouncing contact as a finite cycle.
* **C209** Motion and events handed from an object to itself — `Model/SelfOps.lean`: the member functions with both objects the same, assignment by assignment; case analysis.
* **C210** A flash started while an interrupt animates the LED — `Model/RgbLedIsr.lean`: the calls as lists of assignments with any number of interrupts between them; induction over the frames.
* **C211** Dead zone of any number type — `Model/PlateauT.lean`: the template as a conversion, the 32-bit function and a conversion back; uses C82 and the floor and ceiling lemmas.
* **C212** Parameters assigned from one another — `Model/ParamCopy.lean`: a family of parameters with set, check and copy assignment; induction over the history against a specification that tracks value and pending change.
* **C213** Serializing with callables that have a state — `Model/CompactState.lean`: callables as trees of calls whose arguments and branches depend on a state; induction over the tree.
* **C214** Edge detector read while an interrupt updates it — `Model/EdgeIsr.lean`: each query as two loads with interrupts between; induction over the updates.
* **C215** PollChange used from two contexts — `Model/PollIsr.lean`: small-step interleaving of both contexts; invariant by induction over the schedule.
* **C216** PollEvent polled by its own action — `Model/PollIsr.lean`, `PollNest`: nested calls as trees; mutual induction.
* **C217** The memory test ends and writes only its region — `Model/MemTestTop.lean`: the write pass with 32-bit pointers that wrap; induction over the iterations.
* **C218** Terminal constants in printed text — `Model/TermCodes.lean`: the constants; `Spec/TermCodes.lean`: a terminal reading character by character; induction over the pieces.
* **C219** A bouncing contact is reported once per stroke — `Model/Bounce.lean`: ask after every sample; `Spec/Bounce.lean`: strokes of a contact and what a user should hear; induction over strokes, chatter and holding.
* **C220** An encoder follows its shaft, whatever the shaft does — `Spec/QuadShaft.lean`: positions, pins and detents; the byte prev_state, the position modulo 4 and the clipped run form a finite system whose 52 reachable states are checked completely; then induction over the movement.
* **C221** A partition is nearly the best possible — `Spec/PartitionBest.lean`: any other assignment; Graham's argument: an element of which three do not fit below the best limit is placed without exceeding it (elements that leave no room for it are counted twice on both sides), a smaller one is at most a third of the limit.
* **C222** Which faults of the data the memory test finds — `Spec/MemFaults.lean`: faulty memories; the exact reading condition of the memory test, and the 32 lines and 496 pairs of lines checked completely on the first nine words of the pattern.
* **C223** Colours from hue, saturation and value change gradually — `Spec/Gradual.lean`: nearness of colours; every channel is v or a ramp v*(255-a)/256 with a linear in hue and saturation; bounds of the ramp, case split on the sectors and their seams.
* **C224** Interpolated tables have no jumps — `Spec/NoJumps.lean`: smooth tables, Lipschitz functions; a piecewise linear function through points D apart changes by at most D per cell (induction over the cells between), transferred to the accessors by the cell theorems of C101 and C102.
* **C225** faster_sine is a sine to within six hundredths — real sine of Mathlib; the parabola lies above the cosine by concavity of the sine, at most 0.06 above it by two half-angle steps from 1 - x^2/2.
* **C226** Filters settle on a constant input — exact arithmetic by induction over the samples (t -> t(1-t)); in binary32 a step that stays between state and input comes to rest on the grid of floats, and where it rests the correction rounds away, which bounds the distance.
* **C227** Noise smaller than the hysteresis does not trigger a Schmitt trigger — `Spec/Noise.lean`: way travelled, noisy samples; a potential (the way left to the far threshold) paid for by the signal's way, by induction over the samples.
* **C228** No call of the FIFOs or the thread-safe pool waits for another thread — A measure: the number of own steps left in the call; every own step decreases it, no step of another thread changes it.
* **C229** Oscillators in the long run — From the closed form of the phase (C95) by arithmetic modulo 2^32; induction over n for the count of falls.
* **C230** Data handed over through the FIFO — The weak-memory FIFO of C05 with client buffers that carry the epochs of their last accesses. Invariants: the consumer knows of the put of every item it got (unless the FIFO itself has raced); the buffer of the i-th item was last written in an epoch not after the i-th put; reads of it are in the epoch after the i-th get. Induction over the schedule; the counterexample for fewer buffers is built for every capacity.
* **C231** is_used() as a signal — The pool of C157 extended by the modification order of each flag and what each thread has seen of it. Invariant: the last message of a flag carries everything done by others to a free entry; the dispatcher has seen every `create` and at most one message behind; owners have seen the last message. Induction over the schedule.
* **C232** What num_free() and num_filled() promise, on weak memory — Extend the weak-memory FIFO model by num_free(); Spec/SpscPromise.lean: `room`/`credit` = what is left of the last answer, RoomBroken/FilledBroken = an answer contradicting it; invariant: what is promised is covered by the last counter value the thread has seen.
* **C233** One order explains all answers of the FIFO — Spec/SpscView.lean: `play` is the sequential queue. Invariant: a sequential history that contains what a thread has seen of the other one, extended whenever the thread sees a newer counter. The violation: one execution, and all 20 orders of its six calls fail.
* **C234** Containers give up what they gave back — Spec/Held.lean: elements and left-overs of a ring of places. Refinement: the array rotated to the first element is elements ++ left-overs; without reset() left-overs ++ elements are the last 2^k items put.
* **C235** How large a thread-safe pool must be — Spec/PoolSize.lean counts entries in use and running calls from the trace. Invariant: entry h and those beyond are held or still wanted by at most K - h.
* **C236** Maps whose keys are compared with their type's == — Model/MapKeys.lean: the maps with the key type's == as a parameter. Homomorphism: replacing each key by its class commutes with every call; the properties C23 to C26 carry over.
* **C237** Interpolated readings stay among the readings — Invariant over all call sequences: output and target are in range and the remaining steps lead to the target. Spec/FiltHull.lean counts and collects what the calls show.
* **C238** Noise smaller than the hysteresis does not switch a hysteresis gate — Induction over the samples with a potential: what the signal still has to travel before the next switch. Spec/GateNoise.lean: outputs passed back, switches counted; travel and noise as in C227.
* **C239** Loops that write through zip() and countzip() — Model/ZipWrite.lean: the loop over positions with a memory of named containers; the body reads and writes through references. Refinement to running the body on each row separately (Spec/ZipWrite.lean).
* **C240** A ByteBlock that prints its own bytes — Model/ByteSelf.lean: the vector with its capacity and the pointer, which is lost when the vector grows. Induction over the bytes.
* **C241** The compact binary format with sizes wider than size_t — Model/CompactWide.lean: the search with the conversions to size_t. Induction over the description and over the length of the blob.
* **C242** Concave polygons with 64-bit or floating-point coordinates — Model/PolyTypes.lean: the loop over any arithmetic, with the conversion of the first turn to int. Induction over the vertices.
* **C243** Containers whose memory comes from AlignedAllocator — Model/AlignHeap.lean: allocate and deallocate over the list of blocks in use, with the heap's answers as inputs. Invariant by induction over the history.
* **C244** Versions given as texts compare as the texts do — Spec/VersionOrder.lean: the order on texts. Composition of the parser's theorem (C54) with the order on versions (C53).
* **C245** The portable vector operations in place of the processor's — Model/XNeon.lean: programs over a store of vectors, floats with NaN and infinities. Spec: the same with arguments by value. Induction over the program, agreement outside the variables used up.
* **C246** How often randomNumber returns each value — Model/RandomDraw.lean for unsigned types, Model/MathFns.lean for int. The results that give one value are an interval; its length is computed.
* **C247** An exception from copying an element leaves the container as it was — Model/Throwing.lean: the functions again in a monad with a budget of successful element operations; an exception returns the state at that moment. C247_agrees ties them to the models without exceptions. The move loops by induction on their length.
* **C248** Oscillators, down counters and one-shots set by an interrupt — Model/OscIsr.lean: schedules of interrupts between the loads and stores of update(). The order of effect is computed from the schedule (Spec/OscIsr.lean); induction over the schedule.
* **C249** Containers read by an interrupt while the main program changes them — Model/ReadIsr.lean: each call as the list of states after its stores; its last state is tied to the sequential models. Spec/ReadIsr.lean: BeforeOrAfter and closed forms of what is seen. Induction over the moves.
* **C250** A StaticString read by an interrupt while it is assigned — Model/StringIsr.lean: the contents of _data after each store. Spec/StringIsr.lean: Reads (the text before the first NUL), mixtures. Induction over the text and over the history.
* **C251** Allocating from an interrupt — Model/AllocIsr.lean: the main program's call split at its memory accesses, complete calls of interrupts in the gaps. Spec/AllocIsr.lean: sound blocks, entries in someone's hands. Chains of blocks; induction over the calls.
* **C252** A peak meter shared with an interrupt — Model/MeterIsr.lean: the calls split at their memory accesses. Spec/MeterIsr.lean: least and greatest of lists, calls one after another. Folds of min and max.
* **C253** Filters shared with an interrupt — Model/FilterIsr.lean: the calls as lists of the states after their stores, and reset() and set_size() with samples added at each window. Spec/FilterIsr.lean: the samples after the last full block. Invariants of C98 and sums over blocks.
* **C254** Setting the read offset while the producer is putting — Model/SpscRewind.lean: the two accesses of the call with producer steps in between, on top of Model/Spsc.lean. The invariants of C01 and C07.
* **C255** Exceptions from the elements of a FIFO, and resize() without memory — Model/ThrowFifo.lean: the calls in the exception monad of Model/Throwing.lean, on the states of Model/Spsc.lean; case split over the points at which an exception may occur, and agreement with Model/Spsc.lean when there is none.
* **C256** A StaticString as a range of characters and as a std::string — Model/StringRange.lean: iterators as indices into the array, the loops of a range-for, the conversions. Induction over the text and over the stores.
* **C257** Recalibrating while the calibration is in use — Model/CalibIsr.lean: the states after each store of the recalibrating calls, and the two reads of the using calls with a recalibration in between. Algebra over the rationals.
* **C258** Exceptions from the elements or the transmit function of a DoubleBufferStream — Model/ThrowStream.lean: the calls in the exception monad of Model/Throwing.lean on the states of Model/DoubleBuf.lean; induction over the word.
* **C259** Loops that change the FixedVector they run over — Model/VecLoops.lean: the loops over the calls of Model/FixedVector.lean; induction over the elements still to visit, with the representation relation of C19.
* **C260** Map calls given references to the map's own keys and values — Model/MapSelf.lean: the calls with the argument read through an index at the line that reads it; equality with the calls of C23 and C26 on the copied value; induction over the entries still to visit.
* **C261** Several wear levellers over one block — Model/WearShared.lean: one storage and a position per object, over Model/WearLevel.lean; induction over the history with the number of used cells as invariant; the second part by reduction to C30.
* **C262** Serialized data that is cut off — Model/CompactBinary.lean on a prefix of the bytes; induction over the entries the search passes, then C42.
* **C263** Binary writer looked at while objects are open — Model/CompactBinary.lean (Writer); induction over the chain of open objects with ops_calls, then C42.
* **C264** Objects nested deeper than MaxDepth — Model/CompactBinary.lean (Writer); induction over the description with the stack of marks, then C42_nested.
* **C265** Clearing a thread-safe pool whose elements throw — Model/ThrowClear.lean in the monad of Model/Throwing.lean; induction over the entries.
* **C266** Calls on objects shared with an interrupt never wait — Spec/NoWait.lean says what not waiting means for any step function; a count of the steps left in a call, unchanged by interrupts, gives each theorem.
* **C267** A call that no interrupt cuts into does what the whole call does — Props/Alone.lean sets the run of a call's steps against the function modelling the whole call; induction over the channels for add_new_readings.

## 4. Results per property

Status, theorems (all checked by the kernel) and what is missing. `_partial` theorems prove the part that holds,
`_violated` theorems prove that the full statement is false of the modelled code by exhibiting a witness.

* **C01** proved — every schedule without producer-side reset (see C06); sequentially consistent memory: `Spsc.C01_fifo_order`
* **C02** proved: `Spsc.C02_put_result`, `Spsc.C02_never_overfull`
* **C03** proved: `Spsc.C03_get_result`, `Spsc.C03_get_or_default`, `Spsc.C03_remove_first`
* **C04** proved: `Spsc.C04_num_free`, `Spsc.C04_num_free_later`, `Spsc.C04_full`, `Spsc.C04_num_filled`, `Spsc.C04_num_filled_later`, `Spsc.C04_empty`
* **C05** partial — violated by the relaxed load of head_ in get(); holds for the code as written when each get() is guarded by num_filled() (an acquire load), and for the acquire variant without reset(); exact condition: a race happens iff some get()/get_move() returns an item not announced by the last num_filled() (C05_exact); the weak-memory model has all the interleaved executions (C05_includes_interleavings): `SpscWeak.C05_guarded_gets_race_free_partial`, `SpscWeak.C05_acquire_variant_race_free_partial`, `SpscWeak.C05_relaxed_load_races_violated`, `SpscWeak.C05_reset_races_violated`, `SpscWeak.C05_exact`, `SpscWeak.C05_announced`, `SpscIncl.C05_includes_interleavings`
* **C06** partial — holds for consumer resets and for producer resets outside any consumer call; violated by a producer reset during a get (witness schedules); for all histories: producer resets are right whenever they store while the FIFO is empty or the consumer has not yet accessed it in its current call, and break the order from every state in which a get or remove_first is under way on a non-empty FIFO: `Spsc.C06_consumer_reset_partial`, `Spsc.C06_quiescent_producer_reset_partial`, `Spsc.C06_producer_reset_violated`, `Spsc.C06_calm_resets_partial`, `Spsc.C06_calm_reset_empties`, `Spsc.C06_other_moments_violated`
* **C07** proved: `Spsc.C07_delay_put_get`, `Spsc.C07_delay_get_put`, `Spsc.C07_set_read_offset`, `Spsc.C07_set_write_pos`, `Spsc.C07_set_read_pos`
* **C08** partial — violated after 2^w puts by every capacity that does not divide 2^w; order holds for ever exactly for the capacities that divide it: `Spsc.C08_dyn_fifo_partial`, `Spsc.C08_dyn_wrap_violated`, `Spsc.C08_dyn_fifo_exact`
* **C09** proved — within the counter range (see C08): `Spsc.C09_resize`, `Spsc.C09_resize_same`
* **C10** proved: `CircBuf.C10_is_bounded_queue`, `CircBuf.C10_opt_is_bounded_queue`
* **C11** proved: `CircBuf.C11_occupancy`, `CircBuf.C11_peek_is_future_get`
* **C12** proved: `CircBuf.C12_delay_put_get`, `CircBuf.C12_delay_get_put`, `CircBuf.C12_delay_circular_buffer`
* **C13** partial — holds for CircularBuffer; violated by CircularBufferOpt for elements wider than a byte, where only the elements in the first N bytes are set (exact characterisation): `CircBuf.C13_fill_value`, `CircBuf.C13_fill_array`, `CircBuf.C13_opt_fill_partial`, `CircBuf.C13_opt_fill_violated`, `CircBuf.C13_opt_fill_exact`
* **C14** partial — writes: for element types where d*1.f+old*0.f is d; violated for 32-bit integers above 2^24; exactly the binary32 integers are stored unchanged: `CircAccess.C14_read`, `CircAccess.C14_write_partial`, `CircAccess.C14_mix`, `CircAccess.C14_write_int32_violated`, `CircAccess.C14_clear_and_positions`, `CircAccess.C14_write_int_exact`
* **C15** proved: `CircAccess.C15_read_reverse`, `CircAccess.C15_write_reverse`, `CircAccess.C15_reverse_mirrors_forward`
* **C16** proved — blocks longer than the buffer: counterexample in C16_longer_blocks_miscount: `CircAccess.C16_read_check_crossed`, `CircAccess.C16_read_reverse_check_crossed`, `CircAccess.C16_write_check_crossed`, `CircAccess.C16_longer_blocks_miscount`
* **C17** partial — violated for all elements wider than a byte; the bytes written are characterised exactly for every width: `CircBlock.C17_write_bytes_partial`, `CircBlock.C17_write_wide_violated`, `CircBlock.C17_write_wide_exact`
* **C18** proved: `CircStack.C18_is_bounded_stack`
* **C19** proved: `FixedVector.C19_is_bounded_list`
* **C20** proved: `FixedVector.C20_capacity_results`
* **C21** partial — violated for capacity 0 with a non-empty string_view; holds for every other capacity; exactly when the copy is defined: `StaticString.C21_copy_cstr`, `StaticString.C21_copy_string_view_partial`, `StaticString.C21_clear`, `StaticString.C21_length_available`, `StaticString.C21_capacity_zero_violated`, `StaticString.C21_copy_string_view_exact`
* **C22** proved: `StaticString.C22_equal_iff`, `StaticString.C22_copy_between`
* **C23** proved: `SeqMap.C23_overwrite_get`, `SeqMap.C23_get_after_overwrite`, `SeqMap.C23_recent_keys_survive`
* **C24** proved: `SeqMap.C24_get_iff_exists`, `SeqMap.C24_insert`, `SeqMap.C24_remove_last`
* **C25** partial: `SeqMap.C25_remove_partial`, `SeqMap.C25_remove_exact_partial`, `SeqMap.C25_remove_violated`
* **C26** proved: `SequentialMap.C26_is_map`
* **C27** partial — violated: insert never stores the value; exactly: the slot's old value: `SequentialMap.C27_insert_partial`, `SequentialMap.C27_insert_violated`, `SequentialMap.C27_insert_exact`
* **C28** partial — violated for capacity 0 only; exactly when it is defined: `SequentialMap.C28_overfull_partial`, `SequentialMap.C28_capacity_zero_violated`, `SequentialMap.C28_overfull_exact`
* **C29** proved: `WearLevel.C29_write_then_read`
* **C30** proved: `WearLevel.C30_restart`, `WearLevel.C30_last_record`
* **C31** proved: `WearLevel.C31_interrupted_write`
* **C32** partial — violated between the erase and the write of a call that erases: `WearLevel.C32_no_erase_partial`, `WearLevel.C32_erase_window_violated`
* **C33** proved: `WearLevel.C33_writes_only_writeable`, `WearLevel.C33_each_cell_once`, `WearLevel.C33_schedule`
* **C34** proved: `WearLevel.C34_write_terminates`
* **C35** partial — violated when a low-level read fails and the caller's variable already holds a valid record; exact behaviour with any unreadable cells and any variable: `WearLevel.C35_read_partial`, `WearLevel.C35_read_no_fault_partial`, `WearLevel.C35_read_violated`, `WearLevel.C35_read_exact`
* **C36** partial — violated by WearLeveler always, by WearLevel if the caller's variable holds a valid record; exact behaviour of WearLevel: `WearLevel.C36_failed_erase_partial`, `WearLevel.C36_leveler_failed_erase_violated`, `WearLevel.C36_level_failed_erase_violated`, `WearLevel.C36_level_exact`
* **C37** proved: `Pool.C37_create`, `Pool.C37_create_for_overwrite`, `Pool.C37_destroy`, `Pool.C37_init`
* **C38** proved: `TsPool.C38_exclusive_ownership`
* **C39** proved: `TsPool.C39_fails_only_if_seen_full`, `TsPool.C39_create_alone`, `TsPool.C39_create_alone_is_the_step_model`, `TsPool.C39_destroy_free`, `TsPool.C39_clear`
* **C40** partial — violated: a request for exactly the free space is refused: `Alloc.C40_blocks_partial`, `Alloc.C40_exact_fit_violated`
* **C41** partial — violated by AlignedAllocator for byte counts within Alignment-1 of the top of size_t; exact condition proved: `Alloc.C41_padded`, `Alloc.C41_aligned_allocator_partial`, `Alloc.C41_aligned_allocator_zero`, `Alloc.C41_aligned_allocator_violated`, `Alloc.C41_aligned_allocator_exact`
* **C42** proved: `CompactBinary.C42_parse`, `CompactBinary.C42_nested`, `CompactBinary.C42_round_trip`, `CompactBinary.C42_truncation_needed`, `CompactBinary.C42_concat`
* **C43** proved: `CompactBinary.C43_writer_is_serializer`, `CompactBinary.C43_depth_needed`
* **C44** proved: `CompactBinary.C44_sizes`, `CompactBinary.C44_stream_is_serialize`
* **C45** proved: `CompactBinary.C45_serialize`, `CompactBinary.C43_writer_is_serializer`, `CompactBinary.C45_writer_any_calls`
* **C46** partial — get_node violated when DataSizeT is as wide as size_t: the bounds check wraps; C46_node_exact states the outcome of get_node for every blob: undefined exactly if offset plus size wraps and the size is not the largest: `CompactBinary.C46_get_safe`, `CompactBinary.C46_node_safe_partial`, `CompactBinary.C46_node_violated`, `CompactBinary.C46_node_exact`
* **C47** proved: `CompactBinary.C47_compare`, `CompactBinary.C47_written_key_matches`
* **C48** proved: `IntToStr.C48_num_digits`
* **C49** partial — violated for every value with a zero digit: the zeros are left out; intToStr_eq gives the exact result for all values: `IntToStr.C49_int_to_str_partial`, `IntToStr.C49_int_to_str_violated`, `IntToStr.intToStr_eq`
* **C50** partial — violated for values with a zero digit or last digit 1; C50_chop_exact states the text for every value and buffer: zero digits vanish, and a remainder of exactly 10^k becomes the character ':' (nothing for k = 0); C50_power_violated: every power of ten: `IntToStr.C50_chop_partial`, `IntToStr.C50_chop_safe_partial`, `IntToStr.C50_chop_exact`, `IntToStr.C50_power_violated`, `IntToStr.C50_chop_violated`
* **C51** partial — integers: violated only for INT32_MIN (signed overflow); floats: only the integer part is printed, between question marks, and values beyond int32_t are undefined behaviour: `Print.C51_int_partial`, `Print.C51_int_min_violated`, `Print.C51_hex`, `Print.C51_float_partial`, `Print.C51_float_violated`, `Print.C51_float_exact`
* **C52** partial — violated for string_views that are not NUL-terminated right after their last character; C52_view_exact: exactly what is printed for any view: `Print.C52_cstr`, `Print.C52_view_partial`, `Print.C52_view_violated`, `Print.C52_print_args`, `Print.C52_view_exact`
* **C53** proved: `Version.C53_cmp`, `Version.C53_total_order`
* **C54** partial — round trip proved for all M.m.r[-suffix]; violated for field texts of 2^32 and more with a 64-bit long, and for views followed by a digit in memory; C54_parse_exact covers numbers of any length; every zero-terminated text: the exact result (white space, signs, no digits, any numbers): `Version.C54_round_trip`, `Version.C54_parse_partial`, `Version.C54_parse_violated`, `Version.C54_parse_exact`, `Version.C54_wrap_violated`, `Version.C54_every_text`, `Version.C54_text_covered`, `Version.C54_negative_violated`
* **C55** proved: `Version.C55_can_host`
* **C56** partial — violated: only the text after the last dot is examined for the dash: `Version.C56_prerelease_partial`, `Version.C56_prerelease_violated`
* **C57** partial — violated: the position advances by the length of the text searched for, not of its replacement; correct when the replacement is at least as long and cannot match again; exact conditions for ending and for being right: `Strings.C57_replace_all_partial`, `Strings.C57_shorter_partial`, `Strings.C57_equal_length`, `Strings.C57_terminates_partial`, `Strings.C57_diverges_violated`, `Strings.C57_misses_violated`, `Strings.C57_terminates_exact`, `Strings.C57_replace_all_exact`
* **C58** proved: `Strings.C58_tokenize`, `Strings.C58_runs_unique`
* **C59** proved: `Strings.C59_equal_ci`, `Strings.C59_less_ci`, `Strings.C59_less_ci_meaning`
* **C60** proved: `Strings.C60_contains_word`
* **C61** proved: `Partition.C61_each_once`, `Partition.C61_too_many`, `Partition.C61_too_many_initial`
* **C62** proved — under the stated condition that no sum overflows T: `Partition.C62_balanced`, `Partition.C62_overflow_violated`
* **C63** proved: `Debouncer.C63_debounce`, `Debouncer.C63_default`, `DebouncerCounter.C63_counter_same`, `DebouncerCounter.C63_counter_count`
* **C64** proved: `Toggler.C64_at_most_once`, `Toggler.C64_delivered`, `Toggler.C64_no_new_edge`, `Toggler.C64_states`
* **C65** partial — violated when both events are pending in the source: the rising one is dropped; C65_transfer_exact covers all states: `Toggler.C65_transfer_partial`, `Toggler.C65_transfer_violated`, `Toggler.C65_copy`, `Toggler.C65_transfer_exact`, `Toggler.C65_lost_violated`
* **C66** proved: `TogglerCompact.C66_compact`
* **C67** proved: `TogglerCounter.C67_count`, `TogglerCounter.C67_level`, `TogglerCounter.C67_event`, `TogglerCounter.C67_not_boolean`
* **C68** proved: `Schmitt.C68_events`, `Schmitt.C68_inside`, `Schmitt.C68_alternate`, `Schmitt.C68_rising_only`
* **C69** proved: `EdgeState.C69_edge_state`, `EdgeState.C69_edges`, `ChangeDet.C69_changed`
* **C70** partial — exact characterisation; an event whose due time lies before a clock overflow and is only polled after it is missed; with the default signed clock the overflow is undefined behaviour; C70_signed_exact covers all readings of a signed clock: `PollEvent.C70_poll_partial`, `PollEvent.C70_poll_violated`, `PollEvent.C70_signed_partial`, `PollEvent.C70_signed_violated`, `PollEvent.C70_signed_exact`
* **C71** partial — exact when polled at every tick; with gaps of at most g the action runs at the first poll after the due time unless that is one of the last g - 1 clock values before an overflow; there events are lost, for ever if the gaps divide the range of the clock (a uint8_t clock, period 50, polled every 8 ticks, stops after 1736 ticks); exact condition for every poll at any gap: `PollEvent.C71_every_tick_partial`, `PollEvent.C71_gaps_partial`, `PollEvent.C71_gap_violated`, `PollEvent.C71_stuck_violated`, `PollEvent.C71_stuck_reachable_violated`, `PollEvent.C71_exact`
* **C72** partial — force_next_poll does not force a look when now < update_ticks: `PollChange.C72_poll`, `PollChange.C72_take_change`, `PollChange.C72_force_partial`, `PollChange.C72_force_violated`, `PollChange.C72_force_exact`
* **C73** proved: `Quad.C73_motion`, `Quad.C73_turns`
* **C74** proved: `Rotary.C74_conserved`
* **C75** proved: `DoubleBuf.C75_fifo`, `DoubleBuf.C75_progress`
* **C76** proved: `DoubleBuf.C76_in_flight`, `DoubleBuf.C76_all_or_nothing`
* **C77** partial — with a failing transmit function later transmit() calls report success for data never sent; exact behaviour of every next call after every history, with failing transmit functions: `DoubleBuf.C77_result_partial`, `DoubleBuf.C77_failed_start_violated`, `DoubleBuf.C77_exact`
* **C78** proved: `IntMath.C78_is_power_of_2`, `IntMath.C78_log2_floor`, `IntMath.C78_Log2`, `IntMath.C78_agree`
* **C79** partial — right for 8, 16 and 32 bits; for 64-bit types the power-of-two test only looks at the low 32 bits; exact condition proved: `IntMath.C79_next_power_of_2`, `IntMath.C79_next64_partial`, `IntMath.C79_pow2_violated`, `IntMath.C79_low_violated`, `IntMath.C79_next64_exact`
* **C80** proved: `IntMath.C80_wrap_max`, `IntMath.C80_wrap`, `IntMath.C80_unique`, `IntMath.C80_range_needed`
* **C81** proved: `IntMath.C81_constrain`, `IntMath.C81_max_min`, `IntMath.C81_between`, `IntMath.C81_abs_diff`, `IntMath.C81_abs_diff_unsigned`
* **C82** proved: `IntMath.C82_plateau`, `IntMath.C82_odd`, `IntMath.C82_monotone_lipschitz`
* **C83** proved: `IntMath.C83_swap16`, `IntMath.C83_swap32`, `IntMath.C83_involution`, `IntMath.C83_combine`
* **C84** partial — wrong for negative values: the arithmetic is unsigned: `IntMath.C84_interpolate_partial`, `IntMath.C84_exact_partial`, `IntMath.C84_negative_violated`
* **C85** proved: `IntMath.C85_signed`, `IntMath.C85_unsigned`, `IntMath.C85_other_widths`, `IntMath.C85_clamp`
* **C86** partial — exact arithmetic proved in full; integers: only without overflow, and not for unsigned types with a decreasing output range; exact definedness and value on int, exact on unsigned for increasing ranges: `RatMath.C86_end_points`, `RatMath.C86_affine`, `RatMath.C86_monotone`, `RatMath.C86_range`, `RatMath.C86_inverse`, `RatMath.C86_int_partial`, `RatMath.C86_int_violated`, `RatMath.C86_int_exact`, `RatMath.C86_unsigned_exact`
* **C87** partial — hysteresis_gate turns on at the middle of its thresholds, not at turn_on: `RatMath.C87_gate_partial`, `RatMath.C87_gate_violated`, `RatMath.C87_feedback`
* **C88** proved: `IntMath.C88_is_finite`
* **C89** proved: `IntMath.C89_unsigned`, `IntMath.C89_signed`
* **C90** proved — float overloads in exact arithmetic: `Color.C90_blend8`, `Color.C90_blend32`, `Color.C90_blend_half`, `Color.C90_blend_float`, `Color.C90_scale`, `Color.C90_equality`
* **C91** proved — ; but constructing an RGB565 from the uint16_t it converts to takes it for a 24-bit colour (exact: only 0 survives): `Color.C91_of565`, `Color.C91_rgb565`, `Color.C91_round_trip`, `Color.C91_RGB565`, `Color.C91_RGB565_float`, `Color.C91_construct_raw_exact`
* **C92** proved: `Color.C92_blend_packed`, `Color.C92_float`
* **C93** partial — operator+ saturates only on the ARM DSP target; elsewhere it wraps: `Color.C93_usat`, `Color.C93_combine`, `Color.C93_adjust`, `Color.C93_add_dsp`, `Color.C93_add_partial`, `Color.C93_add_violated`, `Color.C93_add_exact`
* **C94** proved: `HSV.C94_hsv`, `HSV.C94_hue`, `HSV.C94_ramps`
* **C95** proved: `Oscs.C95_accum`, `Oscs.C95_triangle_phase`, `Oscs.C95_triangle_value`, `Oscs.C95_process`, `Oscs.C95_frequency`, `Oscs.C95_frequency_float`, `Oscs.C95_down`, `Oscs.C95_down_terminates`
* **C96** partial — false for periods below 1000 ms (division by zero) and for fractions of a second: `Oscs.C96_set_period_ms_partial`, `Oscs.C96_set_period_sec`, `Oscs.C96_down_period`, `Oscs.C96_set_period_ms_violated`, `Oscs.C96_fraction_violated`
* **C97** proved — exact arithmetic: `Oscs.C97_oneshot`, `Oscs.C97_control`
* **C98** proved — unsigned samples: `Filter.MovingAverage.C98_moving_average`, `Filter.MovingAverage.C98_range`
* **C99** partial — SmoothOversampler's static_assert rounds log2(Size) down, so some accepted sizes overflow; everything else proved; exact value (sum modulo 2^32): `Filter.C99_oversampler`, `Filter.C99_smooth_partial`, `Filter.C99_smooth_pow2`, `Filter.C99_smooth_violated`, `Filter.C99_resizing`, `Filter.C99_resizing_misc`, `Filter.C99_smooth_exact`
* **C100** proved — exact arithmetic: `Filter.C100_hysteresis`, `Filter.C100_hysteresis_run`, `Filter.C100_quadratic`, `Filter.C100_stays`, `Filter.C100_quadratic_range_needed`
* **C101** partial — proved for non-negative phases; negative integer phases, which the comment allows, convert a negative float to unsigned; the exact range of positions for which both interpolations are defined, and what interp_wrap gives just below 0: `InterpArray.C101_by_index`, `InterpArray.C101_at_index`, `InterpArray.C101_interp`, `InterpArray.C101_wrap_index`, `InterpArray.C101_wrap_partial`, `InterpArray.C101_closest`, `InterpArray.C101_set_get`, `InterpArray.C101_negative_phase_violated`, `InterpArray.C101_wrap_exact`, `InterpArray.C101_index_exact`
* **C102** proved — exact arithmetic: `LookupTable.C102_clamps`, `LookupTable.C102_interpolates`, `LookupTable.C102_defined`, `LookupTable.C102_monotone`, `LookupTable.C102_generate`
* **C103** proved — exact arithmetic: `Calibrator.C103_calibrate`, `Calibrator.C103_inverse`, `Calibrator.C103_identity`, `Calibrator.C103_distinct_needed`
* **C104** proved — exact arithmetic: `Voct.C104_recovers_line`, `Voct.C104_two_points`, `Voct.C104_C0`, `Voct.C104_fresh`, `Voct.C104_two_notes_needed`
* **C105** partial — exact arithmetic; false for integer types (division truncates) and, for FilteredInterpArray, after 2^32 updates without a new reading (counter wraps); C105_array_exact gives the output after any number of updates, beyond 2^32 too: `InterpParam.C105_param`, `InterpParamInt.C105_int_partial`, `InterpParamInt.C105_int_violated`, `InterpParamVar.C105_var`, `InterpParamVar.C105_var_zero`, `InterpParamVariable.C105_variable`, `InterpParamVariable.C105_variable_default`, `FilteredInterp.C105_array_partial`, `FilteredInterp.C105_array_steps`, `FilteredInterp.C105_array_violated`, `FilteredInterp.C105_array_exact`
* **C106** proved: `Param.C106_parameter`, `RefParam.C106_ref`, `Latched.C106_store`, `Latched.C106_did_change`, `Latched.C106_assign`, `Latched.C106_threshold`, `Latched.C106_overflow`
* **C107** partial — false for floating-point signals that never exceed numeric_limits<float>::min(), e.g. negative ones: `Peak.C107_extremes_partial`, `Peak.C107_integers`, `Peak.C107_float_violated`, `Analyzed.C107_after_reset`, `Analyzed.C107_analyzed_partial`, `Analyzed.C107_avg_within`, `Analyzed.C107_avg_converges`, `Peak.C107_extremes_exact`
* **C108** proved: `MemTest.C108_pattern_distinct`, `MemTest.C108_check_iff`, `MemTest.C108_good`, `MemTest.C108_alias`, `MemTest.C108_bad_word`, `MemTest.C108_addresses`, `MemTest.C108_frame`
* **C109** proved: `ByteBlock.C109_print`, `ByteBlock.C109_unique`, `ByteBlock.C109_raw`
* **C110** proved: `IOBuf.C110_input`, `IOBuf.C110_output`, `IOBuf.C110_fill`
* **C111** partial — x_intersects misses containment: `RectC.C111_exact_partial`, `RectC.C111_sound`, `RectC.C111_y`, `RectC.C111_contained_violated`, `RectC.C111_asymmetric_violated`, `RectC.C111_size`, `RectC.C111_overflow`, `RectC.C111_rect`
* **C112** partial — proved for integer coordinates at most 32767 apart (int arithmetic) and in exact arithmetic; int overflows beyond, float and unsigned coordinates go wrong: `Poly.C112_iff`, `Poly.C112_rotate`, `Poly.C112_reverse`, `Poly.C112_translate`, `Poly.C112_convex`, `Poly.C112_triangle`, `Poly.C112_int`, `Poly.C112_overflow_violated`, `Poly.C112_float_int`, `Poly.C112_unsigned_exact`, `Poly.C112_float_violated`, `Poly.C112_unsigned_violated`
* **C113** proved — zip() of no containers never ends (C113_nothing): `Zip.C113_zip`, `Zip.C113_countzip`, `Zip.C113_nothing`
* **C114** partial — false once a callable is copied or assigned: the implicit copy duplicates the owning pointer; C114_exact: in every history, with copies and assignments, a callable is destroyed 1 + (times copied) - (times overwritten) times: `Owners.C114_once_partial`, `Owners.C114_copy_violated`, `Owners.C114_assign_violated`, `Owners.C114_bool`, `Owners.C114_exact`
* **C115** partial — OR() reads an uninitialised variable: `Bitfield.C115_bitfield`, `Bitfield.C115_OR_violated`, `Bitfield.C115_OR_loop_partial`
* **C116** partial — exact and binary32 arithmetic; false for 32-bit samples at full scale (undefined), for partly used types other than 24 bits, for 24-bit samples from 256 upwards, and the round trip for unsigned types: `AudioFrame.C116_sign_extend`, `AudioFrame.C116_saturates_partial`, `AudioFrame.C116_saturates_24_partial`, `AudioFrame.C116_round_trip`, `AudioFrame.C116_sample_round_trip`, `AudioFrame.C116_full_scale_32_violated`, `AudioFrame.C116_used_16_violated`, `AudioFrame.C116_used_16_float_violated`, `AudioFrame.C116_wide_24_violated`, `AudioFrame.C116_unsigned`, `AudioFrame.C116_unsigned_exact`, `AudioFrame.C116_unsigned_round_trip_violated`, `AudioFrame.C116_channels`
* **C117** partial — exact arithmetic on the decimal table entries; pow2 is undefined for negative and does not end for very large arguments; the exact domain of pow2 in exact arithmetic: `MathFns.C117_sizes`, `MathFns.C117_sin_table`, `MathFns.C117_increasing`, `MathFns.C117_tan_table`, `MathFns.C117_interp`, `MathFns.C117_pitch`, `MathFns.C117_pitch_increasing`, `MathFns.C117_freq`, `MathFns.C117_pow2`, `MathFns.C117_pow2_negative_violated`, `MathFns.C117_pow2_large_violated`, `MathFns.C117_sin01`, `MathFns.C117_pow2_exact`
* **C118** partial — holds for arguments from 0 to 2^21 periods; undefined for negative and larger ones; exact domain proved: `MathFns.C118_partial`, `MathFns.C118_quarters`, `MathFns.C118_negative_violated`, `MathFns.C118_large_violated`, `MathFns.C118_cos_close`, `MathFns.C118_tan`, `MathFns.C118_is_inf`, `MathFns.C118_domain_exact`
* **C119** partial — violated for elements wider than a byte: only the elements in the first max_size bytes are copied (exact characterisation): `Spsc.C119_span_ctor_partial`, `Spsc.C119_span_ctor_violated`, `Spsc.C119_span_ctor_exact`
* **C120** partial — violated: the constructor fills the array but leaves the stack empty; C120_exact: it behaves exactly as an empty stack: `CircStack.C120_ctor_from_values_violated`, `CircStack.C120_exact`, `CircStack.C120_size_partial`
* **C121** partial — violated after erase or clear; exactly: the slot's old value: `SequentialMap.C121_new_key_partial`, `SequentialMap.C121_stale_value_violated`, `SequentialMap.C121_new_key_exact`
* **C122** partial — violated for every absent key: dangling reference; exactly when it is defined: `SequentialMap.C122_const_read_partial`, `SequentialMap.C122_const_read_absent_violated`, `SequentialMap.C122_const_read_exact`
* **C123** partial — violated; the exact states in which a checking subscript traps: `FixedVector.C123_past_the_end_subscript_violated`, `FixedVector.C123_insert_partial`, `FixedVector.C123_erase_partial`
* **C124** proved — bipolar_type_range of an 8-byte type is 2^32-1: `IntMath.C124_ipow`, `IntMath.C124_bipolar`
* **C125** proved: `IntMath.C125_adj_diff`, `IntMath.C125_telescope`
* **C126** proved: `RatMath.C126_interpolate`, `RatMath.C126_faster_sine`
* **C127** partial — false for durations above 1000 ms and for durations not of the form 1000/f; proved for ms = 1000/f; every duration is rounded to 1000/floor(1000/ms): `RgbLed.C127_flash_partial`, `RgbLed.C127_rest`, `RgbLed.C127_fade`, `RgbLed.C127_base`, `RgbLed.C127_brightness`, `RgbLed.C127_long_flash_violated`, `RgbLed.C127_rounding_violated`, `RgbLed.C127_flash_exact`, `RgbLed.C127_fresh`
* **C128** proved: `Filter.C128_no_filter`, `Filter.C128_cascade`
* **C129** proved: `PaddedAligned.C129_size`
* **C130** proved: `Neon.C130_lanes`, `Neon.C130_load_sum`
* **C131** partial — the same owner model as C114; false for implicit copies; C114_exact gives the number of deletions for every history: `Owners.C114_once_partial`, `Owners.C114_copy_violated`, `Owners.C114_assign_violated`, `Owners.C114_exact`
* **C132** partial — int version overflows where long has 32 bits; exact condition proved: `MathFns.C132_float`, `MathFns.C132_int_partial`, `MathFns.C132_long32_violated`, `MathFns.C132_wide_violated`, `MathFns.C132_int_exact`
* **C133** partial — ranges proved in exact and binary32 arithmetic; val() advances the phase: `SineOsc.C133_range`, `SineOsc.C133_samples`, `SineOsc.C133_val_violated`, `SineOsc.C133_controls`
* **C134** proved — between-ness in exact arithmetic; end points also in binary32: `CircAccess.C134_write_blend`, `CircAccess.C134_write_reverse_blend`, `CircAccess.C134_blend_between`, `CircAccess.C14_mix`
* **C135** proved — exact arithmetic; binary32 in C139: `Accuracy.C135_sin_entries`, `Accuracy.C135_sin01`, `Accuracy.C135_sin`, `Accuracy.C135_cos`
* **C136** proved — exact arithmetic: `Accuracy.C136_exp_tables`, `Accuracy.C136_pow2`, `Accuracy.C136_pitch`
* **C137** proved — exact arithmetic: `Accuracy.C137_log_entries`, `Accuracy.C137_freq`
* **C138** partial — exact arithmetic; holds away from the pole with explicit bound, false in the two cells next to pi/2, where the table entry is -22877334: `Accuracy.C138_tan_entries`, `Accuracy.C138_tan_partial`, `Accuracy.C138_near_half_pi_violated`
* **C139** proved — exact and any round-to-nearest binary32 arithmetic, each operation rounded separately: `AccuracyFloat.C139_sin01`, `AccuracyFloat.C139_sin`, `AccuracyFloat.C139_cos`
* **C140** proved — exact and any round-to-nearest binary32 arithmetic: `AccuracyFloat.C140_sine`
* **C141** proved — exact arithmetic; F with a bounded second derivative: `LookupTable.C141_accuracy`
* **C142** partial — undefined for bytes 128 to 254 where char is signed: `Strings.C142_defined_partial`, `Strings.C142_signed_violated`, `Strings.C142_defined_exact`
* **C143** proved — binary32, any round-to-nearest rule: `FilterFloat.C143_hysteresis`, `FilterFloat.C143_quadratic`, `FilterFloat.C143_stays`, `FilterFloat.C143_smooth`
* **C144** partial — close to the line always; exact on a common grid and for FilteredInterpArray; in general the target is missed by rounding and a parameter may not move at all: `ParamsFloat.C144_close_partial`, `ParamsFloat.C144_exact`, `ParamsFloat.C144_snap`, `ParamsFloat.C144_array`, `ParamsFloat.C144_stuck_violated`
* **C145** proved — binary32, any round-to-nearest rule: `InterpFloat.C145_between`, `InterpFloat.C145_ends`, `InterpFloat.C145_monotone`, `InterpFloat.C145_close`
* **C146** partial — first argument exact, all arguments within rounding; the last may be rounded past max: `InterpFloat.C146_args_partial`, `InterpFloat.C146_outside_violated`
* **C147** partial — in bounds, exact at elements and accurate: proved; between the neighbours: fails by one unit in the last place even for equal neighbours: `InterpFloat.C147_by_index`, `InterpFloat.C147_interp`, `InterpFloat.C147_wrap`, `InterpFloat.C147_constant_violated`
* **C148** partial — round trips hold up to rounding, exactly for the asserted value but not in general: `CalibFloat.C148_monotone`, `CalibFloat.C148_reverse_adjust_partial`, `CalibFloat.C148_adjust_reverse_partial`, `CalibFloat.C148_asserts`, `CalibFloat.C148_roundtrip_violated`, `CalibFloat.C148_calibrate`
* **C149** proved — for every round-to-nearest rule: `OscsFloat.C149_process_float`, `OscsFloat.C149_ramp_one`, `OscsFloat.C149_frequency`, `OscsFloat.C149_down_period`
* **C150** partial — exact for power-of-two rates; otherwise the length has relative error up to (w*rate+3)/2^24, and at 48 kHz a 250 s pulse is more than 10 s too long and a 600 s pulse never ends: `OscsFloat.C150_pulse_partial`, `OscsFloat.C150_exact`, `OscsFloat.C150_never_ends_violated`, `OscsFloat.C150_late_violated`, `OscsFloat.C150_control`
* **C151** partial — defined, exact ends, within rounding of the mean, never above the larger channel: proved; at most one below the smaller channel, which happens: white blended with white gives 254: `ColorFloat.C151_blend_partial`, `ColorFloat.C151_scale`, `ColorFloat.C151_packed`, `ColorFloat.C151_rgb565`, `ColorFloat.C151_white_violated`
* **C152** partial — flashes equal the exact ones of C127 unless 1000/ms rounds across an integer; 1000/13 ms is shown as 1000/12 ms: `OscsFloat.C152_flash_partial`, `OscsFloat.C152_truncated_violated`, `OscsFloat.C152_long_flash_violated`, `OscsFloat.C152_breathe`
* **C153** partial — lower ends exact, order kept, accuracy bounds, interpolate3 between its arguments below phase 1; upper ends and interpolate's range fail by a unit in the last place: `MathFloat.C153_map_start`, `MathFloat.C153_map_monotone`, `MathFloat.C153_map_above`, `MathFloat.C153_map_accuracy_partial`, `MathFloat.C153_map_end_violated`, `MathFloat.C153_interpolate3`, `MathFloat.C153_interpolate3_monotone`, `MathFloat.C153_interpolate3_end_violated`, `MathFloat.C153_interpolate_ends`, `MathFloat.C153_agree_partial`, `MathFloat.C153_interpolate_violated`, `MathFloat.C153_random_partial`, `MathFloat.C153_random_violated`
* **C154** proved — for every round-to-nearest rule: `MathFloat.C154_faster_sine`
* **C155** proved — for every round-to-nearest rule; the on threshold of hysteresis_gate is the middle of its two parameters, see C87: `MathFloat.C155_gate`, `MathFloat.C155_thresholds`, `MathFloat.C155_no_chatter`, `MathFloat.C155_feedback`
* **C156** partial — always within the samples for coefficients below 1; coefficient 1 may overshoot; the average of a constant signal may stop short of it: `MathFloat.C156_avg_within`, `MathFloat.C156_coef`, `MathFloat.C156_approaches_partial`, `MathFloat.C156_outside_violated`, `MathFloat.C156_stalls_violated`
* **C157** proved — vector-clock model of happens-before; the client's own synchronisation (Act.sync) is also allowed but not needed: `PoolWeak.C157_handover`, `PoolWeak.C157_one_owner`
* **C158** partial — holds when nothing is owned, nothing else runs and all earlier accesses happen before the call; otherwise clear() races with earlier owners (it acquires nothing) and can hand out an entry twice; the exact moments: clear() while only the caller owns entries and all accesses happen before it, other threads creating behind it as it goes; a data race follows at every other moment: `PoolWeak.C158_quiescent_clear_partial`, `PoolWeak.C158_clear_races_violated`, `PoolWeak.C158_clear_concurrent_violated`, `PoolWeak.When.C158_when_exact`, `PoolWeak.When.C158_other_moments_violated`
* **C159** proved — relative error 1.7e-6 + 4.3e-8 x for pow2, 1.7e-6 for setPitchMultiple, for every round-to-nearest rule: `ExpFloat.C159_pow2`, `ExpFloat.C159_pitch`
* **C160** proved — error 2.8e-6 + 1.73/g^2 with g = max(20, x - 9.78), for every round-to-nearest rule: `ExpFloat.C160_freq`
* **C161** partial — cos_close everywhere; the tangents away from odd multiples of half pi, with an error growing like the square of the tangent; next to half pi tan has the wrong sign: `ExpFloat.C161_cos_close`, `ExpFloat.C161_tan_partial`, `ExpFloat.C161_near_half_pi_violated`
* **C162** proved — slope within 2 delta + 6 M/2^24, offset within 21 delta + 190 M/2^24, for measurements of magnitude up to M and every round-to-nearest rule: `VoctFloat.C162_voct`, `VoctFloat.C162_C0`, `VoctFloat.C162_exact`
* **C163** partial — the threshold is num/den up to two units of rounding, not exactly; both directions proved with that slack, and over all histories: `ParamsFloat.C163_store_partial`, `ParamsFloat.C163_tracks`, `ParamsFloat.C163_noise`, `ParamsFloat.C163_threshold_violated`
* **C164** proved — the transmit function's own calls are an arbitrary tree of calls: `DoubleBuf.C164_nested_is_sequential`, `DoubleBuf.C164_nested_fifo`, `DoubleBuf.C164_blocking`
* **C165** proved — steps are the accesses to the atomic flag and the calls of read_fn; C165_mixed shows that one call may mix two announcements: `FiltConc.C165_not_lost`, `FiltConc.C165_value`, `FiltConc.C165_at_most_once`, `FiltConc.C165_call`, `FiltConc.C165_not_ready`, `FiltConc.C165_mixed`
* **C166** partial — no announcement is lost if none falls between the load of the flag and the store that clears it (or if an exchange cleared it); otherwise one can be lost, because the clearing store does not read the announcement it overwrites: witness; C166_each_window_violated: a loss is possible at every such moment of every history: `FiltWeak.C166_value`, `FiltWeak.C166_in_order`, `FiltWeak.C166_recent`, `FiltWeak.C166_progress`, `FiltWeak.C166_not_lost_partial`, `FiltWeak.C166_not_lost_violated`, `FiltWeak.C166_each_window_violated`
* **C167** partial — as C05, for every capacity, up to 2^w puts or without limit for capacities dividing 2^w; exact condition as in C05 (C167_exact): `SpscWeak.C167_dyn_guarded_partial`, `SpscWeak.C167_dyn_acquire_partial`, `SpscWeak.C167_dyn_relaxed_load_races_violated`, `SpscWeak.C167_exact`
* **C168** proved — infinities are not modelled: `Neon.Float.C168_dot`, `Neon.Float.C168_lanes`
* **C169** partial — proved for Toggler; TogglerCompact keeps its flags in bit-fields of one byte, so clearing one writes back the others and an interrupt between load and store is lost; C169_compact_exact: exactly the interrupts between load and store are lost, nothing else: `TogglerIsr.C169_answers`, `TogglerIsr.C169_counts`, `TogglerIsr.Compact.C169_compact_partial`, `TogglerIsr.Compact.C169_compact_violated`, `TogglerIsr.Compact.C169_compact_exact`
* **C170** proved: `StaticString.C170_copy_self`, `StaticString.C170_copy_view_self`
* **C171** partial — holds when the difference and the number of steps are values of the type; unsigned types going down, one-byte types with the default 256 steps and differences that overflow fail: `ParamsInt.C171_reaches_partial`, `ParamsInt.C171_init`, `ParamsInt.C171_snap`, `ParamsInt.C171_down_partial`, `ParamsInt.C171_unsigned_violated`, `ParamsInt.C171_unsigned32_violated`, `ParamsInt.C171_default_steps_violated`, `ParamsInt.C171_overflow_violated`
* **C172** partial — integer elements can leave the range between old and new by one (the sum is truncated): 3 written over 3 may store 2: `CircAccess.C172_accuracy`, `CircAccess.C172_between`, `CircAccess.C172_int`, `CircAccess.C172_constant_violated`
* **C173** partial — exact for signed types whose width plus log2(Size) is at most 32, and otherwise when the sum is not negative; MovingAverage<4,int> and every signed SmoothOversampler fail on negative sums; exact values for all types and streams: `FilterInt.C173_moving_average_partial`, `FilterInt.C173_oversampler_partial`, `FilterInt.C173_smooth_partial`, `FilterInt.C173_int_violated`, `FilterInt.C173_smooth_violated`, `FilterInt.C173_moving_average_exact`, `FilterInt.C173_smooth_exact`
* **C174** partial — holds for signed types and types narrower than 32 bits; with a 32-bit unsigned type an input below the state is undefined; C174_unsigned_exact says exactly what uint32_t does going up and down: `HystInt.C174_hysteresis_partial`, `HystInt.C174_range_partial`, `HystInt.C174_unsigned_violated`, `HystInt.C174_unsigned_exact`
* **C175** partial — the value can lie one unit outside the two elements (truncation): the table {3, 3} reads 2 at some phases: `InterpInt.C175_by_index`, `InterpInt.C175_interp`, `InterpInt.C175_wrap`, `InterpInt.C175_constant_violated`
* **C176** partial — the upper end of the input range can give one less than the upper end of the output range: map_value(0.3f, 0.f, 0.3f, 0, 255) is 254; exact when the width is a power of two: `MapInt.C176_to_int_partial`, `MapInt.C176_to_int_monotone`, `MapInt.C176_wide`, `MapInt.C176_end_violated`, `MapInt.C176_of_int_partial`, `MapInt.C176_below_violated`
* **C177** partial — wrap<Max, T> on negative values reduces them as unsigned numbers: wrap<10, int>(-1) is 5; exact value for Max within the positive half of the type: `WrapInt.C177_wrap`, `WrapInt.C177_wrap_max_partial`, `WrapInt.C177_negative_violated`, `WrapInt.C177_wrap_max_exact`
* **C178** partial — sizes of half the range and more are not read back and hide the entries after them; get_node on a hostile size forms a span outside the blob (get<T> does not): exact characterisation: `CompactBinary.C178_parse_partial`, `CompactBinary.C178_get_safe`, `CompactBinary.C178_node_partial`, `CompactBinary.C178_node_violated`, `CompactBinary.C178_overflow_violated`, `CompactBinary.C178_large_violated`
* **C179** partial — holds for measurements up to 1/42 of the range of the type; larger ones can wrap (int16_t) or overflow (int): `VoctI.C179_defined_partial`, `VoctI.C179_recovers_line_partial`, `VoctI.C179_two_points_partial`, `VoctI.C179_wrap_violated`, `VoctI.C179_overflow_violated`
* **C180** partial — proved for ChangeDetector; a turn between the load and the store of use_motion() is lost (exact account), one between the two additions of add_motion() makes the counters differ: `MotionIsr.Change.C180_changed`, `MotionIsr.C180_motion_partial`, `MotionIsr.C180_motion_violated`, `MotionIsr.C180_add_partial`
* **C181** partial — holds in unsigned types; in signed types distances beyond the largest value are negative or undefined (exact characterisation), so a LatchedParam<int8_t> refuses large changes: `DiffInt.C181_distance`, `DiffInt.C181_between`, `DiffInt.C181_distance_violated`, `DiffInt.C181_threshold`, `DiffInt.C181_threshold_violated`, `DiffInt.C181_store_partial`, `DiffInt.C181_history_partial`, `DiffInt.C181_store_violated`
* **C182** partial — proved for RefParameter and LatchedParam; Parameter::isChanged() clears the flag even if it read false, so a change between its two accesses is never reported; C182_exact: the answers are right iff no change falls into such a call: `ParamIsr.C182_param_partial`, `ParamIsr.C182_param_violated`, `ParamIsr.Ref.C182_ref`, `ParamIsr.Latch.C182_latched`, `ParamIsr.C182_exact`, `ParamIsr.Latch.C182_progress`
* **C183** partial — exact arithmetic; holds if the two values differ; if they are equal the old slope is kept; C183_exact gives slope and offset after any two measurements, equal ones and an earlier C0 included: `Voct.C183_latest_partial`, `Voct.C183_equal_violated`, `Voct.C183_exact`
* **C184** partial — in bounds for every schedule; right if every item put during a get() finds two free places; with fewer, get() can miss all items, lose all of them or overcount (witnesses); the exact moments at which an interrupt may put an item, point by point of get(), and a wrong answer or count at every other moment: `CircBufIsr.C184_isr_partial`, `CircBufIsr.C184_in_bounds`, `CircBufIsr.C184_room_violated`, `CircBufIsr.When.C184_when_exact`, `CircBufIsr.When.C184_other_moments_violated`
* **C185** partial — exact for whole numbers below 2^22 and wrap<Max> up to 2^24; fractions may end up between max and max+1; large values loop for ever; C185_wrap_exact gives the result exactly: `WrapFloat.C185_wrap_max_partial`, `WrapFloat.C185_wrap_max_violated`, `WrapFloat.C185_wrap_partial`, `WrapFloat.C185_wrap_whole`, `WrapFloat.C185_wrap_violated`, `WrapFloat.C185_wrap_exact`
* **C186** partial — ResizingOversampler proved with an error bound; the other two hold for whole samples, but their accumulator is an unsigned, which drops the fractions of float samples and is undefined for negative sums: `FilterMix.C186_moving_average_partial`, `FilterMix.C186_moving_average_violated`, `FilterMix.C186_oversampler_partial`, `FilterMix.C186_oversampler_violated`, `FilterMix.C186_resizing`
* **C187** partial — Each-once is proved for every addition; balance for non-negative signed and float values, the latter with an explicit rounding term. Balance fails with negative values and, without the rounding term, for floats (both witnesses proved). The C++ sort is any sorted permutation. Infinities and NaN are not modelled.: `PartitionNum.C187_each_once`, `PartitionNum.C187_signed_partial`, `PartitionNum.C187_float`, `PartitionNum.C187_negative_violated`, `PartitionNum.C187_rounding_violated`, `PartitionNum.C187_one_part_exact`
* **C188** partial — The exact result is proved for every integer type not wider than size_t; that it interpolates, or stays at the end it is beyond, is false (witnesses proved).: `LookupInt.C188_ends_partial`, `LookupInt.C188_inside_partial`, `LookupInt.C188_exact`, `LookupInt.C188_interpolation_violated`, `LookupInt.C188_below_violated`, `LookupInt.C188_above_violated`
* **C189** partial — Exact for narrow signed clocks (an event due just before the wrap and polled after it is missed: witness); with floats the run can be early by a 2^24th part (witness). Times are finite floats.: `PollTypes.C189_narrow_partial`, `PollTypes.C189_every_tick_partial`, `PollTypes.C189_narrow_violated`, `PollTypes.C189_float`, `PollTypes.C189_float_back`, `PollTypes.C189_float_runs`, `PollTypes.C189_early_violated`
* **C190** partial — Proved for all schedules with harmless interrupts; at the other moments the loss is proved from every such state.: `DoubleBufIsr.C190_harmless_partial`, `DoubleBufIsr.C190_other_moments_violated`
* **C191** partial — Holds for finite stored values. Violated: 0*inf and 0*NaN are NaN, so a special value is never overwritten; blending an int32 through float rounds up to 2^31.: `XCirc.C191_replace_partial`, `XCirc.C191_replace_violated`, `XCirc.C191_forever_violated`, `XCirc.C191_clear`, `XCirc.C191_blend_finite`, `XCirc.C191_int32_violated`
* **C192** partial — The safe ranges are proved exactly; outside them the functions are undefined.: `XTable.C192_lookup`, `XTable.C192_lookup_nan_violated`, `XTable.C192_lookup_width_violated`, `XTable.C192_lookup_empty`, `XTable.C192_interp`, `XTable.C192_interp_violated`, `XTable.C192_trig`, `XTable.C192_pitch`, `XTable.C192_freq`, `XTable.C192_nan_violated`, `XTable.C192_pow2`, `XTable.C192_pow2_special_violated`, `XTable.C192_pow2_minus_violated`, `XTable.C192_pow2_large_violated`
* **C193** partial — Safe for finite samples within the range of C143; the oversampler and the extremes recover. Violated for the recursive filters.: `XFilter.C193_poisoned_violated`, `XFilter.C193_overflow_violated`, `XFilter.C193_finite`, `XFilter.C193_block`, `XFilter.C193_finishes`, `XFilter.C193_size_zero_violated`, `XFilter.C193_reset`, `XFilter.C193_analyser_violated`, `XFilter.C193_extremes_nan`, `XFilter.C193_peaks`
* **C194** partial — Exact on the non-NaN floats or on the stated finite ranges; violations proved beside.: `XMath.C194_constrain`, `XMath.C194_constrain_violated`, `XMath.C194_max_min`, `XMath.C194_max_min_violated`, `XMath.C194_between`, `XMath.C194_between_finite`, `XMath.C194_between_violated`, `XMath.C194_abs`, `XMath.C194_diff`, `XMath.C194_diff_violated`, `XMath.C194_interpolate`, `XMath.C194_interpolate3_violated`, `XMath.C194_ends_violated`, `XMath.C194_map`, `XMath.C194_map_violated`, `XMath.C194_sine`, `XMath.C194_sine_violated`, `XMath.C194_gates`, `XMath.C194_schmitt`, `XMath.C194_schmitt_inf`
* **C195** partial — Exact for non-NaN values (Parameter, RefParameter) and for magnitudes up to 2^100 (interpolated); special values are proved to be absorbing.: `XParam.C195_param`, `XParam.C195_param_violated`, `XParam.C195_ref`, `XParam.C195_ref_violated`, `XParam.C195_latch`, `XParam.C195_latch_violated`, `XParam.C195_interp_violated`, `XParam.C195_interp`, `XParam.C195_snap`, `XParam.C195_zero_updates_violated`
* **C196** partial — Defined exactly as in C116 for finite floats; NaN always undefined.: `XAudio.C196_finite`, `XAudio.C196_infinite`, `XAudio.C196_violated`
* **C197** partial — Agreement with C149-C152 on finite floats; special values characterised completely for each function.: `XAudio.C197_finite`, `XAudio.C197_blend`, `XAudio.C197_violated`, `XAudio.C197_shot`, `XAudio.C197_shot_violated`, `XAudio.C197_shot_nan`
* **C198** partial — Exact agreement with C148 in the stated range; the useless calibrations are characterised.: `XCalib.C198_finite`, `XCalib.C198_violated`, `XCalib.C198_special`
* **C199** partial — Refinement of the finite model over all histories, recovery of the slope proved from every reachable state; the offset does not recover.: `XCalib.C199_finite`, `XCalib.C199_recovers`, `XCalib.C199_offset_violated`, `XCalib.C199_slope_violated`
* **C200** partial — Loop-for-loop agreement with C185 on finite floats; non-termination for infinities.: `XWrap.C200_max`, `XWrap.C200_max_violated`, `XWrap.C200_wrap`, `XWrap.C200_wrap_violated`, `XWrap.C200_overflow_violated`
* **C201** partial — Exact characterisation for both maps; the documented rule for SequentialMap::erase is the wrong way round, and duplicate keys detach a SeqMap pointer.: `SeqMap.C201_seqmap_pointer_exact`, `SeqMap.C201_seqmap_pointer_partial`, `SeqMap.C201_seqmap_pointer_violated`, `SeqMap.C201_seqmap_fresh_pointer`, `SeqMap.C201_seqmap_init`, `SeqMap.C201_seqmap_evicted`, `SequentialMap.C201_erase_exact`, `SequentialMap.C201_erase_comment_violated`, `SequentialMap.C201_index_exact`
* **C202** partial — Exact content of the whole array for every history; removed elements stay alive.: `FixedVector.C202_objects_exact`, `FixedVector.C202_live`, `FixedVector.C202_removed_violated`
* **C203** partial — C203_history is the exact answer for every history; the last sentence of the statement holds if power never fails between an erase and the write that follows it and never during an erase (C203_last_partial), and is violated otherwise: nothing is left after a failure in that window (C32), and an older record comes back after a failure during the erase (C203_torn_erase_violated): `WearLevel.Crash.C203_history`, `WearLevel.Crash.C203_last_partial`, `WearLevel.Crash.C203_torn_erase_violated`
* **C204** partial — accesses are in bounds in every schedule. The answers are right if an interrupt inside put() takes an item only while there are fewer than N items and, between the arrival of the new item and the comparison of the indices, only if it leaves one; otherwise wrong (three witnesses). The header says that producer and consumer must not interrupt each other: this is what happens if they do. C184 is the mirror case.; for buffers of at least two places the moments at which taking an item is harmless are determined exactly: Spec/CircBufWhen.lean, where a put into a full buffer drops and adds at two moments; at every other moment, after every history, a wrong result follows.: `CircBufTake.C204_in_bounds`, `CircBufTake.C204_answers_partial`, `CircBufTake.C204_emptied_violated`, `CircBufTake.C204_full_violated`, `CircBufTake.C204_filled_violated`, `CircBufTake.When.C204_when_exact`, `CircBufTake.When.C204_other_moments_violated`
* **C205** partial — C205_exact decides every case: defined (and then right) if and only if the spare capacity is at least the number of tokens (delimiters in the vector), or of tokens followed by a delimiter (text in the vector); violated otherwise. A std::string that is moved away counts as gone, as in the standard; an implementation may keep its characters where they are.: `TokenAlias.C205_exact`, `TokenAlias.C205_view_violated`, `TokenAlias.C205_delims_violated`
* **C206** partial — Calls are defined exactly if there is an object or a non-null function at the bottom of any nesting (C206_exact); for objects the answers are those of the object with its state handed from call to call. False in full: a Function made from a null function pointer, and a larger one made from an empty smaller one, test true and cannot be called; and only the size of a callable is checked, so one that needs an alignment of more than 8 is accepted and can be misaligned (alignments dividing 8 are always met, and no others).: `Callable.C206_exact`, `Callable.C206_object_partial`, `Callable.C206_callable_tests_true`, `Callable.C206_null_violated`, `Callable.C206_empty_violated`, `Callable.C206_aligned_exact`, `Callable.C206_overaligned_violated`
* **C207** partial — The _exact theorems say for every overlap what arrives where, the position and the answer; the _when theorems say exactly in which cases it is a copy of what was there before: forward unless the destination begins inside the source, 0 < d < n places behind its beginning; reversed if n is at most half the distance plus one. False in full: the loops do not look for overlap (C207_write_violated).: `CircAccess.C207_read_exact`, `CircAccess.C207_read_when`, `CircAccess.C207_read_reverse_exact`, `CircAccess.C207_read_reverse_when`, `CircAccess.C207_write_exact`, `CircAccess.C207_write_when`, `CircAccess.C207_write_blend_partial`, `CircAccess.C207_write_reverse_exact`, `CircAccess.C207_write_reverse_when`, `CircAccess.C207_write_reverse_blend_partial`, `CircAccess.C207_write_violated`
* **C208** partial — What the inherited members do is characterised exactly; what register_state of a debouncer and process of a trigger do is C63 and C68. False in full: process on a Debouncer is Toggler's and does not debounce (n bounces are n presses); on a DebouncerCounter it does not count either; register_state on a SchmittTrigger converts the value to bool and ignores the thresholds.: `Debouncer.C208_process_exact`, `Debouncer.C208_process_violated`, `DebouncerCounter.C208_counter_violated`, `Schmitt.C208_register_violated`
* **C209** partial — Copying and updating are without effect. False in full: transfer_motion to itself moves the position once more, add_motion to itself moves it twice as far as adding a copy, and transfer_events to itself loses all events; what happens instead is given exactly.: `Rotary.C209_transfer_exact`, `Rotary.C209_add_exact`, `Rotary.C209_transfer_violated`, `Toggler.C209_copy_update`, `Toggler.C209_transfer_violated`, `TogglerCompact.C209_compact_transfer_violated`
* **C210** partial — Holds for interrupts outside the call. False in full: an interrupt between restarting the flasher and setting its speed moves the new flash at the speed of the one before, and on a fresh LED loses it altogether; an interrupt late in fade_once_ms shows the unfaded colour. The state after every schedule of interrupts in flash_once_ms is given exactly.: `RgbLed.C210_calls`, `RgbLed.C210_outside_partial`, `RgbLed.C210_state_exact`, `RgbLed.C210_lost_violated`, `RgbLed.C210_shown`, `RgbLed.C210_glitch_violated`, `RgbLed.C210_fade_exact`
* **C211** partial — Right for integer values and distances that are int32_t values and values of the type, and for whole-number floats. False in full: only the lowest 32 bits of wider types count, unsigned types wrap below the centre, floats lose their fraction (always by less than 1) and are undefined beyond the int32_t range.: `PlateauT.C211_int_partial`, `PlateauT.C211_low_bits`, `PlateauT.C211_wide_violated`, `PlateauT.C211_unsigned_violated`, `PlateauT.C211_float_partial`, `PlateauT.C211_float_within`, `PlateauT.C211_float_violated`, `PlateauT.C211_float_range`
* **C212** partial — Values are right through every history. False in full for the change flags: an assignment copies the other's flag, so a change is lost if the other's has been reported and one is invented if the values are equal but the other's has not; the exact condition under which an assignment is right is given, and histories of such assignments answer rightly throughout.: `ParamCopy.C212_value`, `ParamCopy.C212_faithful_partial`, `ParamCopy.C212_assign_exact`, `ParamCopy.C212_lost_violated`, `ParamCopy.C212_spurious_violated`, `ParamCopy.C212_latched_violated`
* **C213** partial — If sizes do not depend on the state the result is the encoding of one description with the values of each callable's last run, and measure is right. False in full: a callable inside n sub-objects is invoked n + 1 times, not twice, and one whose data sizes change between runs leaves a wrong size that hides the entries after it.: `CompactState.C213_steady_partial`, `CompactState.C213_stateless`, `CompactState.C213_invocations_exact`, `CompactState.C213_size_violated`
* **C214** partial — True of went_high and went_low for any updates, of 'yes' from changed and 'no' from staying_high/low. False of the others: an input that toggles at every update is reported as unchanged, or as staying, if an odd number of updates comes during the call; exact conditions proved. With reset() in the interrupt went_low can be answered for an input that was always high. Assumes two loads per query.: `EdgeIsr.C214_quiet`, `EdgeIsr.C214_edges`, `EdgeIsr.C214_others_partial`, `EdgeIsr.C214_changed_exact`, `EdgeIsr.C214_changed_violated`, `EdgeIsr.C214_staying_exact`, `EdgeIsr.C214_staying_violated`, `EdgeIsr.C214_reset_violated`
* **C215** partial — False for force_next_poll called while a poll has decided to sample and not stored its time: the store overwrites it. Outside of this window the next poll samples exactly if its time is at least the period. Assumes loads and stores as in the source, sequentially consistent.; C215_force_exact: in that window the call changes nothing at all: `PollIsr.C215_owed`, `PollIsr.C215_count`, `PollIsr.C215_found`, `PollIsr.C215_alone`, `PollIsr.C215_force_partial`, `PollIsr.C215_force_violated`, `PollIsr.C215_force_exact`
* **C216** proved — With a positive period; with period 0 an action that polls with itself as action never ends (same theorem).: `PollNest.C216_nested`, `PollNest.C216_self`
* **C217** partial — Exact conditions: it ends unless the last, possibly partial word reaches the end of the 32-bit address space (then the pointer starts again at 0 and all memory is overwritten for ever); it writes up to three bytes behind a region whose length is no multiple of 4.: `MemTestTop.C217_ends_exact`, `MemTestTop.C217_ends_violated`, `MemTestTop.C217_region_partial`, `MemTestTop.C217_region_exact`, `MemTestTop.C217_region_violated`, `MemTestTop.C217_same`
* **C218** partial — False in one point: a plain colour does not switch off bold or blinking from before, so Red after BoldBlue is bold red; exactly what is in force is proved. The terminal is a specification (the part of ECMA-48 these constants use).: `TermCodes.C218_display`, `TermCodes.C218_normal`, `TermCodes.C218_color_exact`, `TermCodes.C218_plain_partial`, `TermCodes.C218_plain_violated`
* **C219** proved — Samples are 0 or 1 (for others see the entry about register_state arguments).: `Debouncer.Bounce.C219_once`, `Debouncer.Bounce.C219_count`, `Debouncer.Bounce.C219_counter`, `Debouncer.Bounce.C219_default`, `Debouncer.Bounce.C219_limits_sharp`
* **C220** partial — Exactly: a step is reported when the shaft arrives at a detent by three quarter steps or more without turning round. The full statement holds if the shaft never turns back from the last quarter before the next detent. Otherwise a step can be lost (bounce of the last contact) or invented (turning back three quarters), without limit.: `Quad.Shaft.C220_exact`, `Quad.Shaft.C220_tracks_partial`, `Quad.Shaft.C220_sum_partial`, `Quad.Shaft.C220_bounce_violated`, `Quad.Shaft.C220_drift_violated`
* **C221** proved — The bound without initial values is reached by five values in two parts (C221_reached). Values are unsigned; lists longer than MaxElements: see the entry about each element being assigned once.: `Partition.Best.C221_near_best`, `Partition.Best.C221_initial`, `Partition.Best.C221_reached`
* **C222** partial — Stuck and touching lines are found in every range of at least eight and nine words (the least numbers). A single stuck cell is found exactly if its word of the pattern has the other value there, and a disturbance exactly if the disturbed word comes before: each word is written once only.: `MemTest.Faults.C222_read_exact`, `MemTest.Faults.C222_stuck_line`, `MemTest.Faults.C222_shorted_lines`, `MemTest.Faults.C222_least`, `MemTest.Faults.C222_stuck_cell_exact`, `MemTest.Faults.C222_stuck_cell_violated`, `MemTest.Faults.C222_coupled_exact`, `MemTest.Faults.C222_coupled_violated`
* **C223** proved — The bounds 6, 16 and 2 are reached (C223_reached).: `HSV.C223_hue`, `HSV.C223_round`, `HSV.C223_value_saturation`, `HSV.C223_reached`
* **C224** proved — Exact arithmetic; the rounding of binary32 is the subject of C145 and C147.: `InterpArray.C224_wrap`, `InterpArray.C224_phase`, `InterpArray.C224_interp`, `LookupTable.C224_lookup`, `LookupTable.C224_approximates`, `LookupTable.C224_approximates_sharp`
* **C225** proved — An error of 1/18 is reached at x = 11/12.: `RatMath.C225_close`, `RatMath.C225_reached`, `MathFloat.C225_float`
* **C226** partial — Partial: the quadratic filter does not reach its input. In exact arithmetic the distance after n samples is at most D*e/(D+n*e) but never 0; in binary32 it comes to rest where the square of the distance is about divisor*2^(m-25), e.g. for ever half a unit off at 2048 (divisor 4096).: `Filter.C226_average_response`, `Filter.C226_average_slew`, `Filter.C226_average_monotone`, `Filter.C226_oversampler`, `Filter.C226_oversampler_sharp`, `Filter.C226_quadratic`, `Filter.C226_quadratic_never`, `Filter.C226_hysteresis`, `FilterFloat.C226_quadratic_float_partial`, `FilterFloat.C226_hysteresis_float_partial`, `FilterFloat.C226_quadratic_float_violated`
* **C227** proved — The comparisons of floats are exact, so rationals stand for any finite floats.: `Schmitt.C227_events`, `Schmitt.C227_triggers`, `Schmitt.C227_ramp`, `Schmitt.C227_sharp`
* **C228** proved — Interleaving models of C01 and C157; that each atomic operation itself is one step (lock-free hardware atomics; no retry loop inside a compare-exchange) is an assumption.: `Spsc.C228_producer`, `Spsc.C228_consumer`, `Spsc.C228_index`, `PoolWeak.C228_pool`
* **C229** proved — Cycles are counted as falls of the value (`Spec/LongRun.lean`).: `Oscs.C229_cycles`, `Oscs.C229_frequency`, `Oscs.C229_cycle_length`, `Oscs.C229_repeats`, `Oscs.C229_all_values`, `Oscs.C229_in_step`
* **C230** partial — Partial because the code violates it for an unguarded get() (relaxed load of head_, as C05): `C230_unguarded_violated`. `C230_too_few` shows that capacity + 2 is the least number of buffers.: `HandOver.C230_once_partial`, `HandOver.C230_ring_partial`, `HandOver.C230_announced`, `HandOver.C230_dyn_ring_partial`, `HandOver.C230_too_few`, `HandOver.C230_unguarded_violated`
* **C231** proved — The rules the clients keep are in `Spec/PoolSignal.lean`, read off the observed events. The two negative theorems show that the rules cannot be relaxed to `is_used() == true` or to other threads.: `PoolSignal.C231_done`, `PoolSignal.C231_false_means_done`, `PoolSignal.C231_owner_is_told`, `PoolSignal.C231_true_is_no_licence`, `PoolSignal.C231_only_for_the_creator`
* **C232** proved — Release/acquire model of Model/SpscWeak.lean, now with num_free(). Holds for the code as written (relaxed load of head_ in get) and for the acquire variant. reset() is excluded: it drops announced items (C232_reset_drops_items).: `SpscWeak.C232_promises`, `SpscWeak.C232_dyn_promises`, `SpscWeak.C232_put_accepted`, `SpscWeak.C232_reset_drops_items`
* **C233** partial — Proved for each thread's view separately (all its own answers together with the other thread's successful transfers), for both together if one side only learns of success, and for interleavings on one core. Violated for both together on weak memory: 'full' told to the producer and 'empty' told to the consumer contradict each other.: `SpscWeak.C233_views_partial`, `SpscWeak.C233_dyn_views_partial`, `SpscWeak.C233_one_sided_partial`, `Spsc.C233_interleaved_partial`, `SpscWeak.C233_both_violated`
* **C234** partial — Violated by all but get_move and SeqMap::remove, which do give the element up. For the others it is proved exactly which objects are held: the circular buffers and the stack through any history, the FIFO exactly the last 2^k accepted items.: `CircBuf.C234_buffer_exact`, `CircBuf.C234_buffer_last_partial`, `CircBuf.C234_buffer_violated`, `CircStack.C234_stack_exact`, `CircStack.C234_stack_violated`, `Spsc.C234_fifo_partial`, `Spsc.C234_fifo_get_move`, `Spsc.C234_fifo_violated`, `Pool.C234_pool_violated`, `SeqMap.C234_map_remove`, `SeqMap.C234_map_remove_last_violated`
* **C235** partial — The first sentence is proved. The second is false: in a pool of any size a create() can fail although at no time more than one entry is in use.: `TsPool.Size.C235_demand`, `TsPool.Size.C235_in_use_alone_violated`
* **C236** partial — Proved for every == that is an equivalence among the keys used: all StaticStrings, all floats but NaN. A NaN key is accepted but never found again.: `SeqMap.Keys.C236_seqmap`, `SeqMap.Keys.C236_seqmap_identity`, `SeqMap.Keys.C236_seqmap_overwrite_get`, `SequentialMap.Keys.C236_sequential_map`, `MapKeys.C236_float_classes`, `MapKeys.C236_string_classes`, `SeqMap.Keys.C236_seqmap_nan_violated`, `SequentialMap.Keys.C236_sequential_map_nan_violated`
* **C237** partial — Proved for all histories in which set_num_updates, once readings have been taken, only lowers the number, and fewer than 2^32 updates pass between readings; otherwise the output overshoots. Exact rationals.: `FilteredInterp.C237_hull_partial`, `FilteredInterp.C237_readings_partial`, `FilteredInterp.C237_raise_violated`, `FilteredInterp.C237_lower_raise_violated`
* **C238** partial — hysteresis_feedback: proved, and the bound is sharp. hysteresis_gate keeps out only half of the noise its documented thresholds promise. Exact rationals (binary32: C155).: `GateNoise.C238_feedback`, `GateNoise.C238_feedback_sharp`, `GateNoise.C238_gate_partial`, `GateNoise.C238_gate_violated`
* **C239** proved — Bodies are sequences of assignments through the tuple's references; bodies that resize a container are outside (they invalidate the iterators).: `ZipWrite.C239_rows`, `ZipWrite.C239_transform`
* **C240** partial — Holds exactly if the vector has room for all but the last byte; otherwise the pointer is used after the bytes have moved.: `ByteSelf.C240_exact_partial`, `ByteSelf.C240_copy`, `ByteSelf.C240_full_violated`
* **C241** partial — Proved: the round trip for every description that fits into memory, get<T> on any bytes, and that sizes no wider than size_t behave as in C46. Violated: get_size and get_node cut a stored size to size_t, so a truncated or corrupt entry looks complete.: `CompactBinary.C241_narrow`, `CompactBinary.C241_parse`, `CompactBinary.C241_get_partial`, `CompactBinary.C241_size_violated`
* **C242** partial — Exact for both kinds of coordinates; correct for turns that fit into 32 bits (int64_t) and for whole-numbered float coordinates at most 2896 apart. Violated for larger polygons, and for float polygons smaller than 1.: `PolyTypes.C242_long_exact`, `PolyTypes.C242_long_partial`, `PolyTypes.C242_long_violated`, `PolyTypes.C242_float_exact`, `PolyTypes.C242_float_partial`, `PolyTypes.C242_float_violated`
* **C243** partial — Proved for all counts whose rounding is representable; exact condition for null and for blocks that are too small. Violated: an exhausted heap yields a null pointer instead of an exception, and a wrapped byte count is granted, so that two containers share memory.: `AlignHeap.C243_blocks_partial`, `AlignHeap.C243_null_exact`, `AlignHeap.C243_fits_exact`, `AlignHeap.C243_exhausted_violated`, `AlignHeap.C243_overflow_violated`
* **C244** partial — Proved for one to three numbers up to 255, with or without a pre-release suffix. Violated outside: a number above 255 counts as 0, a fourth number is ignored, pre-releases of one version are equal, and a suffix with a dot is not recognised.: `Version.C244_order_partial`, `Version.C244_zeros`, `Version.C244_order_violated`
* **C245** partial — Proved for every program that does not read an accumulator again after vmlaq_f32 unless it was assigned, and takes no maximum of NaN and a number in this order (exact condition for one maximum). Violated: vmlaq_f32 changes its first argument, and a NaN erases a running maximum. The sign of zero is not modelled.: `XNeon.C245_programs_partial`, `XNeon.C245_in_place`, `XNeon.C245_max_exact`, `XNeon.C245_peak_partial`, `XNeon.C245_accumulator_violated`, `XNeon.C245_peak_violated`
* **C246** partial — Proved (64-bit long): each value below the upper bound is drawn by RAND_MAX/(hi-lo) results, or one more. Violated: the upper bound is drawn by one result only, so randomNumber(0, 1) is practically always 0; and on the ARM targets randomNumber<uint32_t> returns only lo, lo+1 and lo+2.: `RandomDraw.C246_fair_partial`, `RandomDraw.C246_upper_violated`, `RandomDraw.C246_unsigned64`, `RandomDraw.C246_unsigned32_exact`, `RandomDraw.C246_unsigned32_violated`
* **C247** partial — Proved for FixedVector push_back and resize, CircularStack push_back, CircularBuffer put and get, CircularBufferOpt put, SeqMap insert. Violated, with the exact state left: FixedVector erase and insert (elements lost and doubled), the functions that remove before they copy (pop_back of both, CircularBufferOpt get: the element is lost), SeqMap overwrite (the new key with the value of the evicted one), SequentialMap operator[] (one more entry, with a stale key), Pool create (an entry leaks).: `Throwing.C247_strong_partial`, `Throwing.C247_agrees`, `Throwing.C247_erase_violated`, `Throwing.C247_insert_violated`, `Throwing.C247_pop_violated`, `Throwing.C247_overwrite_violated`, `Throwing.C247_index_violated`, `Throwing.C247_create_violated`, `Throwing.C247_map_pool_agree`
* **C248** partial — Proved: every schedule amounts to calls one after another, in which exactly the phases (widths) stored between an update's load and store are missing; frequencies are never lost; val() is right exactly if both reads fall in the same half. Violated: a hard sync, start() or stop() in that window is lost; a frequency set between DownCounter's comparison and subtraction makes the counter wrap to nearly its maximum; val() of the triangle is 0 at its peak if the phase passes the middle between its reads.: `OscIsr.C248_accum_exact`, `OscIsr.C248_accum_partial`, `OscIsr.C248_phase_violated`, `OscIsr.C248_val_exact`, `OscIsr.C248_val_violated`, `OscIsr.C248_down_partial`, `OscIsr.C248_down_violated`, `OscIsr.C248_oneshot_exact`, `OscIsr.C248_oneshot_violated`
* **C249** partial — Proved for push_back, resize, pop_back, clear, insertion and erasure at the end; SeqMap insert, remove_last and overwrite of a key already there. For the rest it is proved exactly what is seen: during an insertion one element twice and the last missing; during an erasure some elements twice; a new key first with a stale value or that of the key it throws out; other keys undisturbed. Violated for those.: `ReadIsr.C249_vector_ends`, `ReadIsr.C249_vector_partial`, `ReadIsr.C249_insert_exact`, `ReadIsr.C249_insert_seen`, `ReadIsr.C249_erase_exact`, `ReadIsr.C249_erase_one_exact`, `ReadIsr.C249_erase_seen`, `ReadIsr.C249_vector_violated`, `ReadIsr.C249_map_ends`, `ReadIsr.C249_map_partial`, `ReadIsr.C249_overwrite_others_partial`, `ReadIsr.C249_overwrite_full_exact`, `ReadIsr.C249_overwrite_append_exact`, `ReadIsr.C249_remove_partial`, `ReadIsr.C249_map_violated`, `ReadIsr.C249_sequential_exact`
* **C250** partial — Proved: what the array holds after each store; a string whose last byte is NUL to begin with (static storage) never lets a reader overrun, through any history of calls; over an older text at least as long the reader sees the first j characters of the new and the rest of the old; over a shorter one it sees the bytes behind the old text, and overruns exactly if there is no NUL among them. Violated: mixtures are read, and a default-constructed string on the stack or heap can be read past its end.: `StringIsr.C250_copy_exact`, `StringIsr.C250_ends`, `StringIsr.C250_static_partial`, `StringIsr.C250_mixed_exact`, `StringIsr.C250_longer_exact`, `StringIsr.C250_clear`, `StringIsr.C250_violated`
* **C251** partial — Proved: exactly which interrupts are harmless. MonotonicAllocator: those in the first gap after which the request still fits; none that gets a byte later. Pool: any calls at any moment but a create() between the main program's test of the flag and its store; interrupts that only create get the same entry exactly if one comes there. Violated in each of these windows.: `AllocIsr.C251_mono_exact`, `AllocIsr.C251_mono_refused`, `AllocIsr.C251_mono_violated`, `AllocIsr.C251_pool_partial`, `AllocIsr.C251_pool_sound_exact`, `AllocIsr.C251_pool_exact`, `AllocIsr.C251_pool_violated`, `AllocIsr.C251_pool_alone`
* **C252** partial — Proved: after an interrupted update() min and max are right exactly if no smaller sample falls between the comparison with min and its store, and no greater one between the comparison with max and its store; during reset() samples count for min and not for max. Violated in those windows.: `MeterIsr.C252_update_exact`, `MeterIsr.C252_update_partial`, `MeterIsr.C252_reset_exact`, `MeterIsr.C252_violated`
* **C253** partial — Proved: the oversamplers show the average of before or after; the MovingAverage in between shows the average with its oldest sample counted as 0; after reset() the samples of the open block stay in the sum while the count is 0; after set_size() a block may hold more samples than it is divided by. Violated in these cases. set_size() when the open block is already long enough is modelled with all its windows, but shown only equal to the plain call without interrupts. C253_shrink_exact gives the same for a set_size() that cuts a block short, with samples at each of its six moments.: `FilterIsr.C253_read_partial`, `FilterIsr.C253_average_exact`, `FilterIsr.C253_reset_exact`, `FilterIsr.C253_reset_partial`, `FilterIsr.C253_set_size_exact`, `FilterIsr.C253_violated`, `FilterIsr.C253_shrink_exact`, `FilterIsr.C253_shrink_violated`
* **C254** partial — Proved exactly: it holds if d and the items accepted since the call read the write position (including that of a put that has already found room) are together at most max_size(); otherwise the next get() returns the item written max_size() puts after the one asked for. Not covered: a producer inside num_free() or full() at the moment of the store; weak memory.: `Spsc.C254_rewind_partial`, `Spsc.C254_rewind_overwritten`, `Spsc.C254_violated`
* **C255** partial — Holds for put() and get_move(). get() loses the oldest item if making its result throws. resize() that throws leaves the FIFO empty, and when it was to shrink also without memory although max_size() is unchanged, so the next put() writes outside the vector. Without exceptions the calls are those of C01.: `ThrowFifo.C255_strong_partial`, `ThrowFifo.C255_get_exact`, `ThrowFifo.C255_resize_exact`, `ThrowFifo.C255_violated`, `ThrowFifo.put_agrees`, `ThrowFifo.get_agrees`, `ThrowFifo.resize_agrees`, `ThrowFifo.C255_dyn_strong_partial`, `ThrowFifo.getMove_agrees`, `ThrowFifo.putDyn_agrees`
* **C256** proved — C256_end_exact says what a store at end() itself does: the terminator is gone and the bytes behind it join the text, or reading runs out of the array. The equality with the string_view constructor needs a capacity above zero (C21).: `StringRange.C256_visits`, `StringRange.C256_edit`, `StringRange.C256_edit_all`, `StringRange.C256_stores`, `StringRange.C256_end_exact`, `StringRange.C256_of_std`, `StringRange.C256_round_trip`
* **C257** partial — Proved exactly in exact arithmetic: it holds if and only if the slope or the offset stays the same (or the slope in use is zero); otherwise the mixture is off by the slope times the change of the offset. A V/oct measurement on the line already known changes nothing at any moment. Not covered: rounding, which may hide a mixture.: `CalibIsr.C257_adjust_iff_partial`, `CalibIsr.C257_adjust_exact`, `CalibIsr.C257_reverse_exact`, `CalibIsr.C257_across_iff`, `CalibIsr.C257_reverse_across`, `CalibIsr.C257_chan_exact`, `CalibIsr.C257_voct_same_line`, `CalibIsr.C257_violated`, `CalibIsr.C257_voct_violated`, `CalibIsr.steps_final`, `CalibIsr.voct_final`
* **C258** partial — The state left by an exception is given exactly. An exception from an element leaves the elements before it waiting: they are sent in front of the next word. An exception from the transmit function leaves the stream as if a transmission were under way: no later transmit() starts one until tx_done_callback() is called, which drops the word. It holds while a transmission is under way and for an exception before the first element is complete. Without exceptions the calls are those of C75.: `ThrowStream.C258_transmit_exact`, `ThrowStream.C258_transmit_partial`, `ThrowStream.C258_done_exact`, `ThrowStream.C258_violated`, `ThrowStream.transmit_agrees`, `ThrowStream.done_agrees`
* **C259** proved — The loop that always advances leaves, besides, the element right after each one it removed: given exactly. Appending in a range-for is safe because end() is taken once and the storage does not move. The loops themselves are user code, written in the model on top of the calls.: `VecLoops.C259_erase_if`, `VecLoops.C259_erase_advancing_exact`, `VecLoops.C259_erase_downward`, `VecLoops.C259_append`, `VecLoops.C259_insert_sorted`
* **C260** proved — The reference is an index that is read where the code reads it. In a full SequentialMap m[a] = m[b] is still the read followed by the assignment (which replaces the last entry, C28). In m[a] = m[b] the right operand is evaluated first, as C++17 says.: `SeqMap.C260_overwrite_with_own_value`, `SeqMap.C260_insert_own_value`, `SequentialMap.C260_assign_own_value`, `SequentialMap.C260_assign_exact`, `SequentialMap.C260_erase_loop`
* **C261** partial — Each object remembers its own position. It holds as long as nobody erases the block, and for ever if each object is constructed anew before it writes. After an erase by one object, another one that stands further up writes above it, and everything the first one writes below is lost at the next restart. Storage without faults, as in C29-C33.: `WearLevel.C261_shared_partial`, `WearLevel.C261_fresh_partial`, `WearLevel.C261_shared_violated`
* **C262** proved — get_size may already return the size of data that is not there (an example beside C262_size_cut). The data are at most as long as size_t can count, with room for one more value or node. An entry with the same key further on is never taken instead.: `CompactBinary.C262_get_cut`, `CompactBinary.C262_get_mono`, `CompactBinary.C262_node_cut`, `CompactBinary.C262_written_or_nothing`, `CompactBinary.C262_path_cut`, `CompactBinary.C262_small_buffer`, `CompactBinary.C262_size_cut`
* **C263** partial — Full statement violated: begin_object stores the size 0 until end_object patches it, so an object not ended reads as empty and its entries are taken for entries of the level above (C263_open_exact gives the exact bytes, C263_open_violated a key found on the wrong level). Proved: keys among the entries before the first open object.: `CompactBinary.C263_open_exact`, `CompactBinary.C263_before_partial`, `CompactBinary.C263_open_violated`
* **C264** partial — Full statement violated: objects beyond MaxDepth keep the size 0 (C264_deep_exact gives the exact bytes), so their entries read as entries of the object around them (C264_deep_violated). Proved: memory, size(), and all fields under paths of at most MaxDepth keys, however deep other parts are. C264_any_calls: the exact bytes after any sequence of calls, also unbalanced ones.: `CompactBinary.C264_deep_exact`, `CompactBinary.C264_size`, `CompactBinary.C264_enough`, `CompactBinary.C264_shallow_partial`, `CompactBinary.C264_deep_violated`, `CompactBinary.C264_any_calls`
* **C265** proved — One thread, as clear() requires (C158 for others). An assignment that throws leaves its target as it was (as in C247).: `Throwing.TsP.C265_clear_exact`, `Throwing.TsP.C265_again`
* **C266** proved — Steps are accesses to shared memory, in the models that the other properties about these classes and interrupts use. Under weak memory the FilteredInterpArray has C166_progress; the thread-safe pool has C228. For circular buffers (C266_circular, seven steps) the size is a power of two, as the headers require.: `NoWait.C266_motion`, `NoWait.C266_change`, `NoWait.C266_toggler`, `NoWait.C266_compact`, `NoWait.C266_param`, `NoWait.C266_osc`, `NoWait.C266_readings`, `CircBufIsr.C266_circular`
* **C267** proved — Ties the models with interrupts to the models the sequential properties are about. For RotaryMotion the sums have to be in the range of int, as otherwise the whole call is undefined.: `Alone.C267_motion`, `Alone.C267_change`, `Alone.C267_toggler`, `Alone.C267_compact`, `Alone.C267_param`, `Alone.C267_osc`, `Alone.C267_meter`, `Alone.C267_readings`, `Alone.C267_circular`

## 5. Where the code disagrees with the property
Each is proved by a `_violated` theorem (or a named counterexample theorem) with a concrete witness.
* C05: `get()` reads `head_` with relaxed order: an item slot can be read while it is being written. Reading with acquire order, or guarding `get()` with `num_filled()`, removes the race.
* C06: a `reset()` by the producer during a `get()` makes the FIFO hand out items twice.
* C08: with a capacity that does not divide 2^w the run-time sized FIFO misplaces items after 2^w puts.
* C13, C17, C119: `memset`/`memcpy` get element counts where byte counts are needed (`CircularBufferOpt::fill_buffer`, `CircularBufferBlock`, `LockFreeFifoSpsc(span)`).
* C14: 32-bit integer samples above 2^24 lose bits in the cross-fade even at full phase.
* C21: `StaticString<0>` written from a non-empty `string_view` writes past its array.
* C25: `SeqMap::remove` does not free the slot and makes the default key appear. C27: `SequentialMap::insert` never stores the value. C28: capacity 0. C121, C122: values left over from erased entries reappear; const `operator[]` of an absent key returns a dangling reference.
* C32, C35, C36: wear levelling loses the record when interrupted between erase and write, ignores failing reads, and forgets where it is after a failed erase.
* C40: an exactly fitting request is refused. C41: the rounding of `AlignedAllocator` wraps near the top of `size_t`.
* C46: `get_node`'s bounds check wraps when `DataSizeT` is as wide as `size_t`.
* C49, C50: zero digits are dropped (`int_to_str`), or, with `int_to_str_chop`, zero digits and a last digit 1; one-character buffers.
* C51: printing INT32_MIN overflows; a float is printed as `?i?` with its integer part `i`, and a large one, an infinity or NaN is undefined behaviour. C52: a `string_view` is printed up to the next NUL.
* C54: fields of 2^32 and more wrap with a 64-bit `long`; `strtol` reads beyond the view. C56: the pre-release dash is only seen after the last dot.
* C57: `replace_all` diverges or misses occurrences when the replacement has another length.
* C65: a rising event is dropped when both events are pending.
* C70–C72: events due just before a clock overflow are missed; signed overflow is undefined; `force_next_poll` does nothing early on.
* C77: a failing `transmit_func` leaves the stream stuck while `transmit()` keeps answering true.
* C79: `next_power_of_2<uint64_t>` only looks at the low 32 bits. C84: negative arguments. C86: unsigned decreasing ranges, signed overflow. C87: the gate turns on at the midpoint.
* C93: `operator+` wraps on the portable build. C96: periods below 1000 ms divide by zero. C127: flashes longer than 1000 ms never show.
* C99: the `static_assert` of `SmoothOversampler` rounds log2 down. C101: negative integer phases. C105: integer truncation, counter wrap. C107: the initial maximum is the least positive float.
* C111: `x_intersects` misses containment. C112: floating-point and unsigned polygons; `int` overflow for coordinates more than 32767 apart. C114, C131: implicit copies of owners. C115: `OR()` reads an uninitialised variable.
* C116: full-scale 32-bit samples convert 2^31 to `int32_t`; partly used sample types saturate at 24 bits. C117, C118: negative and very large arguments. C132: 32-bit `long`. C133: `val()` advances the phase.
* C120, C123: constructor from values leaves the stack empty; `&data[max_size()]`.
* C138: the entry of `tanTable` for π/2 is −22877334.0 (the tangent just past the pole), so `tan` interpolates between +651.9 and −22877334 and has the wrong sign and magnitude in the cell before π/2, and a far too large magnitude in the cell after it.
* C142: `contains_word` calls `std::tolower` with a plain `char` (`string_compare.hh` casts to `unsigned char` first): undefined for non-ASCII bytes where `char` is signed.
* C144: `InterpParam` accumulates a rounded step; a target one float away is never approached (the step is absorbed), and the n-th value differs from the target in general. Only `FilteredInterpArray` snaps to the target.
* C146: `generate` computes the arguments as `min + i*(max-min)/(N-1)` in `float`: with 10 points on [0, 1.9f] the last call is at the float above 1.9f, outside the range (a problem for functions that are undefined beyond it).
* C147: `InterpArray` blends with `d1*phase + d0*(1-phase)`: in `float` interpolating between equal elements may be off by one unit in the last place. (`LookupTable`, using `lower + phase*(upper-lower)`, provably never is.)
* C148: the round trip the `static_assert`s of calibrator.hh check for 9.32f fails for 3.9f with the same calibrator, in both directions.
* C150: `OneShot` counts down in `float`: at the default 48 kHz a pulse of 250 s is still on after 260 s, and one of 600 s never ends, because the decrement is rounded away.
* C151: `blend(that, float)` rounds two products separately and truncates: `white.blend(white, 0.105f)` is (254, 254, 254).
* C152: `flash_once_ms(1000.f / 13.f)` computes 12.999999 and truncates to 12 Hz, a flash 8 % too long.
* C153: `map_value(33.f, 0.f, 33.f, 0.f, 0.485f)` is above 0.485f; `interpolate(3.f, 3.f, 0.04f)` is below 3; `interpolate3` misses its second argument at phase 1 when the difference rounds.
* C156: `AnalyzedSignal<2048>` stays 2^-15 below a constant 1 for ever.
* C158: `ThreadSafePool::clear` writes every entry without acquiring its flag: it races with the last accesses of an owner who has already destroyed the entry, and run concurrently with `create` it frees what `create` has just returned, so that the next `create` returns it again.
* C161: `tan(201/128)` is below -10000000 although the tangent there is about 2067: the table blends across the pole (in binary32 as in C138).
* C163: `LatchedParam<float, 1>` takes a change of 1 - 2^-26: the difference rounds up to the threshold.
* C166: add_new_readings() reads the flag and then clears it with a plain store. An announcement that falls between the two is overwritten without being read, so the call need not see its readings (on another core they may still be in flight), and no later call looks for them. `exchange(false)` would do (proved with `rmw = true`).
* C167: as C05: the relaxed load of `head_` in `get()` races with `put()`.
* C169: TogglerCompact's three bit-fields share a byte. `got_rising_edge_ = 0` in is_just_pressed() loads and stores that byte; a release registered by an interrupt in between is undone: it is never reported and is_high() stays true. Toggler, with separate bools, is safe.
* C171: `InterpParam<unsigned, n>` (and the other two) going down computes the step from a wrapped difference: from 100 to 0 in 4 steps `uint8_t` goes 139, 178, 217, 0. `InterpParamVariable<uint8_t>` and `<int8_t>` with the default 256 updates divide by zero on the first set_new_value(). A difference outside the range of `int` is undefined.
* C172: writing the integer 3 over 3 at phase 11842569/2^28 stores 2: the rounded products add up to slightly less than 3 and the conversion truncates. A constant integer signal is not a fixed point of the cross-fade.
* C173: the accumulator is `unsigned` whatever the sample type is. `MovingAverage<4, int>` of four times -4 returns 1073741820, and `SmoothOversampler<4, T>` of four times -1 returns 1073741823 (before rounding to float) for every signed `T`. Signed types with room for the shift (`int16_t` up to 2^16 samples) come out right.
* C174: `HysteresisFilter<1, 2, unsigned>` with state 10 and input 9 computes `input - state_` modulo 2^32; the float sum is 2^32 and its conversion to `unsigned` is undefined.
* C175: `InterpArray<int16_t, 2>{3, 3}.interp(phase)` returns 2 for phase 11842569/2^28: the rounded products add up to slightly less than 3 and the conversion truncates.
* C176: `map_value(0.3f, 0.f, 0.3f, 0, 255)` is 254: the rounded product divided by the width is just below 255 and the conversion truncates. With unsigned inputs below the range, `map_value(9u, 10u, 20u, 0.f, 10.f)` is 4294967296.
* C177: `wrap<10, int>(-1)` compares and subtracts modulo 2^32: it ends after 429496729 turns with 5 instead of 9.
* C178: with `int8_t` sizes the blob 01 FE 00 makes `get_node(1)` form a span of 2^32 - 2 bytes (size -2 plus offset 2 passes the check). Entries of 128 to 255 bytes, which the writers accept, are read back as negative sizes, and every entry after them is lost.
* C179: `VoctCalibrator<int16_t>` with -20000 at C1 and 20000 at C2 has slope -25536; `VoctCalibrator<int>` overflows on differences beyond 2^31 and when extrapolating from C9 = 0, C10 = 300000000 to C0.
* C180: an interrupt that adds to `motion` between the load and the store of `use_motion()` is lost for `motion` (not for `abs_pos`).
* C181: `LatchedParam<int8_t, 5>` at -100 refuses 100, because `abs_diff<int8_t>(100, -100)` is -56; thresholds above 127 are negative for `int8_t`.
* C182: `Parameter::isChanged()` writes `changed = false` unconditionally; a value set by an interrupt after it read false is never reported. (`LatchedParam::did_change()`, which only writes after reading true, is right; the source calls only RefParameter not thread-safe.)
* C183: two equal measurements of different notes keep the slope of earlier measurements: after C1 = 10, C2 = 20, the measurements C3 = 30, C4 = 30 give slope 10 and offset -5.
* C184: CircularBuffer is not safe against a put() by an interrupt during get(): with one or no free place left, get() may answer "nothing" though the buffer was never empty, all items may be lost (`full_ = false` undoes the interrupt's `full_`), or count() may stay one too high.
* C185: the period of `wrap(val, min, max)` is max - min + 1 for floats too: wrap(2.5f, 1.f, 2.f) is 2.5f; and when val is so large that subtracting the period does not change it, the loop never ends (wrap(67108864.f, 0.f, 0.f)).
* C186: MovingAverage and Oversampler accept a float sample type, but accumulate in `unsigned`: MovingAverage<2, float> fed 1.5 for ever answers 0, and after 1.75, 1.75, 0, 0 a negative float is converted to unsigned (undefined).
* C187: **C187** `Partition` (partition.hh:42-47) adds each value to the smallest sum. With negative values the first sum only gets smaller, so four values of -1 in two parts give -4 and 0; with floats, two initial sums of 2^25 do not change when 1 is added, so all the ones go to the first part.
* C188: **C188** `LookupTable::lookup` (lookup_table.hh:47) divides before it multiplies, so with integers every value between min and max gives the first point; with `uint32_t` a value below min gives the last point; with `int8_t` and 100 points from 0 to 1, the value 2 gives the first point.
* C71: `PollEvent` (poll_event.hh:13-16) compares the wrapped clock with the due time, so an event due just before an overflow and first polled after it waits for the clock to come round again, and is lost for ever when the polls never fall between the due time and the overflow: a `PollEvent<uint8_t>` with period 50 polled every 8 ticks from time 0 runs for the last time at tick 1736.
* C189: **C189** `PollEvent<int8_t>` (poll_event.hh:13-16) misses an event due at 122 if it is polled at 120 and -128; `PollEvent<float>` can run early by rounding.
* C190: **C190** as its header says (doublebuf_stream.hh:21-24), `DoubleBufferStream` loses data if `tx_done_callback()` interrupts `transmit()` between the choice of the buffer and the last push while that buffer is not empty: the rest of the word is pushed into the buffer in transmission and cleared with it.
* C191: circular_buffer_ext.hh: write() blends with weight 1-phase = 0, but 0*NaN and 0*inf are NaN, so one special sample is never overwritten (`XCirc.C191_forever_violated`).
* C192: lookup_table.hh, interp_array.hh and math.hh: a NaN argument passes every range check and is then converted to an integer (`XTable.C192_lookup_nan_violated`, `XTable.C192_interp_violated`, `XTable.C192_nan_violated`, `XTable.C192_pow2_special_violated`).
* C193: filter.hh, analyzed_signal.hh: one special sample makes the recursive filters NaN for ever and there is no way to reset the one-pole filters (`XFilter.C193_poisoned_violated`, `XFilter.C193_overflow_violated`, `XFilter.C193_analyser_violated`).
* C194: math.hh: constrain lets NaN through (`XMath.C194_constrain_violated`), max(NaN,x) differs from max(x,NaN) (`XMath.C194_max_min_violated`), and interpolate3 of finite values can be NaN at phase 0 (`XMath.C194_interpolate3_violated`).
* C195: interp_param.hh: one special target makes an InterpParam non-finite for ever (`XParam.C195_interp_violated`); parameter.hh: a NaN variable reports a change at every call (`XParam.C195_ref_violated`).
* C196: audio_frame.hh:33-49: NaN passes constrain and is then converted to an integer (`XAudio.C196_violated`).
* C197: oscs.hh, colors.hh, colors_rgb565.hh: special floats are converted to integers unchecked (`XAudio.C197_violated`); a one-shot at infinite rate never ends (`XAudio.C197_shot_violated`).
* C198: calibrator.hh:30-33: equal targets give slope 0 and then divide by it, so that adjust() is NaN for every value (`XCalib.C198_violated`).
* C199: voct_calibrator.hh:20-24: a special C0 measurement is kept as the offset (`XCalib.C199_offset_violated`); line 38 accepts NaN as a difference (`XCalib.C199_slope_violated`).
* C200: math.hh:146-161: wrap never returns for an infinity (`XWrap.C200_max_violated`, `XWrap.C200_wrap_violated`), and an overflowing range gives infinity (`XWrap.C200_overflow_violated`).
* C201: sequential_map.hh:94-95: the comment on erase says iterators to elements before the erased one are invalidated; the elements after it are the ones that move (`SequentialMap.C201_erase_comment_violated`).
* C202: fixed_vector.hh:75-97: pop_back and clear destroy nothing; the objects stay alive, and come back with the *_for_overwrite calls (`FixedVector.C202_removed_violated`).
* C203: a power failure during the erase brings back a record that had been replaced (witness: two cells, the upper one erased first); a failure between erase and write leaves no record.
* C204: an interrupt that takes the only item just after it arrived makes put() declare the empty buffer full, so that N slots nobody filled are handed out; in a full buffer the new item is handed out in place of the oldest; while the buffer is being filled up the interrupt is told there is nothing (`C204_*_violated`).
* C205: tokenizing an element into its own vector reads freed strings unless there is spare capacity (`C205_view_violated`, `C205_delims_violated`).
* C206: `operator bool` only says that a constructor from a callable ran. A Function made from a null function pointer, or a larger CallbackSized made from an empty smaller one, tests true and crashes when called. The constructor checks the callable's size, not its alignment.
* C207: copying within the buffer's own memory repeats or mirrors elements when the spans overlap (`C207_write_violated`, exact conditions in the `_when` theorems).
* C208: `process` on a Debouncer or DebouncerCounter, and `register_state` on a SchmittTrigger, are inherited from Toggler (nothing is virtual) and bypass debouncing and thresholds.
* C209: `transfer_motion(self)` moves the position, `add_motion(self)` reads the motion it has just changed, `transfer_events(self)` loses the events.
* C210: `flash_once_ms` restarts the flasher before it sets the speed, so an interrupt between the two ends the first flash of a fresh LED before it is seen.
* C211: `plateau<width, T>` computes in `int32_t`: 64-bit values are cut, fractions dropped, and unsigned results wrap.
* C212: `a = b` between Parameters copies the change flag of `b`, so `a.isChanged()` can miss a change or report none.
* C213: a callable nested in n objects runs n + 1 times (the header says twice), and one whose sizes change between runs corrupts the blob.
* C214: `changed()`, `staying_high()` and `staying_low()` can be wrong at every moment of the call if an update interrupts them, and `went_low()` if a reset does.
* C215: `force_next_poll()` during a poll is overwritten by the poll's own time stamp and has no effect.
* C217: `MemTest::check(a, 0xFFFFFFFF)` never ends and overwrites all memory, and a length that is no multiple of 4 overwrites up to three bytes behind the region.
* C218: a plain colour constant after a bold or blinking one is shown bold or blinking.
* C220: a step is lost if the contact that closes last before a detent bounces, and invented if the shaft turns back from there; rocking a shaft makes the sum drift without limit.
* C222: each word is written and read once, with one value: a cell stuck at that value, and a write that destroys a later word, are not found.
* C226: QuadraticOnePoleLp in float arithmetic stops short of a constant input: at 2048 with divisor 4096 it ignores an input of 2048.5 for ever.
* C230: An item obtained by an unguarded get() gives no right to read the buffer it names: the load of head_ in get() is relaxed, so nothing the producer wrote before put() is known to be visible (`HandOver.C230_unguarded_violated`).
* C231: The comment at thread_safe_pool.hh:47 says that is_used() pairs with the release from create()/destroy(). Pairing with create() gives a reader nothing: the flag is set before the owner writes the entry (`PoolSignal.C231_true_is_no_licence`).
* C233: With capacity 2 on two cores put() can report that the FIFO is full while num_filled() reports that it is empty, after one successful put and get (store buffering: each thread's load of the other's counter may pass its own store; acquire/release orders do not forbid that, only sequentially consistent atomics would) (`SpscWeak.C233_both_violated`). Harmless if the answers are only used to wait, but client code must not conclude anything from both together.
* C234: get(), remove_first(), reset() and pop_back() copy or skip the element and leave the original in its place; it is destroyed only when the place is used again. A FIFO or circular buffer of shared pointers therefore keeps the last 2^k objects alive after all have been taken (`Spsc.C234_fifo_violated`), and a circular buffer that is always emptied with reset() keeps one for ever (`CircBuf.C234_buffer_violated`: reset() moves the write position back, so only one place is ever written). Pool::destroy() does not destroy (`Pool.C234_pool_violated`).
* C235: create() looks at the flags one after the other, so entries that are in use one after the other, each at the moment it is looked at, make it fail: in a pool of n entries with n + 1 threads one create() fails although never more than one entry is in use (`TsPool.Size.C235_in_use_alone_violated`). A pool needs as many entries as are in use and being created at a time.
* C236: Float keys: NaN is unequal to itself, so insert() and operator[] accept it, add an entry at each use, and no lookup, erase or remove ever finds it (`SeqMap.Keys.C236_seqmap_nan_violated`, `SequentialMap.Keys.C236_sequential_map_nan_violated`).
* C237: FilteredInterpArray: set_num_updates with a larger number while readings are being approached (or after they have been reached) lets the output run past the reading and out of the range of all readings (`FilteredInterp.C237_raise_violated`, `FilteredInterp.C237_lower_raise_violated`), and so does a gap of 2^32 updates (`C105_array_violated`).
* C238: hysteresis_gate turns on at the middle of its two thresholds (see C87), so it keeps out only half of the noise: a constant signal with noise above a quarter of the distance of the thresholds can switch it any number of times (`GateNoise.C238_gate_violated`).
* C240: ByteBlock::printRaw of the block's own bytes reads memory the vector has given up, unless there is spare capacity for all but the last byte (`ByteSelf.C240_exact_partial`, `ByteSelf.C240_full_violated`).
* C241: with sizes wider than size_t, a stored size of 2^32 + 1 is taken as 1: get_size() says 1 and get_node() yields one byte of an entry that is not there (`CompactBinary.C241_size_violated`).
* C242: is_poly_concave calls a square of side 46341 with int64_t coordinates concave, and an arrowhead 65536 times as large as a recognised one convex (`PolyTypes.C242_long_violated`); a square of side 65536 with float coordinates is undefined behaviour, and an arrowhead smaller than 1 is called convex (`PolyTypes.C242_float_violated`).
* C243: an exhausted heap makes AlignedAllocator::allocate return a null pointer where an allocator must throw, so a vector builds its elements at address 0 (`AlignHeap.C243_exhausted_violated`); 2^29 + 1 objects of 8 bytes on a 32-bit processor are granted with 64 bytes (`AlignHeap.C243_overflow_violated`).
* C244: is_later says that "1.2" is later than "1.300", that "1.2.3.9" equals "1.2.3.4" and "1.0-rc2" equals "1.0-rc1", and that "1.0-rc.1" is later than "1.0" (`Version.C244_order_violated`).
* C245: vmlaq_f32 takes its first argument by reference and changes it, unlike the processor's intrinsic (`XNeon.C245_accumulator_violated`); a running maximum vmaxq_f32(peak, x) forgets everything before a NaN (`XNeon.C245_peak_violated`).
* C246: randomNumber(lo, hi) returns hi only if std::rand() returns RAND_MAX itself: randomNumber(0, 1) is 0 for all other results, randomNumber(1, 6) practically never 6 (`RandomDraw.C246_upper_violated`); with a 32-bit long randomNumber<uint32_t> returns only lo, lo + 1 and lo + 2 (`RandomDraw.C246_unsigned32_violated`).
* C247: If copying an element throws, FixedVector::erase and insert leave elements lost and doubled at unchanged size (`Throwing.C247_erase_violated`, `Throwing.C247_insert_violated`); pop_back and CircularBufferOpt::get have already removed the element (`Throwing.C247_pop_violated`); SeqMap::overwrite leaves the new key with the evicted key's value (`Throwing.C247_overwrite_violated`); SequentialMap::operator[] an extra entry with a stale key (`Throwing.C247_index_violated`); Pool::create loses an entry for good (`Throwing.C247_create_violated`).
* C248: set_phase(), OneShot::start() and stop() by an interrupt between the load and the store of update() are lost (`OscIsr.C248_phase_violated`, `OscIsr.C248_oneshot_violated`); a frequency set by an interrupt during DownCounter::update() can make the counter jump up instead of ending (`OscIsr.C248_down_violated`); TriangleOscillator::val() reads the phase twice and returns 0 at the peak if it passes the middle in between (`OscIsr.C248_val_violated`).
* C249: An interrupt that reads a FixedVector during an inner insert or erase sees an element twice, and during insert the last one not at all (`ReadIsr.C249_vector_violated`). SeqMap::overwrite of a new key stores the size or the key before the value, so an interrupt gets a stale value, or that of the key being thrown out, under the new key; remove() shows the removed value under KeyT{} for a moment (`ReadIsr.C249_map_violated`). SequentialMap::operator[] shows a stale entry, then the stale value under the new key (`ReadIsr.C249_sequential_exact`).
* C250: An interrupt that reads a StaticString during copy() reads a mixture of the two texts; if the new text is longer, the old NUL is overwritten before the new one is stored, and since the constructors leave the rest of the array uninitialised the read can run past the array (`StringIsr.C250_violated`). The volatile overloads of copy() suggest just this use.
* C251: MonotonicAllocator::allocate() interrupted by allocate() can return a block past the arena, the same block twice, or a block that will be handed out again (`AllocIsr.C251_mono_violated`); Pool::create() interrupted by create() between test and store returns the same entry (`AllocIsr.C251_pool_violated`).
* C252: A sample that an interrupt gives a PeakMeter between the main program's comparison and its store is lost if it is the more extreme one; a sample during reset() counts for min but not for max (`MeterIsr.C252_violated`).
* C253: An interrupt reading a MovingAverage while a sample is added sees the oldest sample counted as 0 (3071 for a constant 4095 of size 4); samples added by an interrupt during ResizingOversampler::reset() or set_size() give readings outside the range of the samples (`FilterIsr.C253_violated`).
* C254: set_read_offset() while the producer is putting can let the FIFO hold more than max_size() items: the producer overwrites the oldest ones and get() returns newer items twice (`Spsc.C254_violated`).
* C255: get() of a FIFO loses the item if constructing the returned optional throws, and a resize() to a smaller size that runs out of memory leaves a FIFO whose next put() is out of bounds (`ThrowFifo.C255_violated`).
* C257: Recalibrating is two stores: an interrupt between them uses the new slope with the old offset (`CalibIsr.C257_violated`, `CalibIsr.C257_voct_violated`).
* C258: After an exception from copying an element the beginning of the word is sent with the next one; after an exception from the transmit function the stream stays silent until tx_done_callback() is called (`ThrowStream.C258_violated`).
* C261: Two wear levellers over one block lose records: after one erases the block the other goes on writing at its old, higher position, which a restart takes for the latest (`WearLevel.C261_shared_violated`).
* C263: C263: while an object is not ended (or end_object is forgotten) its size field is 0, so a parser sees an empty object and takes its entries for entries of the enclosing level: begin_object(2); field(1, 9) without end_object makes get(1) on the top level return 9.
* C264: C264: objects nested deeper than MaxDepth are stored with size 0: their entries are read as entries of the enclosing object (MaxDepth 1: key 3 inside 2 inside 1 is found directly in 1 and not in 2). Nothing reports it.

## 6. Wrong programs tried

`seeded/LOG.jsonl` lists 2180 edits of the model, one per line, with the claim each breaks and the theorems that failed.
Outcomes: rejected: 2083, equivalent: 51, survived, tightened: 38, rejected by examples only, tightened: 6, rejected by examples only; equivalent: 2.

## 7. Does the model compute what the project expects?

`lean/Verif/Conform/` holds the unit tests of /repo/tests, file by file, as `example`s evaluated on the model by the kernel:
the same calls and the same expected values, 178 examples for 41 of the 42 test files (the whole of bitfield_tests.cc is commented
out upstream). They are tests of the model, not proofs, and no property rests on them; they are there because a model
is only as good as its agreement with the program, which cannot be run here.

* One disagreement: print_tests.cc expects "-2147483648" for INT_MIN, where the model answers undefined behaviour
  (the code negates the value as an `int`).
* Two tests meet their expected value only because of float rounding (calibrator_tests.cc:40-47, tan(999) in math_tests.cc:280);
  they are evaluated with it.
* `Conform/Headers.lean` evaluates the `static_assert`s in the headers themselves, the float ones in binary32 with ties to even
  (`FltEven.lean`: a computable rounding function, proved to round to nearest); all hold on the model.
* Not translated: 2^24 updates of one parameter, statistics of random numbers and the comparison of tables with `sin`; theorems
  cover these.
