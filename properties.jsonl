{"id": "C01", "title": "SPSC FIFO delivers every accepted item exactly once, in order", "statement": "For a LockFreeFifoSpsc used by one producer (put) and one consumer (get / get_move / get_or_default / remove_first), whose operations interleave at every individual memory access, the sequence of items the consumer has taken out is at every moment a prefix of the sequence of items for which put() returned true: nothing is lost, duplicated, reordered, invented or overwritten before it was taken, also when the internal counters wrap around the top of size_t.", "quantifier": "every power-of-two capacity, every size_t width, every sequence of calls and every interleaving of the two threads' individual loads and stores (sequentially consistent)", "why_tests_cant": "the interleavings and the counter wrap-around (2^32 or 2^64 puts) cannot be enumerated by running the code", "anchors": ["util/lockfree_fifo_spsc.hh: LockFreeFifoSpsc::put, get, get_move, get_or_default, remove_first"]}
{"id": "C02", "title": "SPSC put() refuses only when full and never overwrites", "statement": "put() returns false only if at some instant during that call the FIFO held max_size() items, and returns true only after storing the item in a slot that holds no untaken item; so the FIFO never holds more than max_size() items.", "quantifier": "every interleaving, every history", "why_tests_cant": "depends on the schedule of the other thread between the loads of put()", "anchors": ["util/lockfree_fifo_spsc.hh: LockFreeFifoSpsc::put, max_size"]}
{"id": "C03", "title": "SPSC get() reports empty only when empty", "statement": "get()/get_move()/get_or_default() report 'nothing available' only if at some instant during that call the FIFO held no items, and otherwise return the oldest untaken item; remove_first() discards exactly the oldest item, or nothing if empty.", "quantifier": "every interleaving, every history", "why_tests_cant": "depends on the schedule of the other thread between the loads of get()", "anchors": ["util/lockfree_fifo_spsc.hh: LockFreeFifoSpsc::get, get_move, remove_first"]}
{"id": "C04", "title": "SPSC occupancy queries are safe lower bounds for the side that acts on them", "statement": "num_free()/full() evaluated by the producer never promise more room than there is at any later instant before its next put, num_filled()/empty() evaluated by the consumer never promise more items than there are before its next get; both lie in 0..max_size(), and with no concurrent call they are exact and add up to max_size().", "quantifier": "every interleaving, every history", "why_tests_cant": "the other thread may move between and after the two loads", "anchors": ["util/lockfree_fifo_spsc.hh: num_free, full, num_filled, empty"]}
{"id": "C05", "title": "SPSC FIFO is free of data races under the C++ memory model", "statement": "Under the C++ release/acquire memory model (producer and consumer on different cores), the non-atomic accesses to the item slots made by put() and get() never form a data race, so an item is fully visible to the consumer that takes it.", "quantifier": "every execution the C++ memory model allows (loads may return stale values permitted by coherence), not only sequentially consistent ones", "why_tests_cant": "weakly ordered executions do not show on a test machine, and a race is undefined behaviour rather than a wrong value", "anchors": ["util/lockfree_fifo_spsc.hh: put (release store of head_), get (relaxed load of head_), tail_ acquire/release pair"]}
{"id": "C06", "title": "SPSC reset() may be called from either side at any time", "statement": "reset(), called by the consumer or by the producer at any point of a concurrent history, discards exactly the items accepted before it took effect, and the FIFO keeps delivering later items correctly (C01-C03 continue to hold).", "quantifier": "every interleaving of reset() with put() and get()", "why_tests_cant": "needs the one interleaving where the reset store lands inside a get()", "anchors": ["util/lockfree_fifo_spsc.hh: reset ('Reset can be done by consumer or producer')"]}
{"id": "C07", "title": "SPSC constructed or repositioned with an offset is a fixed delay line", "statement": "A FIFO constructed with a head offset d delivers, with one get per put, d default values and then each item exactly d puts later, for ever (0 <= d < max_size() when each put precedes its get, 1 <= d <= max_size() when it follows it). set_read_offset(d), for d not above max_size() and the number of items written so far (fewer than 2^w, none moved out), makes the FIFO hold exactly the last d items written.", "quantifier": "every d, every capacity, every item stream of any length, every history before the repositioning", "why_tests_cant": "unbounded streams", "anchors": ["util/lockfree_fifo_spsc.hh: LockFreeFifoSpsc(size_t head), set_read_offset, put, get"]}
{"id": "C08", "title": "Run-time sized SPSC FIFO delivers in order for every capacity", "statement": "LockFreeFifoSpscDyn, for any capacity (not only powers of two), delivers every accepted item exactly once and in order, for ever.", "quantifier": "every capacity, every call history of any length, including histories longer than the range of size_t", "why_tests_cant": "the failing case needs more than 2^32 (or 2^64) operations", "anchors": ["util/lockfree_fifo_spsc_dyn.hh: LockFreeFifoSpscDyn::put, get"]}
{"id": "C09", "title": "Run-time sized SPSC FIFO resize", "statement": "resize(n) with n different from the current capacity empties the FIFO and makes it behave like a FIFO of capacity n; resize to the current capacity changes nothing.", "quantifier": "every history and every new capacity", "why_tests_cant": "unbounded histories before the resize", "anchors": ["util/lockfree_fifo_spsc_dyn.hh: resize, reset, max_size"]}
{"id": "C10", "title": "CircularBuffer and CircularBufferOpt are overwriting FIFO queues", "statement": "Any sequence of put/get/remove_first/reset on CircularBuffer<T,N> or CircularBufferOpt<T,N> is indistinguishable from a list to which put appends at the back, dropping the oldest element when N are stored, get removes the oldest (returning T() resp. nullopt if none), remove_first discards the oldest and reset drops everything; no out-of-bounds access happens.", "quantifier": "every power-of-two N, every op sequence of any length", "why_tests_cant": "unbounded histories, full/empty ambiguity of equal indices", "anchors": ["util/circular_buffer.hh: CircularBuffer", "util/circular_buffer_opt.hh: CircularBufferOpt"]}
{"id": "C11", "title": "CircularBuffer occupancy and peek", "statement": "count() (= num_filled()) is the exact number of stored elements, empty() iff 0, full() iff N, and peek(i) for i < count() is the element the (i+1)-th get() would return.", "quantifier": "every reachable state, every i", "why_tests_cant": "depends on every wrap position of head and tail", "anchors": ["util/circular_buffer.hh: count, num_filled, empty, full, peek", "util/circular_buffer_opt.hh: count, num_filled, empty, full"]}
{"id": "C12", "title": "CircularBuffer with set_head is a fixed delay", "statement": "After set_head(d) with 0 < d < N on a fresh buffer, alternating put and get delivers d default values and then each item exactly d puts after it was stored.", "quantifier": "every d < N, streams of any length", "why_tests_cant": "unbounded streams", "anchors": ["util/circular_buffer.hh: set_head, put, get", "util/circular_buffer_opt.hh: set_head"]}
{"id": "C13", "title": "CircularBuffer fill_buffer sets every slot", "statement": "fill_buffer(val) makes every slot of the buffer equal val and fill_buffer(array) makes slot i equal array[i], without changing the count, for every element type.", "quantifier": "every element size, every content", "why_tests_cant": "element sizes beyond those instantiated in tests", "anchors": ["util/circular_buffer.hh: fill_buffer", "util/circular_buffer_opt.hh: fill_buffer"]}
{"id": "C14", "title": "CircularBufferAccess reads and writes wrap exactly", "statement": "read() of n elements returns the elements at positions rd, rd+1, ... taken modulo size() and leaves rd_pos() = (rd+n) mod size(); write() at full phase stores its n elements at wr, wr+1, ... modulo size(), later elements winning, leaves all other elements unchanged and wr_pos() = (wr+n) mod size(); the result is true iff the position wrapped at least once. No out-of-bounds access.", "quantifier": "every size, position, n (also n > size)", "why_tests_cant": "all positions and lengths", "anchors": ["util/circular_buffer_ext.hh: CircularBufferAccess::read, write, rd_pos, wr_pos"]}
{"id": "C15", "title": "CircularBufferAccess reverse access mirrors forward access", "statement": "read_reverse/write_reverse visit positions rd, rd-1, ... modulo size() and report a wrap iff position 0 was passed; reading n elements in reverse after reading the same n forward (stepping one back first) returns them in reversed order.", "quantifier": "every size, position, n", "why_tests_cant": "all positions; relies on unsigned underflow", "anchors": ["util/circular_buffer_ext.hh: read_reverse, write_reverse"]}
{"id": "C16", "title": "Marker crossing is reported exactly", "statement": "For blocks no longer than the buffer, read_check_crossed(marker) is true iff the element at the marker was among those read; write_check_crossed(marker) iff the write position moved from before the marker to at or past it (the element just before the marker was written); read_reverse_check_crossed(marker) iff the position moved from past the marker to at or before it.", "quantifier": "every size, position, marker, block length", "why_tests_cant": "all combinations of marker, position and wrap", "anchors": ["util/circular_buffer_ext.hh: read_check_crossed, read_reverse_check_crossed, write_check_crossed"]}
{"id": "C17", "title": "CircularBufferBlock stores a block at any position modulo SIZE", "statement": "write(block, start) stores block[i] at element (start+i) mod SIZE for every i and leaves every other element unchanged, for every element type and every block no longer than SIZE.", "quantifier": "every SIZE, start, block, element size", "why_tests_cant": "all start/length combinations and element sizes", "anchors": ["util/circular_buffer_block.hh: CircularBufferBlock::write"]}
{"id": "C18", "title": "CircularStack is a stack that forgets the oldest", "statement": "Any sequence of push_back/pop_back/pop_back_or_zero/back/clear on CircularStack<T,M> behaves like a list-based stack that, when M elements are stored, drops its bottom element on push; size() and empty() are exact and popping an empty stack returns nullopt (resp. T{}).", "quantifier": "every M > 0, every op sequence", "why_tests_cant": "unbounded histories across wrap-around", "anchors": ["util/circular_stack.hh: CircularStack"]}
{"id": "C19", "title": "FixedVector behaves like a capacity-bounded list", "statement": "Any sequence of push_back, pop_back, insert, erase(index), erase(first,last), resize, clear, back, operator[] on FixedVector<T,M> (indices within bounds) gives the contents of a list under the same operations truncated by the capacity rule; size() <= M always; rejected calls leave the vector unchanged; no access outside the storage happens.", "quantifier": "every M, every op sequence and argument, including out-of-range indices", "why_tests_cant": "unbounded sequences", "anchors": ["util/fixed_vector.hh: FixedVector"]}
{"id": "C20", "title": "FixedVector reports capacity failures truthfully", "statement": "push_back returns true iff size() < max_size() before the call; push_back_for_overwrite returns max_size() iff full and otherwise the index of the new last element; resize(n)/resize_for_overwrite(n) return true iff n <= max_size() and set size() = min(n, max_size()), growing resize() filling with the given value; available() + size() == max_size().", "quantifier": "every state and argument", "why_tests_cant": "all states", "anchors": ["util/fixed_vector.hh: push_back, push_back_for_overwrite, resize, resize_for_overwrite, available"]}
{"id": "C21", "title": "StaticString is always terminated and holds the longest prefix that fits", "statement": "After copy(s) (char pointer or string_view) or construction, the buffer contains a terminator within CAPACITY+1 bytes, c_str() reads back as the longest prefix of s (up to its first NUL) of at most CAPACITY characters, length() <= CAPACITY and length()+available() == CAPACITY, and no byte outside the buffer is written; clear() makes it empty.", "quantifier": "every CAPACITY, every source string, every previous content", "why_tests_cant": "all lengths around the capacity", "anchors": ["util/static_string.hh: StaticString::copy, clear, length, size, available, c_str"]}
{"id": "C22", "title": "StaticString copies and comparisons across capacities", "statement": "operator== and is_equal hold iff the two strings have the same characters; copying from a StaticString of another capacity preserves the string when it fits, and copy followed by copy back is the identity for strings that fit in both.", "quantifier": "every pair of capacities and contents", "why_tests_cant": "all contents", "anchors": ["util/static_string.hh: operator==, is_equal, copy(StaticString)"]}
{"id": "C23", "title": "SeqMap overwrite/get is a bounded map evicting the oldest key", "statement": "For any history of overwrite() calls on SeqMap, get(k) returns the value of the latest overwrite of k unless MaxSize or more new keys were introduced after k was, in which case k may have been evicted and get returns null; keys are evicted in order of introduction; size() <= MaxSize, and get(k) right after overwrite(k,v) yields v.", "quantifier": "every MaxSize > 0, every history of overwrites", "why_tests_cant": "unbounded histories", "anchors": ["util/seq_map.hh: SeqMap::overwrite, get, key_exists, size"]}
{"id": "C24", "title": "SeqMap insert and lookup agree", "statement": "insert(k,v) fails iff the map is full and otherwise get/key_exists find k; get(k) is non-null iff key_exists(k); a found value is one stored under k; insert and remove_last do not disturb other entries.", "quantifier": "every history", "why_tests_cant": "unbounded histories, duplicate keys", "anchors": ["util/seq_map.hh: insert, get, key_exists, remove_last"]}
{"id": "C25", "title": "SeqMap remove really removes", "statement": "remove(k) returns true iff k was present; afterwards k is absent, no other key changes its presence or value, and the freed place can be used by a later insert.", "quantifier": "every history", "why_tests_cant": "needs every key value, including the default-constructed key", "anchors": ["util/seq_map.hh: remove"]}
{"id": "C26", "title": "SequentialMap operator[] behaves like a map while it has room", "statement": "As long as not more than N distinct keys are used, operator[] finds the existing entry or creates one, writes through it are read back by operator[]/find/contains, other keys are unaffected, and keys stay unique; erase(k) removes exactly k and keeps the order of the others; size() counts distinct keys.", "quantifier": "every N, every history", "why_tests_cant": "unbounded histories", "anchors": ["util/sequential_map.hh: SequentialMap::operator[], find, contains, erase, size"]}
{"id": "C27", "title": "SequentialMap insert stores the entry", "statement": "insert({k,v}) on a map without k and with room makes [k] == v and returns {position,true}; if k exists or the map is full it returns false and changes nothing.", "quantifier": "every state and entry", "why_tests_cant": "all states; the file says it has no unit tests for this", "anchors": ["util/sequential_map.hh: insert"]}
{"id": "C28", "title": "SequentialMap is memory safe when over-full", "statement": "operator[] with a new key on a full map never touches memory outside the map and leaves all entries but the last intact.", "quantifier": "every N and every full map", "why_tests_cant": "all states", "anchors": ["util/sequential_map.hh: operator[] (overflow branch)"]}
{"id": "C29", "title": "Wear levelling: a successful write is what read returns", "statement": "On a storage block without faults, after write(d) with valid d returns true, read() returns d, whatever the block contained before (blank, garbage, older records) and whatever the history of earlier writes.", "quantifier": "every number of cells, every initial block content, every history of writes", "why_tests_cant": "all initial contents and positions", "anchors": ["util/wear_level.hh: WearLevel, WearLeveler"]}
{"id": "C30", "title": "Wear levelling survives a restart", "statement": "After any history of writes, constructing a new WearLevel/WearLeveler on the same block (restart) makes read() return exactly what it returned before the restart; in particular the last valid record written.", "quantifier": "every history and every restart point between calls", "why_tests_cant": "unbounded histories with restarts at each point", "anchors": ["util/wear_level.hh: constructors, read"]}
{"id": "C31", "title": "Wear levelling: interrupted record write keeps the previous record", "statement": "If power is lost during the low-level write of a record (the cell is left with arbitrary invalid, non-blank content) then after restart read() returns the previous valid record if no erase was performed by that call, and later writes work normally.", "quantifier": "every history, every crash point inside write, every invalid residue", "why_tests_cant": "crash points", "anchors": ["util/wear_level.hh: write, constructors, read"]}
{"id": "C32", "title": "Wear levelling never loses the only copy", "statement": "At every crash point inside write(), after restart read() returns either the new record or the previous one; it never reports 'no data' once a valid record has been stored.", "quantifier": "every crash point of every write, including the write that erases the block", "why_tests_cant": "crash points between erase and write", "anchors": ["util/wear_level.hh: write"]}
{"id": "C33", "title": "Wear levelling actually levels", "statement": "The low-level write is only ever applied to a cell reported writeable; between two block erases each cell is written at most once; starting from a blank block the k-th block erase happens exactly at write number k*NumCells+1.", "quantifier": "every NumCells, every number of writes", "why_tests_cant": "unbounded number of writes", "anchors": ["util/wear_level.hh: write"]}
{"id": "C34", "title": "Wear levelling write always terminates, also on broken storage", "statement": "write() terminates on every storage behaviour: it performs at most one erase, probes at most 2*NumCells+... cells, and returns false if no cell becomes writeable or the erase fails.", "quantifier": "every storage answer sequence (arbitrary is_writeable/erase/write results)", "why_tests_cant": "arbitrary faulty storage", "anchors": ["util/wear_level.hh: write"]}
{"id": "C35", "title": "Wear levelling read never presents data that is not in the block", "statement": "read() returns true only with data that a cell of the block really contains and that validates, also when low-level reads fail.", "quantifier": "every storage behaviour, every prior content of the caller's variable", "why_tests_cant": "needs failing low-level reads and stale caller data", "anchors": ["util/wear_level.hh: read (ignores the result of Storage::read)"]}
{"id": "C36", "title": "Failed erase does not lose access to the stored record", "statement": "If the block erase fails leaving the block unchanged, write() returns false and a following read() still returns the last valid record.", "quantifier": "every block content", "why_tests_cant": "needs a failing erase", "anchors": ["util/wear_level.hh: WearLeveler::write, WearLevel::write"]}
{"id": "C37", "title": "Pool hands out distinct live objects", "statement": "For any history, create() returns an object that is not currently live and is default-valued, returns null iff all MaxEntries objects are live, destroy(p) returns true iff p is live and then frees exactly p.", "quantifier": "every MaxEntries, every history of create/destroy", "why_tests_cant": "unbounded histories", "anchors": ["util/pool.hh: Pool::create, create_for_overwrite, destroy"]}
{"id": "C38", "title": "ThreadSafePool: exclusive ownership for any number of threads", "statement": "With any number of threads calling create() and destroy() (each destroying only indices it owns) in any interleaving of the atomic operations, no index is owned by two threads at once, and every returned index is < size(); destroy by the owner succeeds.", "quantifier": "every number of threads, every interleaving, every history", "why_tests_cant": "interleavings", "anchors": ["util/thread_safe_pool.hh: ThreadSafePool::create, destroy, is_used"]}
{"id": "C39", "title": "ThreadSafePool create() fails only if every entry was seen in use", "statement": "create() returns nullopt only if each entry was in use at some instant during the call; without concurrent calls it returns the smallest free index and fails iff all are in use; destroying a free or out-of-range index returns false and changes nothing.", "quantifier": "every interleaving", "why_tests_cant": "interleavings", "anchors": ["util/thread_safe_pool.hh: create, destroy, is_used, clear"]}
{"id": "C40", "title": "MonotonicAllocator blocks are disjoint and in the arena", "statement": "All blocks returned since the last reset() lie inside the arena and are pairwise disjoint; allocate returns null only if the request does not fit in the free space; free_space() is the arena size minus the sum of the granted sizes.", "quantifier": "every arena size, every request sequence", "why_tests_cant": "unbounded request sequences", "anchors": ["util/monotonic_allocator.hh: MonotonicAllocator"]}
{"id": "C41", "title": "Alignment arithmetic", "statement": "PaddedAligned's size is the least multiple of Align that is >= sizeof(T) for every power-of-two Align; AlignedAllocator requests the least multiple of Alignment covering n*sizeof(T) bytes, for every n whose byte count is representable.", "quantifier": "every size, alignment and n", "why_tests_cant": "all sizes", "anchors": ["util/padded_aligned.hh: aligned_sz, pad_sz", "util/aligned_allocator.hh: allocate"]}
{"id": "C42", "title": "Serialized data parses back", "statement": "For every description tree (fields, raw data, nested objects) whose data sizes fit DataSizeT, parsing the serialized bytes with CompactBinaryParser returns for each key the bytes of the first entry with that key at that level, and nullopt/empty for keys not present; get<T> returns the value iff the stored size is sizeof(T).", "quantifier": "every tree, every key width and size width, every value", "why_tests_cant": "unbounded trees", "anchors": ["util/compact_binary_serializer.hh: serialize", "util/compact_binary_parser.hh: get, get_node, get_size"]}
{"id": "C43", "title": "Imperative writer and declarative serializer produce the same bytes", "statement": "For every description tree of depth <= MaxDepth, CompactBinaryWriter (begin_object/end_object with back-patched sizes) writes exactly the bytes CompactBinarySerializer::serialize writes, and both report the same size.", "quantifier": "every tree up to the writer's MaxDepth, every buffer size", "why_tests_cant": "unbounded trees", "anchors": ["util/compact_binary_writer.hh: field, raw, begin_object, end_object, size", "util/compact_binary_serializer.hh"]}
{"id": "C44", "title": "Measured size equals serialized size equals streamed size", "statement": "measure(), the return value of serialize() and of stream(), and the number of bytes produced are all equal for every tree, and stream() emits to the sink exactly the bytes serialize() writes.", "quantifier": "every tree", "why_tests_cant": "unbounded trees", "anchors": ["util/compact_binary_serializer.hh: measure, serialize, stream"]}
{"id": "C45", "title": "Writers never write outside the buffer and report the needed size", "statement": "With an output buffer of any size, serialize and CompactBinaryWriter write exactly the first min(buf.size(), needed) bytes of the full encoding, leave the rest of the buffer unchanged and report the full size needed (writer: once all objects are closed).", "quantifier": "every buffer size and tree, also unbalanced end_object and too-deep nesting for the bounds part", "why_tests_cant": "all truncation points", "anchors": ["util/compact_binary_writer.hh: emit, write_at, end_object", "util/compact_binary_serializer.hh: SpanWriter"]}
{"id": "C46", "title": "Parser is safe on arbitrary bytes", "statement": "For any byte blob (corrupt or hostile), any key and any type, get/get_node/get_size terminate, never read outside the blob, and a returned node lies inside the blob.", "quantifier": "every byte string of every length", "why_tests_cant": "hostile inputs", "anchors": ["util/compact_binary_parser.hh: get, get_node, get_size_and_offset, advance"]}
{"id": "C47", "title": "Character-array keys compare up to the terminator", "statement": "For const char[] keys the parser matches a stored key iff both agree up to and including the first NUL (or on all bytes), so padding after the terminator is ignored, and keys written by writer/serializer are found again.", "quantifier": "every key content and padding", "why_tests_cant": "all paddings", "anchors": ["util/compact_binary_parser.hh: compare_nullterm_array", "util/compact_binary_serializer.hh: write_key"]}
{"id": "C48", "title": "num_digits is the number of decimal digits", "statement": "num_digits(v) equals the length of the decimal representation of v.", "quantifier": "every unsigned value", "why_tests_cant": "2^32 values", "anchors": ["util/int_to_str.cc: num_digits"]}
{"id": "C49", "title": "int_to_str writes the decimal representation", "statement": "int_to_str(v, buf) returns true with buf holding the terminated decimal representation of v whenever it fits in buf.size(), and false otherwise, never writing outside buf.", "quantifier": "every 32-bit value and every buffer size", "why_tests_cant": "2^32 values times buffer sizes", "anchors": ["util/int_to_str.cc: int_to_str, _digit"]}
{"id": "C50", "title": "int_to_str_chop keeps sign and least significant digits", "statement": "int_to_str_chop(v, buf) fills buf with the terminated decimal representation of v, dropping most significant digits if it does not fit, keeping sign and terminator, and never writing outside buf.", "quantifier": "every 32-bit value and every buffer size", "why_tests_cant": "2^32 values times buffer sizes", "anchors": ["util/int_to_str.cc: int_to_str_chop, digit"]}
{"id": "C51", "title": "print emits decimal and hexadecimal numbers exactly", "statement": "print<putc>(int32) emits exactly the decimal representation with '-' for negatives and print<putc>(Hex) exactly the upper-case hexadecimal representation without leading zeros.", "quantifier": "every 32-bit value", "why_tests_cant": "2^32 values", "anchors": ["util/print.hh: printone(int32_t), printone(Hex), print_digit"]}
{"id": "C52", "title": "print of a string emits exactly its characters", "statement": "print<putc> of a C string or string_view emits exactly the characters of the string, in order.", "quantifier": "every string and view", "why_tests_cant": "views not followed by a terminator", "anchors": ["util/print.hh: printone(const char*), printone(std::string_view)"]}
{"id": "C53", "title": "Version comparison is a total order consistent with equality", "statement": "<=> on Version is a strict total order: lexicographic in major, minor, revision, with a pre-release before the normal version of the same numbers; it is consistent with ==; is_later is its 'greater'.", "quantifier": "all pairs and triples of versions", "why_tests_cant": "2^25 versions squared", "anchors": ["util/version_tools.hh: operator<=>, operator==, is_later"]}
{"id": "C54", "title": "Version parsing round-trips", "statement": "Parsing the text \"M.m.r\" (each 0..255), optionally followed by '-' and a suffix without dots, yields exactly these numbers and is_normal iff there is no suffix; missing fields are 0; fields out of 0..255 are left 0.", "quantifier": "all version texts of that shape", "why_tests_cant": "unbounded texts", "anchors": ["util/version_tools.hh: Version(std::string_view), set_field"]}
{"id": "C55", "title": "Version hosting rule", "statement": "can_host_version(other) holds iff majors are equal and the host's minor is at least the other's; it is reflexive and transitive, and monotone in the host's minor.", "quantifier": "all pairs and triples", "why_tests_cant": "all pairs", "anchors": ["util/version_tools.hh: can_host_version"]}
{"id": "C56", "title": "Pre-release marker is recognised anywhere after the numbers", "statement": "is_normal is false whenever the version text has a '-' after a number, wherever it is.", "quantifier": "every text", "why_tests_cant": "unbounded texts", "anchors": ["util/version_tools.hh: Version(std::string_view)"]}
{"id": "C57", "title": "replace_all terminates and replaces every occurrence", "statement": "ReplaceString::replace_all(find, replace) terminates for every non-empty find and yields the text in which every non-overlapping occurrence of find, scanned left to right, is replaced.", "quantifier": "every text, find and replacement, including replacements containing find and of other length", "why_tests_cant": "unbounded strings", "anchors": ["util/string_util.hh: ReplaceString::replace_all"]}
{"id": "C58", "title": "tokenize_string yields exactly the maximal delimiter-free runs", "statement": "tokenize_string appends to tokens the maximal non-empty runs of non-delimiter characters of the text, in order, and nothing else.", "quantifier": "every text, delimiter set and previous token list", "why_tests_cant": "unbounded strings", "anchors": ["util/string_util.hh: tokenize_string"]}
{"id": "C59", "title": "Case-insensitive comparison is a strict weak order and matching equivalence", "statement": "equal_ci is an equivalence that ignores ASCII case, less_ci is a strict weak order, exactly one of less_ci(a,b), less_ci(b,a), equal_ci(a,b) holds, so sorting and searching with them is sound.", "quantifier": "all pairs and triples of strings", "why_tests_cant": "unbounded strings", "anchors": ["util/string_compare.hh: less_ci, equal_ci"]}
{"id": "C60", "title": "contains_word finds exactly the space-delimited occurrences", "statement": "contains_word(name, word) is true iff, ignoring case, word occurs in name with each end at an end of name or next to a space.", "quantifier": "every name and word", "why_tests_cant": "unbounded strings", "anchors": ["util/contains_word.hh: contains_word"]}
{"id": "C61", "title": "Partition assigns every element exactly once", "statement": "After calc_partitions(vals) with at most MaxElements values, each index of vals appears in exactly one part exactly once; no index outside vals appears.", "quantifier": "every value list, every number of parts > 0, every result the sort may give for ties", "why_tests_cant": "all lists", "anchors": ["util/partition.hh: Partition::calc_partitions"]}
{"id": "C62", "title": "Partition sums are balanced", "statement": "As long as no sum overflows the value type, the sums of any two parts (including their initial values) differ by at most the largest element or the initial spread, whichever is larger.", "quantifier": "every value list", "why_tests_cant": "all lists", "anchors": ["util/partition.hh: calc_partitions"]}
{"id": "C63", "title": "Debouncer reports an edge exactly when the sample history matches", "statement": "For 0/1 samples, register_state makes a rising-edge event exactly when the last n samples (n = width of the mask, missing ones read as 0) equal the rising pattern, a falling-edge event exactly when they equal the falling pattern; with the default patterns: first high after 11 lows, first low after 11 highs. With DebounceRawState the reported state is that of the last event, otherwise that of the last sample.", "quantifier": "every sample history of any length", "why_tests_cant": "unbounded histories", "anchors": ["util/debouncer.hh: Debouncer::register_state, DebouncerCounter::register_state"]}
{"id": "C64", "title": "Edge events are delivered at most once", "statement": "is_just_pressed/just_went_high (is_just_released/just_went_low) return true at most once per registered rising (falling) edge; a query without a new edge since the last one returns false; after an edge and before any other event the next query returns true.", "quantifier": "every history of samples and queries", "why_tests_cant": "unbounded histories", "anchors": ["util/debouncer.hh: Toggler"]}
{"id": "C65", "title": "Toggler event transfer loses nothing", "statement": "transfer_events/update_state make every event pending in the source pending in the destination, copy the state, and transfer clears the source.", "quantifier": "every pair of toggler states reachable by any history", "why_tests_cant": "needs both events pending at once", "anchors": ["util/debouncer.hh: Toggler::update_state, transfer_events"]}
{"id": "C66", "title": "TogglerCompact behaves exactly like Toggler", "statement": "For every sequence of calls TogglerCompact and Toggler give the same answers.", "quantifier": "every history", "why_tests_cant": "unbounded histories", "anchors": ["util/debouncer_compact.hh: TogglerCompact", "util/debouncer.hh: Toggler"]}
{"id": "C67", "title": "TogglerCounter counts samples since the last change", "statement": "steady_state_count() is the number of samples since the last change of state, construction or reset_count(), modulo 2^32, and an event is registered exactly on a change, for 0/1 samples.", "quantifier": "every history", "why_tests_cant": "unbounded histories", "anchors": ["util/debouncer.hh: TogglerCounter"]}
{"id": "C68", "title": "Schmitt triggers alternate and respect both thresholds", "statement": "A rising event occurs only on a sample above `high` while low, a falling one only on a sample below `low` while high; events alternate starting with rising; samples inside [low, high] never change the state; RisingSchmittTrigger::update is true exactly at the rising events.", "quantifier": "every sample sequence, all thresholds low <= high", "why_tests_cant": "unbounded histories", "anchors": ["util/schmitt_trigger.hh: SchmittTrigger::process, RisingSchmittTrigger::update"]}
{"id": "C69", "title": "Change and edge detectors report exactly the changes", "statement": "ChangeDetector::changed() is true iff some update since the previous changed() differed from the state before it; EdgeStateDetector, RisingEdgeDetector and FallingEdgeDetector report exactly whether the last update went up/down/stayed.", "quantifier": "every history", "why_tests_cant": "unbounded histories", "anchors": ["util/change_detector.hh: ChangeDetector", "util/edge_detector.hh: EdgeStateDetector, RisingEdgeDetector, FallingEdgeDetector"]}
{"id": "C70", "title": "PollEvent fires iff the period has elapsed, also across clock overflow", "statement": "poll(now) runs the action iff at least `period` ticks have elapsed, modulo the clock range, since the last time it ran (or time 0).", "quantifier": "every clock width, period, last and current time", "why_tests_cant": "all pairs of times around overflow", "anchors": ["util/poll_event.hh: PollEvent::poll"]}
{"id": "C71", "title": "PollEvent polled at least once per period never drifts out of range", "statement": "If poll is called with gaps shorter than the period (and shorter than the clock range allows), consecutive firings are at least period and less than period plus the largest gap apart, for ever, across any number of overflows.", "quantifier": "every poll sequence", "why_tests_cant": "unbounded sequences across overflows", "anchors": ["util/poll_event.hh: PollEvent::poll"]}
{"id": "C72", "title": "PollChange samples at most once per period and misses no lasting change", "statement": "poll(now, state) looks at state iff at least update_ticks have elapsed modulo 2^32 since the last look; take_change() is true exactly if a looked-at state differed from the previously looked-at one (or reset() was called) since the last take_change(); force_next_poll() makes the next poll look.", "quantifier": "every sequence of polls and times, across overflow", "why_tests_cant": "unbounded sequences", "anchors": ["util/poll_change.hh: PollChange"]}
{"id": "C73", "title": "Quadrature encoder emits one step per full detent and none while the pins rest", "statement": "get_motion returns CW (CCW) exactly when the last four distinct consecutive pin states are the CW (CCW) pattern; repeated states never produce motion; n full clockwise cycles from rest give exactly n CW and no CCW.", "quantifier": "every pin history, every n, both inversions", "why_tests_cant": "unbounded histories", "anchors": ["util/quadrature_encoder.hh: QuadratureEncoder::get_motion"]}
{"id": "C74", "title": "RotaryMotion neither loses nor invents motion", "statement": "transfer_motion moves exactly the pending motion of the source to the target (absolute position included) and use_motion returns each motion exactly once: over any history the motions used plus the pending ones equal the motions added.", "quantifier": "every history", "why_tests_cant": "unbounded histories", "anchors": ["util/rotary_motion.hh: RotaryMotion"]}
{"id": "C75", "title": "DoubleBufferStream transmits accepted data once, in order", "statement": "For any history of transmit() and tx_done_callback(), the concatenation of the spans handed to the transmit function is a prefix of the concatenation of the words accepted, the rest being queued; nothing is sent twice or lost.", "quantifier": "every history, every buffer size", "why_tests_cant": "unbounded histories", "anchors": ["util/doublebuf_stream.hh: DoubleBufferStream::transmit, tx_done_callback"]}
{"id": "C76", "title": "DoubleBufferStream never touches a buffer that is being transmitted", "statement": "Between the start of a transmission and its done-callback the buffer handed to the transmit function is not modified, and a word that does not fit is rejected as a whole.", "quantifier": "every history", "why_tests_cant": "unbounded histories", "anchors": ["util/doublebuf_stream.hh: transmit, start_tx, tx_done_callback"]}
{"id": "C77", "title": "DoubleBufferStream transmit() result tells whether the data will be sent", "statement": "transmit() returns false iff the word is not going to be sent.", "quantifier": "every history and every result of the transmit function", "why_tests_cant": "needs failing transmit function", "anchors": ["util/doublebuf_stream.hh: transmit, start_tx"]}
{"id": "C78", "title": "Powers of two and logarithm", "statement": "is_power_of_2(v) iff v = 2^k for some k; log2_floor(v) is the k with 2^k <= v < 2^(k+1) for v > 0; Log2<N> agrees with it.", "quantifier": "every 32-bit value", "why_tests_cant": "2^32 values", "anchors": ["util/math.hh: is_power_of_2, log2_floor, Log2"]}
{"id": "C79", "title": "next_power_of_2 is the least power of two not below the value", "statement": "For every unsigned type and value, next_power_of_2 returns the least power of two >= value (1 for 0), or 0 if it is not representable.", "quantifier": "every 8-, 16-, 32- and 64-bit value", "why_tests_cant": "2^64 values", "anchors": ["util/math.hh: next_power_of_2"]}
{"id": "C80", "title": "wrap maps into range by whole periods", "statement": "wrap(val,min,max) terminates with the unique value in [min,max] congruent to val modulo max-min+1; wrap<Max>(val) is val mod Max.", "quantifier": "every val, min <= max", "why_tests_cant": "all values", "anchors": ["util/math.hh: wrap"]}
{"id": "C81", "title": "Clamp, min, max, between, differences", "statement": "constrain clamps into [min,max]; max/min are the larger/smaller; between yields x-low iff low <= x <= high; abs_diff and diff are the exact distance, symmetric, also for unsigned types.", "quantifier": "all values", "why_tests_cant": "all values", "anchors": ["util/math.hh: constrain, max, min, between, abs_diff, diff"]}
{"id": "C82", "title": "Dead zone (plateau) is exact, odd and continuous", "statement": "plateau(val,width,center) is 0 inside center +- width/2 and outside the signed distance to the nearer edge; monotone, 1-Lipschitz.", "quantifier": "all values without 32-bit overflow", "why_tests_cant": "2^96 triples", "anchors": ["util/math.hh: plateau"]}
{"id": "C83", "title": "Byte swaps", "statement": "swap_bytes16/32 reverse the bytes and are involutions; swap_bytes_and_combine(a,b) is the big-endian combination of the swapped halves.", "quantifier": "all values", "why_tests_cant": "2^32 values", "anchors": ["util/math.hh: swap_bytes16, swap_bytes32, swap_bytes_and_combine"]}
{"id": "C84", "title": "Integer interpolation stays between its end points", "statement": "interpolate<PhaseMax>(a,b,phase) with 0 <= phase <= PhaseMax is in1 at 0, in2 at PhaseMax and between them otherwise.", "quantifier": "all int32 inputs", "why_tests_cant": "all values, including negative ones", "anchors": ["util/math.hh: interpolate<PhaseMax>"]}
{"id": "C85", "title": "Saturation", "statement": "signed_saturate(v,n) clamps v to the n-bit signed range for 1<=n<=32, unsigned_saturate(v,n) clamps to 0..2^n-1 for n<=31; both are idempotent and monotone.", "quantifier": "all values and widths", "why_tests_cant": "2^37 cases", "anchors": ["util/cortex_math.hh: signed_saturate, unsigned_saturate", "util/colors.hh: __USAT"]}
{"id": "C86", "title": "map_value hits its end points and is monotone", "statement": "map_value maps in_min to out_min and in_max to out_max and, over exact arithmetic, is affine, monotone and inverted by the map with swapped ranges; over integers the result stays in the output range.", "quantifier": "all inputs", "why_tests_cant": "all values", "anchors": ["util/math.hh: map_value"]}
{"id": "C87", "title": "Hysteresis gate switches at its documented thresholds", "statement": "hysteresis_gate(off,on,last,x) turns on only if x exceeds `on`, turns off only if x is below `off`, and keeps the last output in between.", "quantifier": "all thresholds off <= on and inputs (exact arithmetic)", "why_tests_cant": "all real inputs", "anchors": ["util/math.hh: hysteresis_gate, hysteresis_feedback"]}
{"id": "C88", "title": "is_finite_fastmath classifies every bit pattern", "statement": "is_finite_fastmath is true exactly for the bit patterns that are neither infinite nor NaN.", "quantifier": "all 2^32 patterns", "why_tests_cant": "2^32 patterns", "anchors": ["util/math.hh: is_finite_fastmath"]}
{"id": "C89", "title": "SmallestUnsignedInt / SmallestSignedInt pick the least sufficient type", "statement": "The chosen type can represent the whole requested range and no narrower standard type can.", "quantifier": "every range (below the 63-bit limit for the signed one)", "why_tests_cant": "2^64 ranges", "anchors": ["util/smallest_integer.hh: SmallestUnsignedInt, SmallestSignedInt"]}
{"id": "C90", "title": "Colour blending is exact and stays between the colours", "statement": "Color::blend(that, phase8) is per channel floor((that*phase + this*(255-phase))/255): phase 0 gives this, 255 gives that, and each channel lies between the two.", "quantifier": "all colours and phases", "why_tests_cant": "2^56 combinations", "anchors": ["util/colors.hh: Color::blend"]}
{"id": "C91", "title": "RGB565 conversions", "statement": "Color(x).Rgb565() == x for every 16-bit x; converting an 8-bit colour to 565 and back keeps the top 5/6/5 bits and clears the rest; RGB565's constructors, raw() and accessors agree with Color's.", "quantifier": "all 2^16 values and 2^24 colours", "why_tests_cant": "2^24 colours", "anchors": ["util/colors.hh: Color(uint16_t), Rgb565", "util/colors_rgb565.hh: RGB565"]}
{"id": "C92", "title": "Packed 565 blend", "statement": "The packed Color::blend(565,565,alpha) equals per-channel blending with weight (alpha+4)/8 of 32: alpha 0 gives the first colour, 255 the second, and every channel lies between the two without leaking into its neighbours.", "quantifier": "all colour pairs and alphas", "why_tests_cant": "2^40 combinations", "anchors": ["util/colors.hh: static blend(uint16_t,uint16_t,uint8_t)"]}
{"id": "C93", "title": "Colour addition saturates", "statement": "combine() adds channels saturating at 255; adjust(128,128,128) is the identity and adjust saturates; operator+ saturates.", "quantifier": "all colours", "why_tests_cant": "2^48 combinations", "anchors": ["util/colors.hh: combine, adjust, operator+"]}
{"id": "C94", "title": "HSV conversion", "statement": "For every h,s,v the largest channel of the converted colour is v, saturation 0 gives grey v, and no channel exceeds v.", "quantifier": "all 2^24 HSV values", "why_tests_cant": "2^24 values", "anchors": ["util/hsv.hh: HSVColor::operator Color"]}
{"id": "C95", "title": "Oscillators: exact phase, symmetric triangle, one-shot down counter", "statement": "After n updates PhaseAccum and TriangleOscillator have phase n*increment mod 2^32; the triangle value is within 0..2^32-1, rises then falls and changes by at most 2 per phase unit; DownCounter decreases strictly to 0 within ceil(2^32/increment) updates and stays there.", "quantifier": "every n, frequency and phase", "why_tests_cant": "unbounded updates", "anchors": ["util/oscs.hh: PhaseAccum, TriangleOscillator, DownCounter"]}
{"id": "C96", "title": "set_period_ms is safe for every period", "statement": "TriangleOscillator::set_period_ms(ms) gives an increment for a period of ms milliseconds, for every ms > 0.", "quantifier": "every ms", "why_tests_cant": "needs ms < 1000", "anchors": ["util/oscs.hh: TriangleOscillator::set_period_ms"]}
{"id": "C97", "title": "OneShot pulse has exactly the requested length", "statement": "After start(w) update() returns true exactly ceil(w*rate) times and then false until the next start (exact arithmetic).", "quantifier": "every w and rate", "why_tests_cant": "unbounded updates", "anchors": ["util/oscs.hh: OneShot"]}
{"id": "C98", "title": "MovingAverage is the exact floor average of the last Size samples", "statement": "For inputs below 2^InputValueBits, after any number of add_val the value is floor(sum of the last Size samples / Size), missing samples counting 0, with no overflow of the accumulator.", "quantifier": "every power-of-two Size, every input stream", "why_tests_cant": "unbounded streams (drift of the running sum)", "anchors": ["util/filter.hh: MovingAverage"]}
{"id": "C99", "title": "Oversampler outputs the floor average of each complete block", "statement": "After n samples the output is the floor average of the last complete block of Size samples (0 before the first).", "quantifier": "every input stream", "why_tests_cant": "unbounded streams", "anchors": ["util/filter.hh: Oversampler, SmoothOversampler, ResizingOversampler"]}
{"id": "C100", "title": "Smoothing filters stay within the input range", "statement": "Hysteresis and quadratic one-pole filters with inputs within the stable range never leave the interval spanned by state and input, are at rest when input equals state, and the hysteresis filter never differs from the input by more than its threshold (exact arithmetic).", "quantifier": "every input stream", "why_tests_cant": "unbounded streams", "anchors": ["util/filter.hh: NonLinearOnePoleLp, TransferHysteresis, TransferQuadratic"]}
{"id": "C101", "title": "Linear interpolation tables", "statement": "InterpArray::interp_by_index/interp_wrap return the exact element at integer positions, the linear blend of the two neighbours (cyclic for wrap) otherwise, lie between them, wrap is periodic with period 1, and no element outside the table is read for the documented argument range (exact arithmetic).", "quantifier": "every table, size and phase", "why_tests_cant": "all phases", "anchors": ["util/interp_array.hh: InterpArray"]}
{"id": "C102", "title": "LookupTable clamps and interpolates", "statement": "LookupTable::lookup returns the first/last point below/above the range, the exact points at grid positions, lies between neighbouring points otherwise, is monotone for monotone tables and never reads outside the table (exact arithmetic).", "quantifier": "every table and argument", "why_tests_cant": "all arguments", "anchors": ["util/lookup_table.hh: LookupTable::lookup, CreateArray"]}
{"id": "C103", "title": "Calibrator maps measured points to targets and is invertible", "statement": "After calibrate_chan(target, measurement) adjust maps the two measurements to the two targets, and reverse_calibrate is the inverse of adjust, for distinct measurements and distinct targets (exact arithmetic).", "quantifier": "all calibration data", "why_tests_cant": "all reals", "anchors": ["util/calibrator.hh: Calibrator"]}
{"id": "C104", "title": "V/oct calibration recovers the line", "statement": "If all measurements lie on a line m(note) = offset + slope*note, then after measuring any two different notes VoctCalibrator's slope() and offset() equal the line's, and further measurements keep them so (exact arithmetic).", "quantifier": "every measurement sequence", "why_tests_cant": "unbounded sequences", "anchors": ["util/voct_calibrator.hh: VoctCalibrator"]}
{"id": "C105", "title": "Parameter interpolation reaches its target", "statement": "InterpParam/InterpParamVariable reach exactly the new value after num_updates steps, in equal steps; FilteredInterpArray outputs reach the filtered reading after as many updates as between the last two readings, then stay there (exact arithmetic).", "quantifier": "every value and number of updates", "why_tests_cant": "unbounded sequences", "anchors": ["util/interp_param.hh", "util/filtered_interp_array.hh"]}
{"id": "C106", "title": "Parameter change detection", "statement": "Parameter::isChanged() is true iff a different value was set since the last isChanged() (initially true); RefParameter::isChanged() iff the referenced value differs from that at the last isChanged() that returned true; LatchedParam ignores changes smaller than its threshold and its value is always within the threshold of the last offered value.", "quantifier": "every history", "why_tests_cant": "unbounded histories", "anchors": ["util/parameter.hh: Parameter, RefParameter, LatchedParam"]}
{"id": "C107", "title": "Peak meters report the extremes of everything seen", "statement": "After any non-empty sequence of updates min and max are the least and greatest value since construction or reset.", "quantifier": "every sequence, every arithmetic type", "why_tests_cant": "unbounded sequences; all-negative floating-point signals", "anchors": ["util/analyzed_signal.hh: PeakMeter, AnalyzedSig"]}
{"id": "C108", "title": "Memory test passes good memory and catches aliased addresses", "statement": "MemTest::check returns true on correctly working memory of any length, and false if any two distinct words of the tested range (up to 2^32 words) share storage, or if some word always reads back different from what was written.", "quantifier": "every region length and every pair of aliased addresses", "why_tests_cant": "all pairs of addresses", "anchors": ["util/mem_test.hh: MemTest::check"]}
{"id": "C109", "title": "Byte block encodes little-endian", "statement": "ByteBlock::print of 8/16/32-bit values appends exactly the little-endian bytes and printRaw the given bytes; decoding the appended bytes gives back the value.", "quantifier": "all values and histories", "why_tests_cant": "2^32 values", "anchors": ["util/byte_block.hh: ByteBlock"]}
{"id": "C110", "title": "Input and output buffers stop at capacity", "statement": "InputBuffer holds the first max_size items put since reset and ignores the rest; OutputBuffer::get returns the buffer elements in order, then T{}.", "quantifier": "every history", "why_tests_cant": "unbounded histories", "anchors": ["util/input_output_buffer.hh: InputBuffer, OutputBuffer"]}
{"id": "C111", "title": "Rectangle intersection is exact and symmetric", "statement": "RectC::is_intersecting(other) holds iff the closed rectangles share a point; it is symmetric.", "quantifier": "all pairs of (non-inverted) rectangles", "why_tests_cant": "all pairs", "anchors": ["util/geometry.hh: RectC::x_intersects, y_intersects, is_intersecting"]}
{"id": "C112", "title": "Concavity test is invariant", "statement": "is_poly_concave does not depend on the starting vertex, on orientation or on translation, is false for triangles and for every convex polygon.", "quantifier": "all integer polygons", "why_tests_cant": "all polygons", "anchors": ["util/geometry.hh: is_poly_concave"]}
{"id": "C113", "title": "zip and countzip visit exactly the common prefix", "statement": "Iterating zip(a,b,...) yields the tuples (a[i],b[i],...) for i from 0 to the least length minus 1, in order, then stops; countzip/enumerate add the index i.", "quantifier": "any number of containers of any lengths", "why_tests_cant": "all lengths", "anchors": ["util/zip.hh", "util/countzip.hh", "util/iterator_helpers.hh: any_match"]}
{"id": "C114", "title": "Stored callables are constructed and destroyed exactly once", "statement": "Every callable stored in a Function/Callback is destroyed exactly once for each time it was constructed, also when the Function object is copied or assigned.", "quantifier": "every history of constructions, copies, assignments and destructions", "why_tests_cant": "unbounded histories; leaks and double destruction are silent", "anchors": ["util/callable.hh: FunctionSized"]}
{"id": "C115", "title": "Bit-field combination", "statement": "bitfield(a,b,...) has exactly the bits set in some argument; OR({...}) likewise.", "quantifier": "all values, any number of arguments", "why_tests_cant": "all values", "anchors": ["util/bitfield.hh: bitfield, OR"]}
{"id": "C116", "title": "Audio samples: sign extension and scaling", "statement": "sign_extend returns the value whose low UsedBits bits are those of the sample, as a signed number; scaleOutput saturates to the UsedBits range and scaleInput(scaleOutput(x)) is within one step of x for x in [-1,1) (exact arithmetic).", "quantifier": "all samples and widths", "why_tests_cant": "2^32 samples", "anchors": ["util/audio_frame.hh: AudioFrame"]}
{"id": "C117", "title": "Math tables are well-formed", "statement": "sinTable entries are within [-1,1] and antisymmetric by half a period (up to the sixth decimal they are given to); exp5Table, exp10Table and logTable are non-decreasing with the documented end points, so the functions built on them by interpolation are bounded / monotone: setPitchMultiple lies in [1/32,32], increases, and takes opposite arguments to reciprocals; audioFreqToNorm increases from 0 to 1 over 20 Hz to 20 kHz; pow2 is defined, increasing and multiplies by 32 every 5.", "quantifier": "every table entry and every interpolated argument", "why_tests_cant": "properties of the interpolation between entries for all reals", "anchors": ["util/math_tables.cc", "util/math.hh: sin01, pow2, setPitchMultiple, audioFreqToNorm"]}
{"id": "C118", "title": "sin/cos accept any argument", "statement": "MathTools::sin(x) ('for any x') and cos(x) are defined for every finite x, negative included.", "quantifier": "all arguments", "why_tests_cant": "negative arguments are undefined behaviour in the table index conversion", "anchors": ["util/math.hh: sin, cos", "util/interp_array.hh: interp_by_index_wrap"]}
{"id": "C119", "title": "SPSC FIFO constructed from a span holds the span's elements", "statement": "LockFreeFifoSpsc(span) makes slot i hold span[i] for every i, for every element type.", "quantifier": "every capacity, element size and content", "why_tests_cant": "element sizes and contents beyond those instantiated", "anchors": ["util/lockfree_fifo_spsc.hh: LockFreeFifoSpsc(std::span)"]}
{"id": "C120", "title": "CircularStack constructed from values holds them", "statement": "CircularStack(a, b, c) has size() 3 and pops c, b, a.", "quantifier": "every number of values up to the capacity", "why_tests_cant": "all sizes", "anchors": ["util/circular_stack.hh: CircularStack(const Ts...)"]}
{"id": "C121", "title": "SequentialMap operator[] of a new key yields a value-initialised value", "statement": "Reading m[k] for a key never assigned since it was last absent yields ValT{}, as with std::map.", "quantifier": "every history", "why_tests_cant": "needs a history with erase or clear before the access", "anchors": ["util/sequential_map.hh: operator[]", "util/fixed_vector.hh: push_back_for_overwrite"]}
{"id": "C122", "title": "SequentialMap const operator[] is usable for absent keys", "statement": "On a const map, m[k] yields the stored value if k is present and ValT{} otherwise, without undefined behaviour.", "quantifier": "every map and key", "why_tests_cant": "a dangling reference may happen to read the right value in a test", "anchors": ["util/sequential_map.hh: operator[] const"]}
{"id": "C123", "title": "FixedVector insert and erase keep std::array's subscript precondition", "statement": "insert and erase never evaluate data[i] with i >= max_size(), so they also work with a bounds-checking standard library.", "quantifier": "every vector and index", "why_tests_cant": "only hardened builds trap, and only in the states where the vector is (about to be) full", "anchors": ["util/fixed_vector.hh: insert, erase(unsigned)"]}
{"id": "C124", "title": "ipow and bipolar_type_range", "statement": "ipow(a,b) is a^b modulo 2^32; bipolar_type_range(v) is the maximum of the signed type of the size of v.", "quantifier": "every a, b; every type size", "why_tests_cant": "all values", "anchors": ["util/math.hh: ipow, bipolar_type_range"]}
{"id": "C125", "title": "array_adj_diff telescopes", "statement": "array_adj_diff(a) has one element less than a, element i being a[i+1]-a[i]; summing its first k elements and a[0] gives back a[k].", "quantifier": "every array", "why_tests_cant": "all lengths", "anchors": ["util/math.hh: array_adj_diff"]}
{"id": "C126", "title": "Float interpolation and the parabolic sine", "statement": "interpolate and interpolate3 are the same function, hit their end points and stay between them; faster_sine passes through its documented points, is odd around 1/2 and stays in [-1,1].", "quantifier": "all inputs (exact arithmetic)", "why_tests_cant": "all inputs", "anchors": ["util/math.hh: interpolate, interpolate3, faster_sine"]}
{"id": "C127", "title": "RGB LED flash lasts as long as requested, then the base colour returns", "statement": "After flash_once_ms(c, ms) every update_animation() less than ms milliseconds later shows colour c, and every later one shows the base colour (with the breathing colour blended in) until the next flash; fade_once_ms shows colours between the base and c.", "quantifier": "every colour, duration, update rate and number of updates", "why_tests_cant": "durations above one second and unbounded updates", "anchors": ["util/rgbled.hh: MixedRgbLed::flash_once_ms, fade_once_ms, update_animation", "util/oscs.hh: DownCounter"]}
{"id": "C128", "title": "Filter composition", "statement": "NoFilter passes samples unchanged; a CascadingFilter read after every sample outputs its second filter applied to the outputs of its first, and add_val alone leaves the second filter untouched.", "quantifier": "every pair of filters and every sample stream", "why_tests_cant": "unbounded streams, arbitrary filters", "anchors": ["util/filter.hh: NoFilter, CascadingFilter"]}
{"id": "C129", "title": "PaddedAligned rounds the size up to the alignment", "statement": "sizeof a PaddedAligned<T, Align> is the least multiple of Align that is at least sizeof(T), and data is at its start.", "quantifier": "every size and power-of-two alignment", "why_tests_cant": "all sizes", "anchors": ["util/padded_aligned.hh: PaddedAligned"]}
{"id": "C130", "title": "Portable NEON replacements work lane by lane", "statement": "Each vector operation of the portable replacements gives in every lane the scalar operation of that lane's operands; loading then summing gives the sum of the loaded elements.", "quantifier": "all vectors", "why_tests_cant": "all lane contents", "anchors": ["util/soft_neon.hh"]}
{"id": "C131", "title": "BigBuffer owns its heap object exactly once", "statement": "For every sequence of constructions, copies, assignments and destructions of BigBuffer, every heap object is deleted exactly once.", "quantifier": "every history of operations", "why_tests_cant": "needs copy histories; a double delete may go unnoticed", "anchors": ["util/big_buffer.hh: BigBuffer"]}
{"id": "C132", "title": "randomNumber stays within its bounds", "statement": "randomNumber(lo, hi) with lo <= hi returns a value in [lo, hi] without undefined behaviour, whatever std::rand() returns.", "quantifier": "every result of std::rand(), all bounds, int and float", "why_tests_cant": "std::rand() results and ranges cannot be enumerated; the overflow depends on the width of long", "anchors": ["util/math.hh: randomNumber, map_value"]}
{"id": "C133", "title": "Sine oscillator output range and observers", "statement": "process_bipolar gives values in [-1,1], process_unipolar in [0,1] and process integers up to 4294967040, without undefined behaviour, in binary32 arithmetic; each is the table sine of the accumulated phase; val() reports without advancing, as for the other oscillators.", "quantifier": "every state, every history of calls, every rounding", "why_tests_cant": "2^32 phases times increments; rounding at the extremes", "anchors": ["util/oscs.hh: SineOscillator", "util/math_tables.cc: sinTable"]}
{"id": "C134", "title": "CircularBufferAccess cross-fades new elements with old ones", "statement": "write and write_reverse with a block no longer than the buffer leave at every position written d*phase + old*(1-phase) (for any phase, in the buffer's arithmetic), leave all other positions unchanged, and for a phase between 0 and 1 the stored value lies between the old and the new element; phase 1 stores the new element and phase 0 keeps the old one.", "quantifier": "all buffer contents and sizes, all positions, all blocks up to the buffer size, all phases", "why_tests_cant": "sizes, positions, contents and phases are unbounded", "anchors": ["util/circular_buffer_ext.hh: CircularBufferAccess::write, write_reverse"]}
{"id": "C135", "title": "Table sine and cosine are sine and cosine", "statement": "sin01(x) is within 2e-6 of sin(2 pi x) for 0 <= x < 2^21; sin(x) and cos(x) are within 2e-6 + 3e-8 x of the mathematical functions for the arguments they are defined on (exact arithmetic on the stored table).", "quantifier": "every non-negative argument up to 2^21 periods", "why_tests_cant": "the reals between the sampled arguments, and 2^21 periods", "anchors": ["util/math.hh: sin, sin01, cos", "util/math_tables.cc: sinTable", "util/interp_array.hh: interp_wrap"]}
{"id": "C136", "title": "Powers of two are accurate", "statement": "The exponential tables give 2^(5x) and 2^(10x) for 0 <= x <= 1 with a relative error of at most 1e-6 and 2.1e-6, pow2(x) gives 2^x with a relative error of at most 1e-6 for every x >= 0, setPitchMultiple(v) gives 2^(5v) within 1.1e-6 for v in [-1,1].", "quantifier": "every argument in the stated ranges", "why_tests_cant": "a continuum of arguments", "anchors": ["util/math.hh: pow2, setPitchMultiple", "util/math_tables.cc: exp5Table, exp10Table"]}
{"id": "C137", "title": "The logarithm table and the normalised frequency are accurate", "statement": "Every entry of the logarithm table is within 1e-6 of log(20 + 19980 i/2047); audioFreqToNorm(x) is within 1.73/g^2 + 2e-6 of log(x/20)/log(1000), for g = max(20, x - 9.77).", "quantifier": "all 2048 entries, every x in [20, 20000]", "why_tests_cant": "a continuum of arguments", "anchors": ["util/math.hh: audioFreqToNorm", "util/math_tables.cc: logTable"]}
{"id": "C138", "title": "Table tangent is the tangent", "statement": "tan(x) approximates the tangent for every argument it is defined on, with an error that is small relative to 1 + tan(x)^2.", "quantifier": "every non-negative argument up to 2^21 half periods", "why_tests_cant": "a continuum of arguments; the cells next to the pole are easily missed", "anchors": ["util/math.hh: tan", "util/math_tables.cc: tanTable"]}
{"id": "C139", "title": "Table sine and cosine keep their accuracy in binary32", "statement": "With every operation rounded to the nearest binary32 value, sin01(x) stays within 2.2e-6 of sin(2 pi x), sin(x) within 2.4e-6 + 9e-8 x of the sine and cos(x) within 2.7e-6 + 1.5e-7 x of the cosine, without undefined behaviour.", "quantifier": "every binary32 argument from 0 (to 2^21 periods, 10^7), every rounding to nearest", "why_tests_cant": "four billion arguments and every tie-breaking rule", "anchors": ["util/math.hh: sin, sin01, cos", "util/interp_array.hh: interp_wrap"]}
{"id": "C140", "title": "The sine oscillator produces a sine wave", "statement": "The n-th sample of process_bipolar, process_unipolar and process is within 2.4e-6, 1.3e-6 and 6000 (of 4294967040) of the sine of 2 pi (phase + n increment)/2^32, in exact and in binary32 arithmetic, for every n: no error accumulates.", "quantifier": "every start phase, increment and number of samples", "why_tests_cant": "unbounded streams; accumulation of error", "anchors": ["util/oscs.hh: SineOscillator"]}
{"id": "C141", "title": "A generated look-up table approximates its function", "statement": "A LookupTable generated with n points from a function F with |F''| <= M on the range (each point computed within e) returns for every argument in the range a value within e + M h^2/8 of F, h being the point distance, and for arguments outside a value within e of F at the nearer end.", "quantifier": "every n >= 2, range, function, argument", "why_tests_cant": "all functions and a continuum of arguments", "anchors": ["util/lookup_table.hh: LookupTable::generate, lookup"]}
{"id": "C142", "title": "contains_word is defined for every string", "statement": "contains_word(name, word) has no undefined behaviour and finds exactly the space-delimited occurrences for every name and word, whatever bytes they contain and whether char is signed or not.", "quantifier": "all strings of bytes, both signednesses of char", "why_tests_cant": "passing a negative char to std::tolower happens to work on most libraries", "anchors": ["util/contains_word.hh: contains_word"]}
{"id": "C143", "title": "Smoothing filters stay between their inputs in binary32", "statement": "In single-precision arithmetic with round-to-nearest, add_val of the one-pole filter with quadratic or hysteresis transfer function moves the stored value to a point exactly between the old value and the new sample (no overshoot by rounding), so samples from [lo, hi] keep the value in [lo, hi] for ever; the hysteresis filter leaves the value bit-identical inside its dead zone; SmoothOversampler returns the correctly rounded mean of the last complete block.", "quantifier": "all float samples and states (within the stated range of the filter), all sequences of samples, all filter parameters, any round-to-nearest rule", "why_tests_cant": "whether some rounding overshoots cannot be found by sampling the floats", "anchors": ["util/filter.hh: NonLinearOnePoleLp, TransferQuadratic, TransferHysteresis, SmoothOversampler"]}
{"id": "C144", "title": "Interpolated parameters reach their target in binary32", "statement": "After set_new_value(v) with n updates, InterpParam, InterpParamVar, InterpParamVariable and FilteredInterpArray output in single-precision arithmetic values within rounding of the straight line from the current value to v, and v itself after n updates.", "quantifier": "all float values, all n up to 2^24, every update, any round-to-nearest rule", "why_tests_cant": "the accumulated rounding of n additions depends on all the bits of the values", "anchors": ["util/interp_param.hh: InterpParam, InterpParamVar, InterpParamVariable", "util/filtered_interp_array.hh: FilteredInterpArray"]}
{"id": "C145", "title": "Look-up tables in binary32: in range, monotone, accurate", "statement": "In single-precision arithmetic lookup(x) reads only inside the table, returns a value between two neighbouring points (so never outside the range of the points), exactly the first or last point at and beyond the ends of the range, never decreases in x for a table that never decreases, and differs from exact linear interpolation by at most a stated number of units in the last place.", "quantifier": "all tables of 2 to 2^24 floats, all float ranges and arguments, any round-to-nearest rule", "why_tests_cant": "overshoot by one rounding error at one of 2^32 arguments cannot be found by sampling", "anchors": ["util/lookup_table.hh: LookupTable"]}
{"id": "C146", "title": "generate samples its function inside the range", "statement": "LookupTable::generate evaluates the function at min, at max and at evenly spaced arguments between them, in single-precision arithmetic.", "quantifier": "all numbers of points up to 2^24, all float ranges, any round-to-nearest rule", "why_tests_cant": "whether the last argument is rounded past the end depends on the number of points and the bits of the range", "anchors": ["util/lookup_table.hh: LookupTable, details::CreateArray"]}
{"id": "C147", "title": "InterpArray in binary32: in bounds, exact at the elements, between neighbours", "statement": "In single-precision arithmetic the interpolating accessors read only inside the array for every phase in [0, 1] (every non-negative phase for the wrapping ones), return exactly the element at element positions, and otherwise a value between the two neighbours, within rounding of the linear blend.", "quantifier": "all arrays of 1 to 2^24 floats, all float phases and indexes, any round-to-nearest rule", "why_tests_cant": "needs all phases for all tables", "anchors": ["util/interp_array.hh: InterpArray"]}
{"id": "C148", "title": "Calibration round trips in binary32", "statement": "In single-precision arithmetic reverse_calibrate undoes adjust and adjust undoes reverse_calibrate, as the two static_asserts claim for one value; adjust is monotone; and calibrate_chan gives a calibrator that maps both measurements to their targets.", "quantifier": "all float calibrators and values, any round-to-nearest rule", "why_tests_cant": "the static_asserts check one value", "anchors": ["util/calibrator.hh: Calibrator"]}
{"id": "C149", "title": "Oscillators in binary32: value range, frequency and period accuracy", "statement": "In single-precision arithmetic process_float of the triangle and ramp oscillators is always in [0, 1], within 2^-24 of the 32-bit value as a fraction and never out of order; set_frequency(float) is defined below the update rate and gives the requested frequency up to 2^-22 (and truncation); DownCounter::set_period_ms is defined at rates of 1000 Hz and more and the counter runs for the requested period up to 2^-21 (and truncation).", "quantifier": "all oscillator states, frequencies, periods and update rates, any round-to-nearest rule", "why_tests_cant": "2^32 phases, all float frequencies, all run lengths", "anchors": ["util/oscs.hh: TriangleOscillator, PhaseAccum, DownCounter"]}
{"id": "C150", "title": "OneShot pulse length in binary32", "statement": "In single-precision arithmetic a OneShot started with a width of w seconds returns true for w * update_rate updates, rounded up, and false for ever after.", "quantifier": "all float widths and update rates, all numbers of updates, any round-to-nearest rule", "why_tests_cant": "rounding errors accumulate over millions of updates", "anchors": ["util/oscs.hh: OneShot"]}
{"id": "C151", "title": "Colour blending and scaling in binary32", "statement": "In single-precision arithmetic blend(colour, float) and colour * float with a phase in [0, 1] never convert a value outside 0..255, return the first colour at 0 and the second at 1, stay between the two colours in every channel and within rounding of the weighted mean; the LED's set_color(colour, brightness) scales the same way; the packed 16-bit blends with a float alpha reach both ends and are monotone in alpha; RGB565(float, float, float) loses nothing to rounding.", "quantifier": "all colours and all float phases in [0, 1], any round-to-nearest rule", "why_tests_cant": "2^16 channel pairs times 2^30 phases", "anchors": ["util/colors.hh: Color::blend, Color::operator*, Color::slow_blend", "util/colors_rgb565.hh: RGB565", "util/rgbled.hh: MixedRgbLed::set_color"]}
{"id": "C152", "title": "LED animations with float arguments in binary32", "statement": "In single-precision arithmetic a flash or fade of ms milliseconds lasts for the period whose frequency is 1000 / ms, and breathe runs at the requested frequency up to rounding.", "quantifier": "all LED states, colours, float durations and frequencies and update rates, any round-to-nearest rule", "why_tests_cant": "all float durations; the frequency is truncated to an integer, so one rounding error can change it by one", "anchors": ["util/rgbled.hh: RgbLed::flash_once_ms, RgbLed::fade_once_ms, RgbLed::breathe"]}
{"id": "C153", "title": "Value mapping and interpolation in binary32", "statement": "In single-precision arithmetic map_value takes the ends of the input range to the ends of the output range, never reverses order, stays in the output range and is within rounding of the affine map; interpolate and interpolate3 agree, give both arguments at phases 0 and 1 and stay between them; randomNumber<float> stays between its bounds.", "quantifier": "all float ranges, arguments and phases, any round-to-nearest rule", "why_tests_cant": "the static_assert checks one case; whether rounding leaves the range depends on all bits of all arguments", "anchors": ["util/math.hh: MathTools::map_value, MathTools::interpolate, MathTools::interpolate3, MathTools::randomNumber"]}
{"id": "C154", "title": "faster_sine in binary32", "statement": "In single-precision arithmetic faster_sine is in [-1, 1] for every float in [0, 1], exact at the five documented points, has the right sign on each half and is within 3 / 2^23 of the parabola it computes.", "quantifier": "all floats in [0, 1], any round-to-nearest rule", "why_tests_cant": "2^30 arguments; one rounding the wrong way would exceed 1", "anchors": ["util/math.hh: MathTools::faster_sine"]}
{"id": "C155", "title": "Hysteresis gates in binary32", "statement": "In single-precision arithmetic hysteresis_gate and hysteresis_feedback return 0 or 1, are monotone in the input, switch at the documented sums and differences of their parameters up to 2^-22, and never change the output while the signal stays inside the dead band.", "quantifier": "all float thresholds and inputs in [0, 1], all input sequences, any round-to-nearest rule", "why_tests_cant": "all signals near the thresholds", "anchors": ["util/math.hh: MathTools::hysteresis_gate, MathTools::hysteresis_feedback"]}
{"id": "C156", "title": "The signal analyser in binary32", "statement": "In single-precision arithmetic the average kept by AnalyzedSig stays between the minimum and the maximum of the samples since reset_to and converges to a constant signal.", "quantifier": "all float samples and coefficients, all sample sequences, any round-to-nearest rule", "why_tests_cant": "rounding errors accumulate over unbounded histories", "anchors": ["util/analyzed_signal.hh: AnalyzedSig, AnalyzedSignal"]}
{"id": "C157", "title": "Entries of a thread-safe pool change hands without data races", "statement": "When each thread accesses and destroys only entries whose index it got from create() and has not destroyed, an entry has at most one owner at any time and no two accesses to an entry by different threads race under the C++ memory model, also between one owner and the next, without any other synchronisation.", "quantifier": "any number of threads, any pool size, every interleaving of the atomic steps of create() and destroy() and of reads and writes of entries", "why_tests_cant": "a missing happens-before edge shows only on some machines and schedules", "anchors": ["util/thread_safe_pool.hh:ThreadSafePool"]}
{"id": "C158", "title": "Clearing a thread-safe pool", "statement": "clear() may be called from any thread at any time: it does not race with accesses to the entries by their owners, past or present, and does not give an entry to two owners.", "quantifier": "any number of threads, any pool size, every interleaving of the assignments inside clear() with the other calls", "why_tests_cant": "the failing interleavings are a few instructions wide", "anchors": ["util/thread_safe_pool.hh:ThreadSafePool::clear"]}
{"id": "C159", "title": "Powers of two and pitch multiples in binary32", "statement": "In single-precision arithmetic pow2(x) terminates and returns 2^x, and setPitchMultiple(v) returns 2^(5v), up to a stated relative error.", "quantifier": "all floats from 0 to 127 for pow2 and from -1 to 1 for setPitchMultiple, any round-to-nearest rule", "why_tests_cant": "needs all float arguments and a comparison with the real power; the loop of pow2 rounds its argument at each turn", "anchors": ["util/math.hh: MathTools::pow2, MathTools::setPitchMultiple", "util/math_tables.cc: exp5Table"]}
{"id": "C160", "title": "Normalised frequency in binary32", "statement": "In single-precision arithmetic audioFreqToNorm(f) returns log(f/20)/log(1000) up to a stated error.", "quantifier": "all float frequencies from 20 to 20000, any round-to-nearest rule", "why_tests_cant": "needs all float arguments and a comparison with the real logarithm", "anchors": ["util/math.hh: MathTools::audioFreqToNorm", "util/math_tables.cc: logTable"]}
{"id": "C161", "title": "Nearest-entry cosine and both tangents in binary32", "statement": "In single-precision arithmetic cos_close, tan and tan_close approximate the real cosine and tangent, up to a stated error, for every non-negative argument of moderate size.", "quantifier": "all floats from 0 to six million (ten million for cos_close), any round-to-nearest rule", "why_tests_cant": "needs all float arguments and a comparison with the real functions", "anchors": ["util/math.hh: MathTools::cos_close, MathTools::tan, MathTools::tan_close", "util/math_tables.cc: sinTable, tanTable"]}
{"id": "C162", "title": "V/oct calibration with noise and rounding", "statement": "In single-precision arithmetic, if every measurement deviates from a straight line by at most delta and two different octaves were measured since the last reset, VoctCalibrator's slope() and offset() are those of the line up to a stated multiple of delta and of the rounding error, and offset() is within delta if C0 was measured.", "quantifier": "all lines, all noise bounds, all histories of measurements and resets, any round-to-nearest rule", "why_tests_cant": "all histories and all float measurements", "anchors": ["util/voct_calibrator.hh: VoctCalibrator"]}
{"id": "C163", "title": "Latched parameters in binary32", "statement": "In single-precision arithmetic LatchedParam<float, num, den>::store_changed(x) accepts x exactly if it differs from the current value by at least num/den; the value never lags the last stored one by more than that, and noise below it never causes a change.", "quantifier": "all floats, all thresholds with num and den up to 2^24, all histories, any round-to-nearest rule", "why_tests_cant": "all pairs of floats around the threshold", "anchors": ["util/parameter.hh: LatchedParam", "util/math.hh: MathTools::abs_diff"]}
{"id": "C164", "title": "A transmit function that calls back into DoubleBufferStream", "statement": "The transmit function may itself call transmit() and tx_done_callback() before it returns, to any depth (a blocking driver does): the effect is that of the same calls made one after the other, so nothing accepted is lost, repeated or reordered; with a blocking transmit function every word that fits is handed over within its own call and the stream is idle afterwards.", "quantifier": "all buffer sizes, all words, all histories and nestings of calls, any answers of the transmit function", "why_tests_cant": "unbounded histories and nesting depths", "anchors": ["util/doublebuf_stream.hh: DoubleBufferStream"]}
{"id": "C165", "title": "Readings that arrive while FilteredInterpArray takes them over", "statement": "mark_new_data_ready() may be called, and readings may be written, at any moment of a running add_new_readings(): no announcement is lost (when the consumer is outside the function, either the flag is still set or every filter has been given a reading at least as recent as the last announced one); each filter gets the value written last; there are never more transfers than announcements; and each call that finds the flag set has the sequential effect of C105 for the readings it got. The readings of one call need not belong to one announcement.", "quantifier": "all numbers of channels, all filters, all interleavings of the producer's and the consumer's steps, all readings", "why_tests_cant": "all interleavings", "anchors": ["util/filtered_interp_array.hh: FilteredInterpArray"]}
{"id": "C166", "title": "FilteredInterpArray's new-data flag between two cores", "statement": "Under the C++ memory model, with readings that are relaxed atomics: filters are only given values written to their channel, never going back in time; a call that finds the flag set uses readings at least as recent as those announced before it looked; it never gets stuck; and no announcement is lost.", "quantifier": "all numbers of channels, all interleavings and all values the memory model lets a load return", "why_tests_cant": "all executions of a weak memory model; on one test machine the reordering may never occur", "anchors": ["util/filtered_interp_array.hh: FilteredInterpArray::mark_new_data_ready, add_new_readings"]}
{"id": "C167", "title": "LockFreeFifoSpscDyn is free of data races under the C++ memory model", "statement": "With one producer and one consumer thread on different cores, no execution of LockFreeFifoSpscDyn has a data race or an access outside the buffer, and the items come out in the order they were put.", "quantifier": "all capacities, all histories, all interleavings and all values the memory model lets the loads return", "why_tests_cant": "weak-memory executions; races do not show on strongly ordered test machines", "anchors": ["util/lockfree_fifo_spsc_dyn.hh: LockFreeFifoSpscDyn"]}
{"id": "C168", "title": "Inner products with the portable vector operations in binary32", "statement": "The inner product of n blocks of four, accumulated with vmlaq_f32 from zero and summed with vget_low/high_f32, vpadd_f32 and vget_lane_f32, differs from the exact one by at most (1 + 2^-24)^(n+3) - 1 times the sum of the magnitudes of its terms (each plus 2^-126), whether or not the compiler fuses multiplication and addition; multiplication and subtraction are correctly rounded in each lane.", "quantifier": "all lengths, all values short of overflow, every rounding to nearest, both ways of compiling", "why_tests_cant": "unbounded lengths and all float values", "anchors": ["util/soft_neon.hh: vmlaq_f32, vmulq_f32, vsubq_f32, vpadd_f32, vget_low_f32, vget_high_f32, vget_lane_f32, vdupq_n_f32"]}
{"id": "C169", "title": "Button events registered by an interrupt", "statement": "When an interrupt registers states or edges at any moment, also in the middle of is_just_pressed() or is_just_released(), each of these answers true exactly if an edge of its kind was registered since its last true answer (and not withdrawn by an opposite edge of a Debouncer), there are never more true answers than edges, and is_high() is the state registered last. This holds for Toggler and TogglerCompact.", "quantifier": "all schedules of interrupts between the memory accesses of the main program's calls, all states registered", "why_tests_cant": "the window is one or two instructions wide", "anchors": ["util/debouncer.hh: Toggler", "util/debouncer_compact.hh: TogglerCompact"]}
{"id": "C170", "title": "StaticString copied from part of itself", "statement": "copy() may be given a pointer or a string_view into the string itself: the result is exactly the characters designated, although reading and writing interleave; copying a string onto itself changes nothing.", "quantifier": "all capacities, contents and positions in the string", "why_tests_cant": "all contents and overlaps", "anchors": ["util/static_string.hh: StaticString::copy"]}
{"id": "C171", "title": "Interpolated parameters of machine integer types", "statement": "For every integer type, setting a new value to be reached in n steps and calling next() n times is defined, moves in equal steps between the old value and the new one, never passing it, and ends less than n away from it.", "quantifier": "all integer types, start values, targets and numbers of steps, for InterpParam, InterpParamVar and InterpParamVariable", "why_tests_cant": "all pairs of values near the limits of the types", "anchors": ["util/interp_param.hh: InterpParam, InterpParamVar, InterpParamVariable"]}
{"id": "C172", "title": "Cross-fading writes in binary32", "statement": "In single-precision arithmetic a cross-fading write stores the weighted mean of old and new element up to a stated relative error and so stays between them up to that error; with integer elements the value stored fits the 16-bit type of audio samples, is between old and new, and a constant signal stays constant.", "quantifier": "all float phases in [0, 1], all float elements, all integer elements up to 2^20, any round-to-nearest rule", "why_tests_cant": "2^30 phases times all pairs of elements", "anchors": ["util/circular_buffer_ext.hh: CircularBufferAccess::write, CircularBufferAccess::write_reverse"]}
{"id": "C173", "title": "Averages of signed and narrow samples", "statement": "For every integer sample type and every stream of samples, a moving average returns the average of the last Size samples rounded down, and an oversampler that of the last complete block.", "quantifier": "all integer types of at most 32 bits, all power-of-two sizes, all streams", "why_tests_cant": "negative samples, widths and sizes combined, all streams", "anchors": ["util/filter.hh: MovingAverage, Oversampler, SmoothOversampler"]}
{"id": "C174", "title": "The hysteresis filter on integers", "statement": "With any integer type a hysteresis filter keeps its value while the input stays within the dead zone, otherwise moves towards the input without passing it and follows it within the dead zone plus one unit; no call is undefined.", "quantifier": "all integer types, dead zones, states, inputs and streams of magnitude below 2^22, any round-to-nearest rule", "why_tests_cant": "all pairs of state and input times all dead zones", "anchors": ["util/filter.hh: HysteresisFilter, NonLinearOnePoleLp, TransferHysteresis"]}
{"id": "C175", "title": "Interpolating arrays of integers", "statement": "With integer elements and a float index, an interpolating array returns the element at an integer index exactly and otherwise a value between the two neighbouring elements; no conversion is undefined and an array of equal elements always returns that element.", "quantifier": "all integer types, elements up to 2^20, all float indices and phases, any round-to-nearest rule", "why_tests_cant": "2^30 phases times all pairs of elements", "anchors": ["util/interp_array.hh: InterpArray::interp, interp_wrap, interp_by_index, interp_by_index_wrap"]}
{"id": "C176", "title": "Mapping between float and integer ranges", "statement": "map_value from a float range to an integer range, or from an integer range to a float range, takes the ends to the ends, never reverses order and stays in the output range.", "quantifier": "all float ranges at least 2^-60 wide, integer ranges up to 2^18, all inputs, any round-to-nearest rule", "why_tests_cant": "whether rounding loses the last unit depends on all bits of the ranges", "anchors": ["util/math.hh: MathTools::map_value"]}
{"id": "C177", "title": "wrap in narrow, unsigned and signed types", "statement": "wrap(val, min, max) in an unsigned type or one narrower than int ends with a value in the range that differs from val by whole periods, even if the period is not a value of the type; wrap<Max>(val) ends with the remainder of val modulo Max, also for signed types.", "quantifier": "all integer types of at most 32 bits, all values and bounds", "why_tests_cant": "loops of up to 2^32 turns, all bounds near the limits of the type", "anchors": ["util/math.hh: MathTools::wrap"]}
{"id": "C178", "title": "The compact binary format with signed sizes", "statement": "With a signed size type a parser reads back every entry a writer stored, and on arbitrary bytes no lookup reads outside the blob.", "quantifier": "all key and signed size types, all descriptions, all blobs and keys", "why_tests_cant": "hostile sizes in arbitrary blobs; all sizes near half of the range of the type", "anchors": ["util/compact_binary_parser.hh: CompactBinaryParser"]}
{"id": "C179", "title": "V/oct calibration in integers", "statement": "With a signed integer measurement type, measurements of an integer line give exactly that line once two different notes are measured; any two measurements give a line that passes them within half the distance of the notes; no call is undefined.", "quantifier": "all signed integer types, all histories of measurements and resets", "why_tests_cant": "unbounded histories, all pairs of measurements", "anchors": ["util/voct_calibrator.hh: VoctCalibrator"]}
{"id": "C180", "title": "Motion and changes registered by an interrupt", "statement": "When an interrupt turns an encoder or updates a change detector at any moment, also in the middle of a call by the main program, no motion is lost: what use_motion() and transfer_motion() deliver plus what is stored is what the encoder was turned by; add_motion() adds the same amount to both counters; and changed() answers true exactly if there was a change since its last true answer.", "quantifier": "all schedules of interrupts between the memory accesses of the main program's calls, all amounts turned and states", "why_tests_cant": "the window is one or two instructions wide", "anchors": ["util/rotary_motion.hh: RotaryMotion::use_motion, transfer_motion, add_motion", "util/change_detector.hh: ChangeDetector"]}
{"id": "C181", "title": "Distances and latched parameters in every integer type", "statement": "abs_diff and diff are the distance of their arguments and between the distance from the lower end, and a LatchedParam accepts a value exactly if it is at least numerator/denominator away, so that it never lags the last value by that much, in every integer type.", "quantifier": "all integer types, all pairs of values, all thresholds and histories", "why_tests_cant": "all pairs of values of all types", "anchors": ["util/math.hh: abs_diff, diff, between", "util/parameter.hh: LatchedParam"]}
{"id": "C182", "title": "Parameters set by an interrupt", "statement": "When an interrupt sets a Parameter, a LatchedParam or the variable of a RefParameter at any moment, also in the middle of isChanged() or did_change(), every change is reported exactly once (a RefParameter: the value differs from that at the last report), and the value is the one set last.", "quantifier": "all schedules of interrupts between the memory accesses of the main program's calls, all values", "why_tests_cant": "the window is one or two instructions wide", "anchors": ["util/parameter.hh: Parameter, RefParameter, LatchedParam"]}
{"id": "C183", "title": "Recalibrating V/oct without a reset", "statement": "After any earlier measurements, two measurements of different notes give the slope of the line through them, and the offset of that line unless an earlier measurement of C0 fixes it.", "quantifier": "all earlier histories and all pairs of measurements", "why_tests_cant": "unbounded histories", "anchors": ["util/voct_calibrator.hh: VoctCalibrator::record_measurement"]}
{"id": "C184", "title": "A circular buffer filled by an interrupt", "statement": "When an interrupt puts items into a CircularBuffer at any moment, also in the middle of a get() by the main program, get() hands out the oldest item, answers that there is none only if the buffer was empty when it looked, no item is lost except the oldest of a full buffer, and no access is outside the buffer.", "quantifier": "all buffer sizes, all item types, all schedules of interrupts between the memory accesses of get()", "why_tests_cant": "interrupts hit each of the seven gaps of get() only by chance, and the outcome depends on how full the buffer is", "anchors": ["util/circular_buffer_opt.hh: CircularBufferOpt::put, get", "util/circular_buffer.hh: CircularBuffer::put, get"]}
{"id": "C185", "title": "wrap with float arguments", "statement": "wrap(val, min, max) with float arguments ends with a value between min and max that differs from val by whole periods, and wrap<Max>(val) with the remainder of val modulo Max.", "quantifier": "all floats, all bounds, any round-to-nearest rule", "why_tests_cant": "whether a step of the loop still changes the value depends on all bits of val; fractions between max and max+1 are not in the library's own checks", "anchors": ["util/math.hh: MathTools::wrap"]}
{"id": "C186", "title": "Averages of float samples", "statement": "MovingAverage and Oversampler with float samples give the average of the last samples (rounded down to a whole number), and ResizingOversampler gives the mean of the last finished block up to rounding.", "quantifier": "all sizes, all sample streams, all histories of size changes and resets, any round-to-nearest rule", "why_tests_cant": "rounding errors and lost fractions accumulate over unbounded streams", "anchors": ["util/filter.hh: MovingAverage, Oversampler, ResizingOversampler"]}
{"id": "C187", "title": "Partitions of signed and floating-point values", "statement": "Partition works for any arithmetic type. Whatever the type, if no addition is undefined, each index is in exactly one part, exactly once. For non-negative values of a signed integer type whose sum fits, the sums of any two parts differ by at most the largest element (or the spread of the initial values); for non-negative floats, by that plus a rounding error proportional to the sum of everything. Negative values are not balanced: four values of -1 all go to the first part. Nor are floats small beside the initial sums: any number of ones go to the first part when both sums start at 2^25.", "quantifier": "every number of parts, capacity, list of values, list of initial values, result of the sort (ties in any order), and every rounding to nearest", "why_tests_cant": "The assignment depends on the whole list of values and on how ties are sorted and how sums round; tests see a few lists of small integers.", "anchors": ["util/partition.hh: Partition::calc_partitions"]}
{"id": "C188", "title": "Look-up tables of integers", "statement": "LookupTable<NumPoints, T> compiles for an integer type T, but never interpolates: the result is always one of the points. For every value below max it is the first point and from max on the last, provided the differences and the index fit the type (always so between min and max, if the number of points fits). In general it is the point whose index is the quotient of val - min by max - min, rounded towards zero, times NumPoints - 1, wrapped to T and limited to the table: so with unsigned types a value below min gives the last point, and with narrow types a value far above max can give any point.", "quantifier": "every integer type and width of size_t, table, range and value", "why_tests_cant": "The conversions depend on the widths of T and size_t; the only tests in the file are for float and are commented out.", "anchors": ["util/lookup_table.hh: LookupTable::lookup, LookupTable::operator()"]}
{"id": "C189", "title": "Polling with narrow signed and float clocks", "statement": "PollEvent with a signed TimeT of fewer bits than int: the clock may wrap, and the action runs exactly if the period has elapsed modulo 2^w, except if the due time lay before the wrap and the poll after it; polled at every tick it runs exactly at the multiples of the period, for ever. With a float clock that does not go back it runs if the period has elapsed and not before the period less its 2^24th part; if the clock goes back it is silent until the clock has passed the last run; and two runs that follow each other are never closer than that.", "quantifier": "every width, period, clock value and sequence of poll times; every rounding to nearest", "why_tests_cant": "The wrap and the rounding depend on the whole range of clock values.", "anchors": ["util/poll_event.hh: PollEvent::poll"]}
{"id": "C190", "title": "When the end of a transmission may interrupt transmit()", "statement": "The header warns that DoubleBufferStream is not safe if tx_done_callback() interrupts transmit(). Exactly: the interrupt is harmless before transmit() has read in_progress_idx, while the buffer it chose is still empty, and after it has pushed the whole word. Under every schedule with interrupts only at these moments the data handed to the transmit function are the accepted words in order, without loss or repetition, and the buffer in transmission is never modified. At every other moment the rest of the word is pushed into the buffer in transmission and lost, although transmit() reports success.", "quantifier": "every capacity, sequence of words, interleaving of the steps of transmit() with interrupts, and every answer of the transmit function", "why_tests_cant": "The interleavings are unbounded and the window is a few instructions wide; a test would have to interrupt at the right one.", "anchors": ["util/doublebuf_stream.hh: DoubleBufferStream::transmit, DoubleBufferStream::tx_done_callback"]}
{"id": "C191", "title": "A circular buffer of floats replaces what was stored, for every float", "statement": "Writing through a CircularBufferAccess at the default phase replaces the element written over by the new one whatever was stored before. As coded the new value is blended with the old one (data*phase + old*(1-phase)), so this holds only if the stored value is finite: a NaN or infinity once stored becomes NaN and then survives every later write to that place until clear(); with int32 elements near the top of their range the write is undefined.", "quantifier": "for all buffer contents, all histories of writes and all float elements including NaN and infinities, all int32 elements", "why_tests_cant": "a test writes ordinary numbers; whether one special value survives for ever depends on the whole later history", "anchors": ["util/circular_buffer_ext.hh: CircularBufferAccess::write, clear"]}
{"id": "C192", "title": "Look-up tables, interpolated arrays and pow2 for every float argument", "statement": "LookupTable::lookup, InterpArray::interp, the table-based sin/cos, the exponential tables and pow2 return a value for every float argument, never reading outside their table. As coded finite arguments of the stated ranges are safe and the result equals that of the finite model; NaN always, and infinities or large arguments in several functions, convert an out-of-range float to an integer or index outside of the table, which is undefined.", "quantifier": "for all float arguments including NaN, infinities and the largest floats, all tables", "why_tests_cant": "which of the 2^32 arguments leave the table cannot be sampled, and undefined behaviour need not show in a test", "anchors": ["util/lookup_table.hh: LookupTable::lookup", "util/interp_array.hh: InterpArray::interp", "util/math.hh: pow2"]}
{"id": "C193", "title": "Filters and analysers recover from special samples", "statement": "After a NaN or infinite sample the filters and signal analysers recover once ordinary samples follow, and ordinary samples never produce special values. As coded: the one-pole filters (NonLinearOnePoleLp with either transfer function) and the average of AnalyzedSig are NaN for ever from the next sample on, and the quadratic filter also after a finite sample 2^64 away from its state; ResizingOversampler recovers at the end of a block; minimum and maximum of AnalyzedSig and PeakMeter ignore NaN and bound every other sample including infinities.", "quantifier": "for all float samples including NaN and infinities, all filter parameters in range and all sequences of samples of any length", "why_tests_cant": "recovery is a statement about every later history", "anchors": ["util/filter.hh: ResizingOversampler, TransferQuadratic, TransferHysteresis, NonLinearOnePoleLp", "util/analyzed_signal.hh: AnalyzedSig, PeakMeter"]}
{"id": "C194", "title": "The arithmetic helpers and Schmitt triggers for every float", "statement": "constrain, max, min, between, f_abs, diff and abs_diff, interpolate and interpolate3, map_value, faster_sine, the hysteresis gates and the Schmitt triggers keep their meaning for every float. As coded: constrain brings all floats except NaN into the range, max and min of non-NaN arguments bound both, between never accepts NaN, f_abs is the magnitude, diff is symmetric, the Schmitt triggers ignore NaN altogether, and blending, mapping and the sine stay finite and equal to the finite model in stated ranges. Violated: NaN passes through constrain; max and min with a NaN depend on argument order; inf-inf distances are NaN; interpolate3 overflows between far-apart finite values, giving NaN even at phase 0; at phase 0 or 1 the unused end still matters if special; an empty input range of map_value gives no finite value.", "quantifier": "for all floats including NaN and infinities, all sequences of samples for the Schmitt triggers", "why_tests_cant": "special values reach these helpers through any calculation upstream; which of the 2^64 argument pairs break them cannot be sampled", "anchors": ["util/math.hh: constrain, max, min, between, f_abs, diff, abs_diff, interpolate, interpolate3, map_value, faster_sine, hysteresis_gate", "util/schmitt_trigger.hh: SchmittTrigger"]}
{"id": "C195", "title": "Parameters and interpolated parameters for every float", "statement": "A parameter takes every value given to it and reports a change once per change; an interpolated parameter arrives at each new value. As coded Parameter and RefParameter do so for every float but NaN, LatchedParam ignores NaN samples, and interpolated parameters are exact for values up to 2^100. Violated: setting NaN reports a change every time, for ever; a LatchedParam holding NaN takes no value any more and one holding an infinity does not register the same infinity; an InterpParam given an infinity or NaN is never finite again, whatever new values it gets; InterpParamVariable with 0 updates is lost in the same way. InterpParamVar recovers by snap_to_target().", "quantifier": "for all floats including NaN and infinities, all sequences of new values and updates of any length", "why_tests_cant": "recovery is a statement about every later history", "anchors": ["util/parameter.hh: Parameter, RefParameter, LatchedParam", "util/interp_param.hh: InterpParam, InterpParamVariable, InterpParamVar"]}
{"id": "C196", "title": "Audio samples from every float", "statement": "scaleOutput turns every float into a sample, saturating what is out of range. As coded every finite float does what C116 describes, and plus and minus infinity saturate for unsigned samples and for signed samples that use all their bits. Violated: NaN is converted to an integer, which is undefined, for every sample type; and so are infinities for 24-bit samples held in 32 bits.", "quantifier": "for all floats including NaN, infinities and the largest finite floats, all sample widths", "why_tests_cant": "the undefined conversions need not show in a test, and depend on the processor", "anchors": ["util/audio_frame.hh: AudioFrame::scaleOutput"]}
{"id": "C197", "title": "Oscillators, one-shots, colours and LEDs given any float", "statement": "Setting an oscillator's frequency, starting a one-shot, blending or scaling colours and flashing an LED have a defined effect for every float. As coded all finite floats do what the finite models describe (colour blending for phases up to 2^100); a one-shot ignores NaN pulses and NaN or non-positive rates. Violated: infinities and NaN as frequency, brightness, phase or component are undefined, even for black; a one-shot with an infinite width or rate never ends until stop().", "quantifier": "for all floats including NaN and infinities, all colours and oscillator states, any number of updates", "why_tests_cant": "the undefined conversions need not show in a test, and that a pulse never ends is a statement about unbounded time", "anchors": ["util/oscs.hh: TriangleOscillator::set_frequency, OneShot", "util/colors.hh: Color::blend, blend, slow_blend", "util/colors_rgb565.hh: RGB565", "util/rgbled.hh: MixedRgbLed::flash_once_ms, set_color"]}
{"id": "C198", "title": "Calibrator for every float", "statement": "A Calibrator built from two targets and two measurements maps values to finite ones, equal to those of exact calibration up to rounding, whenever that makes sense. As coded: values up to 2^24 in magnitude and at least 2^-24 apart stay finite in calibrate, adjust and reverse_calibrate and do what C148 describes. Violated: two equal measurements, two equal targets (where a constant would be right), or an infinity or NaN among the four give a Calibrator whose adjust() is never finite for any value, without an error.", "quantifier": "for all four floats including NaN and infinities, all later adjusted values", "why_tests_cant": "that no value at all is mapped to a finite one ranges over every later call", "anchors": ["util/calibrator.hh: Calibrator::calibrate_chan, adjust, reverse_calibrate"]}
{"id": "C199", "title": "VoctCalibrator for every float", "statement": "A V/oct calibrator recovers from bad measurements: after two good measurements of different notes slope and offset are those of these two. As coded: for measurements up to 2^100 nothing overflows in any history and the states are those of C148 and C62; after any history whatever, two ordinary measurements of different notes restore the slope, and the offset too if C0 was not measured since reset(). Violated: a C0 measured as NaN or infinity stays the offset whatever other notes are measured; and a NaN measurement passes the check for a difference, makes the slope NaN, and repeated measurements of the same note do not mend it.", "quantifier": "for all histories of measurements and resets of any length, all floats including NaN and infinities", "why_tests_cant": "recovery after any history is a statement about unboundedly many histories", "anchors": ["util/voct_calibrator.hh: VoctCalibrator::record_measurement, reset, slope, offset"]}
{"id": "C200", "title": "wrap returns for every float", "statement": "wrap<Max>(float) and wrap<float>(val, min, max) return for every float a value in the range. As coded finite floats run exactly the loops of C185 (for wrap with limits: values to 2^127, limits to 2^124) and NaN is returned unchanged. Violated: for an infinity the loops never end; minus infinity passes wrap<Max> unchanged; and limits so far apart that their distance overflows turn a finite value below the lower limit into plus infinity, above the upper one.", "quantifier": "for all floats including NaN and infinities, all limits, any number of iterations", "why_tests_cant": "that a loop never ends cannot be observed by a test", "anchors": ["util/math.hh: wrap"]}
{"id": "C201", "title": "References and iterators into the maps stay attached to their key", "statement": "A pointer, reference or iterator obtained for a key stays attached to that key until the key is removed. SeqMap: the pointer returned by overwrite() or get() refers to the value last given to the key for as long as the key was not evicted or removed, whatever happens to other keys; exactly the calls that detach it are listed, and afterwards it refers to the value of the evicting key. Violated when the same key was inserted twice (insert does not look for it). SequentialMap: erase(k') moves exactly the entries after the erased one by one place, so that iterators and references to them refer to the following entry or are end(); assigning to a new key of a full map renames the last entry, whose reference then belongs to the new key; nothing else moves. Violated: the comment on erase says that iterators to elements before the erased one are invalidated, but it is those after it, for every map.", "quantifier": "for all maps of any capacity, all keys, all histories of calls", "why_tests_cant": "a reference is valid or not depending on every later call on any other key", "anchors": ["util/seq_map.hh: SeqMap::overwrite, get, remove, remove_last, insert", "util/sequential_map.hh: SequentialMap::erase, operator[], find"]}
{"id": "C202", "title": "Removed and moved-from elements of FixedVector", "statement": "Elements removed from a FixedVector are destroyed, and shifting elements by moving them never leaves a moved-from object among the elements. As coded, for every element type and every effect of moving, the results and the elements are those of a bounded list after every history; exactly which objects are still alive behind the elements (copies of popped and cleared elements, moved-from objects after erase, untouched objects of a long erased range) is given for every history, and the *_for_overwrite calls uncover exactly these. Violated: clear(), pop_back() and shrinking destroy nothing; clear() followed by resize_for_overwrite(n) brings the elements back, and a popped element is held twice.", "quantifier": "for all element types and effects of moving, all capacities, all histories of calls", "why_tests_cant": "what remains behind the elements depends on the whole history", "anchors": ["util/fixed_vector.hh: FixedVector::erase, insert, pop_back, clear, resize, resize_for_overwrite, push_back_for_overwrite"]}
{"id": "C203", "title": "Wear levelling through any history of power cuts", "statement": "Start a wear leveller on a block of any contents and let any history follow: writes of valid or invalid records, restarts, power failures after any number of the low-level operations of a write() call (each with any residue of the interrupted low-level write), and damage of any kind to the block. Then read() returns the last valid record that reached the block since it was last erased, and the next write() of a valid record succeeds and is read back. In particular a record that write() reported as stored is never lost and never replaced by an older one.", "quantifier": "every block size and content, every variant of the class, every record type and validity rule, every history of calls, restarts, power failures at every low-level operation with every residue, and every damage", "why_tests_cant": "Tests restart at a few chosen points; the claim needs every number of failures at every point of every call in every order, on blocks with any garbage left by earlier failures.", "anchors": ["util/wear_level.hh: WearLeveler, WearLevel, read, write, constructors"]}
{"id": "C204", "title": "A circular buffer emptied by an interrupt", "statement": "The main program calls put() and an interrupt calls get() or remove_first(), at any point of a put() or between two of them. Every get() answers with the oldest item in the buffer, or with \"nothing\" if there is none, and no item is lost except the oldest ones that a full buffer drops; no access leaves the buffer.", "quantifier": "every power-of-two size, every item type, every sequence of puts, and every arrival of interrupts between any two accesses to the members", "why_tests_cant": "An interrupt can come between any two accesses of any put() of any history; tests run the calls one after the other.", "anchors": ["util/circular_buffer_opt.hh: CircularBufferOpt::put, get, remove_first", "util/circular_buffer.hh: CircularBuffer::put, remove_first"]}
{"id": "C205", "title": "Tokenizing a string that is in the receiving vector", "statement": "tokenize_string takes its text as a view and its delimiters by reference, so either may be an element of the vector that receives the tokens. The call then appends exactly the tokens of the text as it was before the call, whatever the vector's capacity.", "quantifier": "every text, every set of delimiters, every vector with every capacity and growth policy, and each of the two arguments in or outside the vector", "why_tests_cant": "Whether the vector moves its elements depends on its capacity and on the number of tokens; a test sees one capacity and may read freed memory unnoticed.", "anchors": ["util/string_util.hh: tokenize_string"]}
{"id": "C206", "title": "A Function or Callback that tests true can be called", "statement": "If a Function (or Callback) converts to true, then calling it is defined: it answers as the callable it was made from, with the callable's captured state kept from call to call; one that can be called converts to true; and the callable it holds is stored at an address its type allows.", "quantifier": "every callable, function pointer (null included) and smaller Function a Function can be made from, nested to any depth; every sequence of calls; every address and alignment", "why_tests_cant": "a test makes Functions from a few lambdas; that a null pointer or an empty smaller Function also tests true, or that an over-aligned callable is accepted, shows only for callables it does not use", "anchors": ["util/callable.hh: FunctionSized, CallbackSized, operator bool, call, invoke, m_data"]}
{"id": "C207", "title": "Reading into, and writing from, the buffer's own memory", "statement": "CircularBufferAccess works on memory its user owns, so the span given to read, read_reverse, write or write_reverse may be a part of that memory. The call is then defined, moves its position and reports a wrap as usual, and each place of the destination receives the element (or blend) that was at its source before the call.", "quantifier": "every size of memory, every contents, every position, every span of the memory, both directions, every blend", "why_tests_cant": "whether an element is taken from a place already overwritten depends on how the span and the position lie around the ring; a test fixes a few", "anchors": ["util/circular_buffer_ext.hh: CircularBufferAccess::read, read_reverse, write, write_reverse"]}
{"id": "C208", "title": "However a sample is handed over, it is debounced or compared with the thresholds", "statement": "A Debouncer (or DebouncerCounter) debounces every sample it is given, whether through register_state or through process, and a SchmittTrigger compares every value it is given with its thresholds, whether through process or through register_state.", "quantifier": "every sequence of samples, every state of the debouncer, every pattern and mask; every value and every pair of thresholds", "why_tests_cant": "the difference shows only for a bouncing contact or a value between the thresholds given through the inherited member; a test calls the other one", "anchors": ["util/debouncer.hh: Toggler::process, Toggler::register_state, Debouncer, DebouncerCounter", "util/schmitt_trigger.hh: SchmittTrigger"]}
{"id": "C209", "title": "Motion and events handed from an object to itself", "statement": "Transferring motion or events from an object to itself (transfer_motion, transfer_events), or copying or updating it from itself (copy_state, update_state, assignment), has no effect; adding its motion to itself (add_motion) has the effect of adding the motion of a copy.", "quantifier": "every state of a RotaryMotion, Toggler or TogglerCompact", "why_tests_cant": "an unlikely call by reference to the same object (as in a loop over all pairs) that tests leave out; it must be known for every state", "anchors": ["util/rotary_motion.hh: RotaryMotion::add_motion, transfer_motion", "util/debouncer.hh: Toggler::copy_state, update_state, transfer_events", "util/debouncer_compact.hh: TogglerCompact::transfer_events"]}
{"id": "C210", "title": "A flash started while an interrupt animates the LED", "statement": "When an interrupt runs update_animation while the main program calls flash_once_ms or fade_once_ms, the colours shown and the state afterwards are those of the same number of interrupts, each coming before or after the whole call.", "quantifier": "every LED state, colour, duration and number of interrupts at each point between the assignments of the call", "why_tests_cant": "the outcome depends on where in the call the interrupt comes, which a test does not control", "anchors": ["util/rgbled.hh: MixedRgbLed::flash_once_ms, fade_once_ms, update_animation", "util/oscs.hh: DownCounter"]}
{"id": "C211", "title": "Dead zone of any number type", "statement": "plateau<width>(val, center) for any arithmetic type returns 0 within width/2 of the centre and otherwise the signed distance of val to the nearer edge.", "quantifier": "every width, every integer type and float, every value and centre", "why_tests_cant": "the static_asserts use int only; the other types are converted to int32_t without notice", "anchors": ["util/math.hh: plateau<width, T>"]}
{"id": "C212", "title": "Parameters assigned from one another", "statement": "When one Parameter (or LatchedParam) is assigned from another it takes the other's value, and isChanged() (did_change()) reports a change exactly if a different value was set or assigned since it was last asked.", "quantifier": "every history of setValue, isChanged and assignments among any number of parameters", "why_tests_cant": "unbounded histories over several objects; the assignment looks like that of a value but is another function", "anchors": ["util/parameter.hh: Parameter (implicit copy assignment), LatchedParam::operator=(LatchedParam const &)"]}
{"id": "C213", "title": "Serializing with callables that have a state", "statement": "serialize writes one consistent description: each sub-object callable is invoked twice (as the header says), the size of every sub-object is that of its data, and measure returns the number of bytes written, whatever variables the callables read and change.", "quantifier": "every tree of describing callables, every dependence of their calls on a state they change, every initial state and buffer", "why_tests_cant": "sub-callables run several times, nested ones more often than the header says; a test with constant callables never notices", "anchors": ["util/compact_binary_serializer.hh: Measurer::object, WriterBase::object, serialize, measure"]}
{"id": "C214", "title": "Edge detector read while an interrupt updates it", "statement": "If an interrupt updates an EdgeStateDetector while the main program asks it, the answer is right for some moment between the start and the end of the question.", "quantifier": "every query, detector state and list of updates or resets coming between the query's two reads; both orders of the reads where the language leaves it open", "why_tests_cant": "the window is two instructions wide; a test cannot place interrupts into it, let alone several", "anchors": ["util/edge_detector.hh: EdgeStateDetector::update, changed, went_high, went_low, staying_high, staying_low, reset"]}
{"id": "C215", "title": "PollChange used from two contexts", "statement": "One context polls a PollChange, another takes changes, any calls reset() or force_next_poll(): no change is lost or reported twice, 'no' is never answered while a change is owed, a poll finds a change exactly if its sample differs from the one before, and force_next_poll makes the next poll sample.", "quantifier": "every interleaving of the loads and stores of both contexts with resets and forces, every period, time and state", "why_tests_cant": "tests run the calls one after the other and cannot enumerate interleavings", "anchors": ["util/poll_change.hh: PollChange::poll, take_change, reset, force_next_poll"]}
{"id": "C216", "title": "PollEvent polled by its own action", "statement": "The action given to PollEvent::poll may poll the same object: every call is answered as if the calls had been made one after the other in the order in which they start, and an action that polls with itself as action ends.", "quantifier": "every tree of nested calls, every period, clock width and times", "why_tests_cant": "nesting depth and times are unbounded", "anchors": ["util/poll_event.hh: PollEvent::poll"]}
{"id": "C217", "title": "The memory test ends and writes only its region", "statement": "MemTest::check(start, stop) ends, and overwrites the bytes from start up to (not including) stop and no others.", "quantifier": "every pair of 32-bit addresses", "why_tests_cant": "all address pairs, among them those at the end of the address space", "anchors": ["util/mem_test.hh: MemTest::check"]}
{"id": "C218", "title": "Terminal constants in printed text", "statement": "Whatever sequence of own text and Term constants a program prints, an ECMA-48 terminal shows exactly the own text, each character in the style the constants before it name, Normal returns to the default style, and the cursor constants do what they are called.", "quantifier": "every sequence of texts (without ESC) and of the 32 constants, every style in force before", "why_tests_cant": "sequences are unbounded and styles depend on everything printed before", "anchors": ["util/term_codes.hh: Term"]}
{"id": "C219", "title": "A bouncing contact is reported once per stroke", "statement": "A program reads a contact, tells the debouncer and asks it after every sample. If after the first sample at a new level the contact chatters for at most n - 2 samples in any way and then keeps the level for n - 1 or more (n is the number of samples the debouncer looks at, 12 by default), every press and every release is reported exactly once, at its first sample, and is_high tells the debounced level with DebounceRawState and the raw sample without; with one more sample of chatter or a shorter press this fails.", "quantifier": "every number of strokes, every chatter, every holding time, every idle time, every n from 2 to 32, both values of DebounceRawState, Debouncer and DebouncerCounter", "why_tests_cant": "the number of bounce patterns is exponential and the strokes are unbounded", "anchors": ["util/debouncer.hh: Debouncer, DebouncerCounter, Toggler"]}
{"id": "C220", "title": "An encoder follows its shaft, whatever the shaft does", "statement": "The shaft of an encoder moves in any way, at most a quarter step between two calls of get_motion, to and fro, bouncing or resting. A step is reported exactly when the shaft arrives at another detent than the last one, so that the steps reported add up to the detents moved.", "quantifier": "every movement of the shaft, every start, any number of calls while it rests, both inversions", "why_tests_cant": "movements are unbounded sequences", "anchors": ["util/quadrature_encoder.hh: QuadratureEncoder::get_motion"]}
{"id": "C221", "title": "A partition is nearly the best possible", "statement": "calc_partitions splits the elements so that the largest part is at most 4/3 - 1/(3N) times as large as in any other way to split them into N parts, the best one included; with initial values at most 2 - 1/N times.", "quantifier": "every list of unsigned values whose sum fits the type, every number of parts, every order in which sort leaves equal values, every other way to split", "why_tests_cant": "the other ways to split are exponentially many, and the lists unbounded", "anchors": ["util/partition.hh: Partition::calc_partitions"]}
{"id": "C222", "title": "Which faults of the data the memory test finds", "statement": "The memory test returns false for a memory with a data line that is stuck or two data lines that touch, with a single stuck cell, or in which a write disturbs another word.", "quantifier": "every range, every contents, every data line or pair of lines (either level winning), every cell, every pair of words and every disturbance", "why_tests_cant": "faults and ranges are too many to enumerate, and the pattern has period 2^32", "anchors": ["util/mem_test.hh: MemTest::check"]}
{"id": "C223", "title": "Colours from hue, saturation and value change gradually", "statement": "A step of the hue changes no channel of the colour by more than 6 (going round from 255 to 0: 16); a step of the value makes no channel darker and none brighter by more than 1; a step of the saturation makes no channel brighter and none darker by more than 1 (from 0 to 1: 2).", "quantifier": "every hue, saturation and value", "why_tests_cant": "16 million triples and their neighbours, each with six sectors and three roundings", "anchors": ["util/hsv.hh: HSVColor::operator Color"]}
{"id": "C224", "title": "Interpolated tables have no jumps", "statement": "If neighbouring elements of a table (for the wrapping accessors also the last and the first) differ by at most D, then moving the position by d elements changes what InterpArray's interpolating accessors and LookupTable return by at most D*|d|: also from one cell to another, from one period to the next, and (LookupTable) across the ends of the range. A table generated from a function that changes by at most L per unit is within half a step's change of it everywhere in the range.", "quantifier": "every table, every pair of positions (in exact arithmetic)", "why_tests_cant": "continuity at every seam between cells and periods, for every table", "anchors": ["util/interp_array.hh: InterpArray::interp, interp_wrap, interp_by_index, interp_by_index_wrap", "util/lookup_table.hh: LookupTable::lookup, generate"]}
{"id": "C225", "title": "faster_sine is a sine to within six hundredths", "statement": "For every x from 0 to 1 faster_sine(x) is within 0.06 of -sin(2*pi*x) (in float arithmetic within 0.06 + 3/2^23), and never nearer to zero than it.", "quantifier": "every x (every float) from 0 to 1", "why_tests_cant": "a comparison with the real sine at every float", "anchors": ["util/math.hh: MathTools::faster_sine"]}
{"id": "C226", "title": "Filters settle on a constant input", "statement": "On a constant input, after any history: MovingAverage goes over linearly and is exact from the Size-th sample on, and one sample never moves it by more than the sample's distance from the window divided by Size (rounded up); the oversamplers are exact after 2*Size-1 samples; the hysteresis filter stands still from the first sample on, within its threshold of the input; the quadratic filter approaches without overshooting and reaches the input.", "quantifier": "every history, every constant input, every number of samples", "why_tests_cant": "convergence for ever, from every state", "anchors": ["util/filter.hh: MovingAverage, Oversampler, SmoothOversampler, QuadraticOnePoleLp, HysteresisFilter"]}
{"id": "C227", "title": "Noise smaller than the hysteresis does not trigger a Schmitt trigger", "statement": "Samples within e of a signal, with 2e at most high-low: a signal that only rises, however slowly, gives one event at most; in general n events take the signal a way of at least (n-1)*(high-low-2e), and n triggers of RisingSchmittTrigger one of at least 2(n-1)*(high-low-2e). With more noise than that a signal at rest can give any number of events.", "quantifier": "every signal, every noise within the bound", "why_tests_cant": "every noise on every signal, of any length", "anchors": ["util/schmitt_trigger.hh: SchmittTrigger::process, RisingSchmittTrigger::update"]}
{"id": "C228", "title": "No call of the FIFOs or the thread-safe pool waits for another thread", "statement": "Every call on a LockFreeFifoSpsc or LockFreeFifoSpscDyn returns after at most four memory accesses of the calling thread (put, get, get_move, get_or_default; remove_first three; num_free, full, num_filled, empty, reset two), from any state of the counters and wherever the other thread stands or stops; create() of a ThreadSafePool of n entries makes at most n compare-exchanges and clear() 2n assignments, and a thread inside them always has a next step.", "quantifier": "every state, every call, every behaviour of the other threads, including stopping for ever", "why_tests_cant": "every interleaving with a thread that may be suspended at any access", "anchors": ["util/lockfree_fifo_spsc.hh: put, get, get_move, remove_first, num_free, num_filled, reset", "util/lockfree_fifo_spsc_dyn.hh: the same", "util/thread_safe_pool.hh: create, clear"]}
{"id": "C229", "title": "Oscillators in the long run", "statement": "A ramp oscillator (PhaseAccum, which also drives SineOscillator) never drifts: for every number n of updates the number of cycles begun is exactly the whole part of (start + n*increment)/2^32, so with set_frequency(f) it differs from n*f/rate by less than one cycle plus n*f/2^32; each cycle takes 2^32/increment updates, rounded down or up; the values repeat exactly every 2^32/gcd(increment, 2^32) updates and not otherwise; with an odd increment every value occurs once per 2^32 updates; oscillators of equal increment keep their distance.", "quantifier": "every start phase, increment, rate and frequency, every number of updates", "why_tests_cant": "an unbounded number of updates; periods are up to 2^32 updates long", "anchors": ["util/oscs.hh: PhaseAccum::update, val, set_frequency", "util/oscs.hh: SineOscillator"]}
{"id": "C230", "title": "Data handed over through the FIFO", "statement": "Two threads pass buffer numbers (or pointers) through a LockFreeFifoSpsc: the producer fills a buffer and puts its number, the consumer gets the number and reads the buffer. Under the C++ memory model, if no get()/get_move() returns an item that the last num_filled() had not announced (for instance if each get() is guarded by num_filled() > 0), accesses to the buffers are free of data races and every read finds what the producer had written when it put the number: for buffers used once each, and for buffers reused in turn if there are at least capacity + 2 of them; capacity + 1 buffers are not enough. The same for LockFreeFifoSpscDyn.", "quantifier": "every schedule of the two threads, every choice of the values the atomic loads may return, every capacity, any number of buffers and items", "why_tests_cant": "a race or a stale value shows only on particular interleavings and hardware; reuse of buffers goes on for ever", "anchors": ["util/lockfree_fifo_spsc.hh: put, get, get_move, num_filled", "util/lockfree_fifo_spsc_dyn.hh: put, get, num_filled"]}
{"id": "C231", "title": "is_used() as a signal", "statement": "One thread (the dispatcher) creates the entries of a ThreadSafePool and gives them to workers, who access them and destroy them when done. When is_used(i) tells the dispatcher false, nobody owns entry i, and the dispatcher may access the entry: what the workers did before destroy() happens before, although is_used() is only an acquire load that may return old values. An owner is always told true. The converse fails: true is no licence for another thread to read the entry, and for threads that did not create the entry false may be an old value.", "quantifier": "any number of threads and entries, every interleaving, every old value the loads may return, every history of creating, giving on and destroying", "why_tests_cant": "old values and missing synchronisation show only on particular hardware and interleavings", "anchors": ["util/thread_safe_pool.hh: ThreadSafePool::is_used, create, destroy, operator[]"]}
{"id": "C232", "title": "What num_free() and num_filled() promise, on weak memory", "statement": "If num_free() returned n to the producer of a LockFreeFifoSpsc or LockFreeFifoSpscDyn, its next n put()s are accepted; if num_filled() returned n to the consumer, its next n get(), get_move() or remove_first() calls find an item. Later answers never take back what is still promised, and at every moment the promised room is free and the promised items are in the FIFO. All this although the values the two threads see of each other's counters may be arbitrarily old.", "quantifier": "all capacities, counter widths, items, and all executions of the two threads under the C++ release/acquire memory model without reset() (for Dyn: fewer than 2^w items put, or a capacity dividing 2^w)", "why_tests_cant": "whether a stale value is seen depends on the processor's store buffers and caches; a test on one machine shows almost only the newest values", "anchors": ["util/lockfree_fifo_spsc.hh: num_free, full, put, num_filled, get, get_move, remove_first", "util/lockfree_fifo_spsc_dyn.hh: the same"]}
{"id": "C233", "title": "One order explains all answers of the FIFO", "statement": "The answers that producer and consumer of a LockFreeFifoSpsc or LockFreeFifoSpscDyn get (put, num_free; get, get_move, remove_first, num_filled) are those of a bounded queue whose calls are made one after the other in some order that keeps the order of each thread's calls.", "quantifier": "all capacities, counter widths and items, all executions of the two threads without reset(), under the C++ release/acquire memory model and under sequentially consistent interleavings", "why_tests_cant": "one has to show that for each execution some order exists, or that for one execution none of the orders works; the executions concerned appear only on weakly ordered processors", "anchors": ["util/lockfree_fifo_spsc.hh: put, num_free, get, get_move, remove_first, num_filled", "util/lockfree_fifo_spsc_dyn.hh: the same"]}
{"id": "C234", "title": "Containers give up what they gave back", "statement": "An element taken out of a FIFO, circular buffer or circular stack, removed from a SeqMap, or returned to a Pool is no longer held by the container (so a resource it owns, such as a shared pointer, is released); what the container holds are its elements and nothing else.", "quantifier": "all capacities, element types and sequences of calls; for the FIFO all schedules of producer and consumer", "why_tests_cant": "how long a removed object lives depends on the whole history of later calls", "anchors": ["util/circular_buffer.hh: put, get, remove_first, reset, peek", "util/circular_buffer_opt.hh: the same", "util/circular_stack.hh: push_back, pop_back, pop_back_or_zero, clear", "util/lockfree_fifo_spsc.hh: put, get, get_move, remove_first", "util/pool.hh: destroy", "util/seq_map.hh: remove, remove_last"]}
{"id": "C235", "title": "How large a thread-safe pool must be", "statement": "If the entries in use and the create() calls in progress together never number more than K, every index create() returns is below K, and a pool with at least K entries never fails a create(). A bound on the entries in use alone is enough to keep create() from failing.", "quantifier": "every pool size, every K, any number of threads, every schedule and history", "why_tests_cant": "whether a scan through the flags misses a free entry depends on how the calls interleave", "anchors": ["util/thread_safe_pool.hh: create, destroy"]}
{"id": "C236", "title": "Maps whose keys are compared with their type's ==", "statement": "A SeqMap or SequentialMap whose keys are compared with the == of their type (floats, StaticStrings that differ after the terminator) is a map in which equal keys are one key: every answer is that of a map of those keys.", "quantifier": "every key type and ==, every capacity, every sequence of calls, any uninitialised contents", "why_tests_cant": "== may identify different objects or not even be reflexive; tests use integers", "anchors": ["util/seq_map.hh: insert, overwrite, get, remove, remove_last, key_exists, size", "util/sequential_map.hh: operator[], find, erase, contains, size, is_full", "util/static_string.hh: operator=="]}
{"id": "C237", "title": "Interpolated readings stay among the readings", "statement": "However irregularly data is announced, read and fetched, every value output by a FilteredInterpArray lies in the range spanned by 0 and the filtered readings taken so far.", "quantifier": "every filter, number of channels, sequence of calls of mark_new_data_ready, add_new_readings, get_interp_values and set_num_updates", "why_tests_cant": "the number of updates a reading is spread over is measured from the previous one; tests use regular schedules", "anchors": ["util/filtered_interp_array.hh: add_new_readings, get_interp_values, set_num_updates", "util/interp_param.hh: InterpParamVar"]}
{"id": "C238", "title": "Noise smaller than the hysteresis does not switch a hysteresis gate", "statement": "With noise on the input of up to half the distance of the two thresholds, the output of hysteresis_gate() or hysteresis_feedback() switches only if the signal itself moves: n switches take a way of n - 1 times that distance less the noise, and a rising signal switches the output once at most.", "quantifier": "all thresholds, signals, noise and numbers of samples", "why_tests_cant": "the worst noise for a given signal and threshold is one in infinitely many", "anchors": ["util/math.hh: hysteresis_gate, hysteresis_feedback"]}
{"id": "C239", "title": "Loops that write through zip() and countzip()", "statement": "A range-for over zip() or countzip() whose body assigns through the references carries out the body once on the i-th elements of the containers, for every i below the least length, on the values they had before the loop; later elements and other containers are untouched. This also holds if a container is passed twice: the references share the element.", "quantifier": "every number, length and choice of containers (also repeated ones), every body of assignments that may depend on the count", "why_tests_cant": "aliased arguments and different lengths are combined with arbitrary bodies", "anchors": ["util/zip.hh: zip, ZipIterator", "util/countzip.hh: countzip, enumerate, ZipIterator", "util/iterator_helpers.hh: any_match"]}
{"id": "C240", "title": "A ByteBlock that prints its own bytes", "statement": "printRaw() may be given a range of the block's own bytes: the block keeps its bytes and a copy of the range is appended.", "quantifier": "every block, capacity and growth of the vector, every range in the block", "why_tests_cant": "whether the bytes move depends on the vector's spare capacity", "anchors": ["util/byte_block.hh: printRaw"]}
{"id": "C241", "title": "The compact binary format with sizes wider than size_t", "statement": "A size type wider than size_t (for example 64-bit sizes on a 32-bit processor) changes nothing: what was written reads back, and the parser never reports bytes that an entry does not have.", "quantifier": "every key type, every width of the sizes and of size_t, every description and every blob", "why_tests_cant": "needs 4 GiB blobs, or corrupt ones, on a 32-bit target", "anchors": ["util/compact_binary_parser.hh: get, get_node, get_size"]}
{"id": "C242", "title": "Concave polygons with 64-bit or floating-point coordinates", "statement": "is_poly_concave says whether the polygon turns both ways, whatever the coordinate type.", "quantifier": "every polygon with int64_t coordinates less than 2^31 apart, every polygon with float coordinates and every rounding", "why_tests_cant": "the direction of the first turn is kept in an int: depends on the size of the polygon, not its shape", "anchors": ["util/geometry.hh: is_poly_concave"]}
{"id": "C243", "title": "Containers whose memory comes from AlignedAllocator", "statement": "However containers allocate and free through AlignedAllocator, every pointer leads to aligned memory for all the objects asked for, shared with nobody; nothing is freed twice or lost; and a failure is reported.", "quantifier": "every history of allocations and deallocations, every alignment, object size and count, and every heap that keeps the C library's promises, including one that refuses", "why_tests_cant": "depends on every answer the heap may give and on sizes no test can allocate", "anchors": ["util/aligned_allocator.hh: AlignedAllocator, allocate, deallocate"]}
{"id": "C244", "title": "Versions given as texts compare as the texts do", "statement": "Of two versions constructed from texts, is_later and the comparison operators say which text is the later: number by number, missing numbers counting as 0, and a pre-release before its version.", "quantifier": "every two version texts and whatever memory follows them", "why_tests_cant": "all pairs of texts; the errors are in rare ones", "anchors": ["util/version_tools.hh: Version, operator<=>, is_later"]}
{"id": "C245", "title": "The portable vector operations in place of the processor's", "statement": "A program over vector variables computes with soft_neon what it computes with the processor's vector instructions: only the variable assigned to changes, and a NaN in a maximum is not lost.", "quantifier": "every program, every value of the variables (NaN and infinities included), every rounding, fused or separate multiply-add", "why_tests_cant": "all programs and all floats", "anchors": ["util/soft_neon.hh: vmlaq_f32, vmaxq_f32", "util/math.hh: max"]}
{"id": "C246", "title": "How often randomNumber returns each value", "statement": "If the results of std::rand() are equally likely, so are (to within one result) the values that randomNumber(lo, hi) returns, from lo to hi, and for unsigned types too.", "quantifier": "every range and every RAND_MAX, 32-bit and 64-bit long, int and uint32_t", "why_tests_cant": "a statement about all 2^31 results of std::rand() and all ranges", "anchors": ["util/math.hh: randomNumber, map_value"]}
{"id": "C247", "title": "An exception from copying an element leaves the container as it was", "statement": "If constructing or assigning an element throws, at whichever element operation of a call of FixedVector, SeqMap, SequentialMap, CircularStack, CircularBuffer, CircularBufferOpt or Pool, then what can be seen of the container afterwards is what could be seen before the call.", "quantifier": "every container state, every argument, and every point of the call at which an exception can occur", "why_tests_cant": "each loop of element moves has as many crash points as elements; a test throws at one or two of them", "anchors": ["util/fixed_vector.hh: push_back, resize, pop_back, insert, erase", "util/seq_map.hh: insert, overwrite", "util/sequential_map.hh: operator[]", "util/circular_stack.hh: push_back, pop_back", "util/circular_buffer.hh: put, get", "util/circular_buffer_opt.hh: put, get", "util/pool.hh: create"]}
{"id": "C248", "title": "Oscillators, down counters and one-shots set by an interrupt", "statement": "If an interrupt sets phase, frequency or pulse width of an oscillator, DownCounter or OneShot that the main program updates, at any moments, the effect is that of the calls made one after another: no setting is lost, a down counter never jumps up except by being reset, and val() read while an interrupt updates is a value of the oscillator.", "quantifier": "every schedule of interrupts between the memory accesses of the calls, every phase, increment and width", "why_tests_cant": "the windows are a few instructions wide; a test on the host has no interrupts", "anchors": ["util/oscs.hh: TriangleOscillator, PhaseAccum, DownCounter, OneShot"]}
{"id": "C249", "title": "Containers read by an interrupt while the main program changes them", "statement": "An interrupt that reads a FixedVector, SequentialMap or SeqMap while the main program is inside a call that changes it sees the container as it was before the call or as the call leaves it.", "quantifier": "every container, every call, and every moment between two stores of the call", "why_tests_cant": "the windows are a few instructions wide; a test on the host has no interrupts", "anchors": ["util/fixed_vector.hh: push_back, resize, pop_back, clear, insert, erase", "util/seq_map.hh: insert, overwrite, get, remove_last, remove", "util/sequential_map.hh: operator[]"]}
{"id": "C250", "title": "A StaticString read by an interrupt while it is assigned", "statement": "An interrupt that reads a StaticString (c_str, length, comparison, conversion to string_view) while the main program assigns to it reads the old or the new text, and never past the end of the string's array.", "quantifier": "every old text, every content of the array behind it, every new text, and every moment between two stores of copy() or clear()", "why_tests_cant": "the windows are a few instructions wide; whether a read overruns depends on uninitialised bytes", "anchors": ["util/static_string.hh: StaticString, copy, clear, length, c_str"]}
{"id": "C251", "title": "Allocating from an interrupt", "statement": "If an interrupt calls allocate() of a MonotonicAllocator, or create() and destroy() of a Pool, while the main program is inside allocate() or create(), all blocks and entries handed out are still inside the memory and pairwise distinct.", "quantifier": "every arena, every request, every set of flags, and every calls of interrupts between any two memory accesses of the main program's call", "why_tests_cant": "the windows are a few instructions wide; a test on the host has no interrupts", "anchors": ["util/monotonic_allocator.hh: allocate", "util/pool.hh: create, destroy"]}
{"id": "C252", "title": "A peak meter shared with an interrupt", "statement": "If main program and interrupts call update() and reset() of a PeakMeter (or of an AnalyzedSig, for its min and max), the meter shows the least and the greatest sample since the last reset, whatever the moments of the interrupts.", "quantifier": "every meter, every samples of any ordered type, every calls of interrupts between any two memory accesses of the main program's call", "why_tests_cant": "the windows are a few instructions wide; a test on the host has no interrupts", "anchors": ["util/analyzed_signal.hh: PeakMeter, AnalyzedSig, update, reset, reset_to"]}
{"id": "C253", "title": "Filters shared with an interrupt", "statement": "If an interrupt reads val() of a MovingAverage, Oversampler, SmoothOversampler or ResizingOversampler while the main program calls it, it reads the average of before or of after the call; if an interrupt adds samples while the main program calls reset() or set_size() of a ResizingOversampler, later readings are averages of whole blocks of the samples given.", "quantifier": "every size, every history of samples, every call, every moment at which interrupts come and every samples they add", "why_tests_cant": "the windows are a few instructions wide; a test on the host has no interrupts", "anchors": ["util/filter.hh: MovingAverage::add_val, val, Oversampler::add_val, SmoothOversampler::add_val, ResizingOversampler::reset, set_size, add_val"]}
{"id": "C254", "title": "Setting the read offset while the producer is putting", "statement": "If the consumer calls set_read_offset(d) of a LockFreeFifoSpsc, with d not above max_size() and the number of items written, while the producer is calling put(), it gets from then on the last d items written when the call read the write position, and then the later ones, in order.", "quantifier": "every capacity, every history without get_move, every interleaving of the producer's puts with the two accesses of the call, every later schedule", "why_tests_cant": "needs a put between two adjacent accesses of another thread", "anchors": ["util/lockfree_fifo_spsc.hh: set_read_offset, put, get", "util/lockfree_fifo_spsc_dyn.hh: set_read_offset"]}
{"id": "C255", "title": "Exceptions from the elements of a FIFO, and resize() without memory", "statement": "If copying, moving or making an element throws inside put(), get() or get_move() of a LockFreeFifoSpsc or LockFreeFifoSpscDyn, or resize() runs out of memory, the FIFO is as it was before the call.", "quantifier": "every state, size and index width, every call, every point at which the exception can occur", "why_tests_cant": "an exception has to be thrown at each construction, assignment and allocation in turn", "anchors": ["util/lockfree_fifo_spsc.hh: put, get, get_move", "util/lockfree_fifo_spsc_dyn.hh: put, get, get_move, resize"]}
{"id": "C256", "title": "A StaticString as a range of characters and as a std::string", "statement": "begin() to end() of a StaticString visits exactly its text. Editing the characters in place (a range-for by reference, or stores through iterators before end()) leaves the edited text, cut at the first NUL written, never longer than before and always terminated. Converting to std::string and back gives an equal string if it fits; a std::string with NULs inside is cut at the first, as its string_view is.", "quantifier": "every capacity, every content of the array, every loop body with its own variables, every sequence of stores, every std::string", "why_tests_cant": "all texts, uninitialised bytes and edits; an edit may write NULs anywhere", "anchors": ["util/static_string.hh: begin, end, operator std::string, StaticString(std::string), copy"]}
{"id": "C257", "title": "Recalibrating while the calibration is in use", "statement": "An interrupt that adjusts readings while the main program recalibrates (set_slope_offset, calibrate_chan, record_measurement, reset), or that recalibrates while the main program is adjusting, uses the old calibration or the new one, never a mixture.", "quantifier": "every old and new calibration, every reading, every moment between two stores, either order of the two reads", "why_tests_cant": "the windows are one instruction wide; whether a mixture is noticed depends on the reading", "anchors": ["util/calibrator.hh: Calibrator::set_slope_offset, calibrate_chan, adjust, reverse_calibrate", "util/voct_calibrator.hh: VoctCalibrator::record_measurement, reset, offset, slope"]}
{"id": "C258", "title": "Exceptions from the elements or the transmit function of a DoubleBufferStream", "statement": "If copying an element or the transmit function throws inside transmit() or tx_done_callback(), nothing of that word is sent later, and data given to later calls are still sent.", "quantifier": "every state, capacity, word and later words, every point at which the exception can occur", "why_tests_cant": "an exception has to be thrown at each copy and in the transmit function, and its effect shows only in later transmissions", "anchors": ["util/doublebuf_stream.hh: DoubleBufferStream::transmit, tx_done_callback, start_tx", "util/fixed_vector.hh: push_back"]}
{"id": "C259", "title": "Loops that change the FixedVector they run over", "statement": "A loop that erases the elements satisfying a condition, advancing only past those it keeps or going from the last one down, leaves exactly the other elements in order. Appending inside a range-for over the same vector visits each original element once. Inserting each value in front of the first greater one keeps a sorted vector sorted and gains exactly the values that fit.", "quantifier": "every capacity, content, condition, function, strict weak order and list of values", "why_tests_cant": "the outcome depends on how every removal or insertion shifts what the loop has still to visit, for every pattern of matching elements", "anchors": ["util/fixed_vector.hh: erase, insert, push_back, begin, end, operator[], size"]}
{"id": "C260", "title": "Map calls given references to the map's own keys and values", "statement": "Overwriting or inserting in a SeqMap the value a pointer into the same map points to, m[a] = m[b] in a SequentialMap, and erase(it->first) inside a loop over the same SequentialMap act as if the value or key had been copied before the call: the value stored is the one seen before the call, and the loop leaves exactly the entries that do not satisfy its condition.", "quantifier": "every capacity and history, every pair of keys, also equal ones, also the key about to be evicted, every condition", "why_tests_cant": "the value or key is read through a reference while the call rearranges the entries; which entry it is depends on the whole history", "anchors": ["util/seq_map.hh: SeqMap::insert, overwrite, get", "util/sequential_map.hh: SequentialMap::operator[], erase, begin, end"]}
{"id": "C261", "title": "Several wear levellers over one block", "statement": "If several WearLevel or WearLeveler objects use the same storage block, a newly constructed object reads the record that was written last by any of them, and each object reads at least the record that was last when it was constructed or itself wrote.", "quantifier": "every number of objects and cells, every interleaved history of constructions and writes, both classes", "why_tests_cant": "which cell an object writes next depends on everything it did and did not see; the loss shows only after the block has been erased once and the device restarted", "anchors": ["util/wear_level.hh: WearLeveler, WearLevel: constructor, read, write"]}
{"id": "C262", "title": "Serialized data that is cut off", "statement": "If serialized data ends early, because only part of it arrived, was stored or fitted in the output buffer, then get returns for every key the value that was written or nothing, never another value; get_node returns the whole node or an empty one, also along a path of sub-objects; and whatever is found in a part is found, unchanged, in every longer part.", "quantifier": "every format, description, key, value size and every length at which the data ends; the comparison with the whole also for arbitrary bytes", "why_tests_cant": "the data can end inside any key, size or value of any entry at any depth", "anchors": ["util/compact_binary_parser.hh: get, get_node, get_size_and_offset, get_size", "util/compact_binary_serializer.hh: serialize"]}
{"id": "C263", "title": "Binary writer looked at while objects are open", "statement": "At every moment, also between begin_object and end_object and if end_object is forgotten, what the writer has produced so far reads back as the values written so far: get for a key of the current top level returns its value, and entries of an object are found only inside that object.", "quantifier": "every format, every description of the completed entries on each level, every chain of objects begun and not ended within the depth limit, every key and buffer", "why_tests_cant": "the moment can lie inside any number of nested objects, each with any entries before it", "anchors": ["util/compact_binary_writer.hh: begin_object, end_object, field, raw", "util/compact_binary_parser.hh: get, get_node"]}
{"id": "C264", "title": "Objects nested deeper than MaxDepth", "statement": "CompactBinaryWriter may be used with objects nested to any depth: it never touches memory outside its own, size() is right, and every field is read back under its path of keys with the value written.", "quantifier": "every format, MaxDepth, description of any depth, buffer and path of keys", "why_tests_cant": "the depth, the entries on every level and the place of the deep object are unbounded", "anchors": ["util/compact_binary_writer.hh: begin_object, end_object, field, raw, size", "util/compact_binary_parser.hh: get_node"]}
{"id": "C265", "title": "Clearing a thread-safe pool whose elements throw", "statement": "If making or assigning a fresh element throws inside clear(), the entries before that one are reset and free, and all others, with their owners, are as they were; an entry is never freed without having been reset; and calling clear() again completes the work.", "quantifier": "every pool size and state, and every element operation of the call as the place of the exception", "why_tests_cant": "there are two places for an exception per entry, for any number of entries in any state", "anchors": ["util/thread_safe_pool.hh: clear"]}
{"id": "C266", "title": "Calls on objects shared with an interrupt never wait", "statement": "When an interrupt or another thread feeds a RotaryMotion, ChangeDetector, Toggler, TogglerCompact, Parameter, RefParameter, LatchedParam, oscillator, one-shot, FilteredInterpArray or circular buffer, it can act at any moment, every call of the main program can begin at any moment, and a call returns after a bounded number of its own steps (one, two, seven, or N + 2 for N channels), whatever the interrupt does in between.", "quantifier": "every state, every number of channels, and every sequence of interrupts before each step of a call", "why_tests_cant": "a test sees finitely many interleavings; that no schedule blocks a call is a statement about all of them", "anchors": ["util/rotary_motion.hh: use_motion, transfer_motion, add_motion", "util/change_detector.hh: changed", "util/debouncer.hh: is_just_pressed, is_just_released", "util/debouncer_compact.hh: is_just_pressed, is_just_released", "util/parameter.hh: isChanged, did_change", "util/oscs.hh: update", "util/filtered_interp_array.hh: add_new_readings, get_interp_values"]}
{"id": "C267", "title": "A call that no interrupt cuts into does what the whole call does", "statement": "If nothing else acts during a call of use_motion, transfer_motion, add_motion, changed, is_just_pressed, is_just_released, isChanged, did_change, an oscillator's or one-shot's update, a meter's update or reset, a circular buffer's get, or add_new_readings, its single accesses to memory add up to exactly the effect and the answer it has in a program without interrupts.", "quantifier": "every state of the object, every value, every number of channels and every filter", "why_tests_cant": "the states, values, channel counts and filters are unbounded, and the two ways of looking at a call must agree in all of them", "anchors": ["util/rotary_motion.hh: use_motion, transfer_motion, add_motion", "util/change_detector.hh: changed", "util/debouncer.hh: is_just_pressed, is_just_released", "util/debouncer_compact.hh: is_just_pressed, is_just_released", "util/parameter.hh: isChanged, did_change", "util/oscs.hh: update", "util/analyzed_signal.hh: PeakMeter::update, reset", "util/circular_buffer_opt.hh: get", "util/filtered_interp_array.hh: add_new_readings"]}
