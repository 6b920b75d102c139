{
 "claims": [
  {
   "property": "C01",
   "status": "proved",
   "theorems": [
    "Spsc.C01_fifo_order"
   ],
   "note": "every schedule without producer-side reset (see C06); sequentially consistent memory"
  },
  {
   "property": "C02",
   "status": "proved",
   "theorems": [
    "Spsc.C02_put_result",
    "Spsc.C02_never_overfull"
   ],
   "note": ""
  },
  {
   "property": "C03",
   "status": "proved",
   "theorems": [
    "Spsc.C03_get_result",
    "Spsc.C03_get_or_default",
    "Spsc.C03_remove_first"
   ],
   "note": ""
  },
  {
   "property": "C04",
   "status": "proved",
   "theorems": [
    "Spsc.C04_num_free",
    "Spsc.C04_num_free_later",
    "Spsc.C04_full",
    "Spsc.C04_num_filled",
    "Spsc.C04_num_filled_later",
    "Spsc.C04_empty"
   ],
   "note": ""
  },
  {
   "property": "C05",
   "status": "partial",
   "theorems": [
    "SpscWeak.C05_guarded_gets_race_free_partial",
    "SpscWeak.C05_acquire_variant_race_free_partial",
    "SpscWeak.C05_relaxed_load_races_violated",
    "SpscWeak.C05_reset_races_violated",
    "SpscWeak.C05_exact",
    "SpscWeak.C05_announced",
    "SpscIncl.C05_includes_interleavings"
   ],
   "note": "violated by the relaxed load of head_ in get(); holds for the code as written when each get() is guarded by num_filled() (an acquire load), and for the acquire variant without reset(); exact condition: a race happens iff some get()/get_move() returns an item not announced by the last num_filled() (C05_exact); the weak-memory model has all the interleaved executions (C05_includes_interleavings)"
  },
  {
   "property": "C06",
   "status": "partial",
   "theorems": [
    "Spsc.C06_consumer_reset_partial",
    "Spsc.C06_quiescent_producer_reset_partial",
    "Spsc.C06_producer_reset_violated",
    "Spsc.C06_calm_resets_partial",
    "Spsc.C06_calm_reset_empties",
    "Spsc.C06_other_moments_violated"
   ],
   "note": "holds for consumer resets and for producer resets outside any consumer call; violated by a producer reset during a get (witness schedules); for all histories: producer resets are right whenever they store while the FIFO is empty or the consumer has not yet accessed it in its current call, and break the order from every state in which a get or remove_first is under way on a non-empty FIFO"
  },
  {
   "property": "C07",
   "status": "proved",
   "theorems": [
    "Spsc.C07_delay_put_get",
    "Spsc.C07_delay_get_put",
    "Spsc.C07_set_read_offset",
    "Spsc.C07_set_write_pos",
    "Spsc.C07_set_read_pos"
   ],
   "note": ""
  },
  {
   "property": "C08",
   "status": "partial",
   "theorems": [
    "Spsc.C08_dyn_fifo_partial",
    "Spsc.C08_dyn_wrap_violated",
    "Spsc.C08_dyn_fifo_exact"
   ],
   "note": "violated after 2^w puts by every capacity that does not divide 2^w; order holds for ever exactly for the capacities that divide it"
  },
  {
   "property": "C09",
   "status": "proved",
   "theorems": [
    "Spsc.C09_resize",
    "Spsc.C09_resize_same"
   ],
   "note": "within the counter range (see C08)"
  },
  {
   "property": "C10",
   "status": "proved",
   "theorems": [
    "CircBuf.C10_is_bounded_queue",
    "CircBuf.C10_opt_is_bounded_queue"
   ],
   "note": ""
  },
  {
   "property": "C11",
   "status": "proved",
   "theorems": [
    "CircBuf.C11_occupancy",
    "CircBuf.C11_peek_is_future_get"
   ],
   "note": ""
  },
  {
   "property": "C12",
   "status": "proved",
   "theorems": [
    "CircBuf.C12_delay_put_get",
    "CircBuf.C12_delay_get_put",
    "CircBuf.C12_delay_circular_buffer"
   ],
   "note": ""
  },
  {
   "property": "C13",
   "status": "partial",
   "theorems": [
    "CircBuf.C13_fill_value",
    "CircBuf.C13_fill_array",
    "CircBuf.C13_opt_fill_partial",
    "CircBuf.C13_opt_fill_violated",
    "CircBuf.C13_opt_fill_exact"
   ],
   "note": "holds for CircularBuffer; violated by CircularBufferOpt for elements wider than a byte, where only the elements in the first N bytes are set (exact characterisation)"
  },
  {
   "property": "C14",
   "status": "partial",
   "theorems": [
    "CircAccess.C14_read",
    "CircAccess.C14_write_partial",
    "CircAccess.C14_mix",
    "CircAccess.C14_write_int32_violated",
    "CircAccess.C14_clear_and_positions",
    "CircAccess.C14_write_int_exact"
   ],
   "note": "writes: for element types where d*1.f+old*0.f is d; violated for 32-bit integers above 2^24; exactly the binary32 integers are stored unchanged"
  },
  {
   "property": "C15",
   "status": "proved",
   "theorems": [
    "CircAccess.C15_read_reverse",
    "CircAccess.C15_write_reverse",
    "CircAccess.C15_reverse_mirrors_forward"
   ],
   "note": ""
  },
  {
   "property": "C16",
   "status": "proved",
   "theorems": [
    "CircAccess.C16_read_check_crossed",
    "CircAccess.C16_read_reverse_check_crossed",
    "CircAccess.C16_write_check_crossed",
    "CircAccess.C16_longer_blocks_miscount"
   ],
   "note": "blocks longer than the buffer: counterexample in C16_longer_blocks_miscount"
  },
  {
   "property": "C17",
   "status": "partial",
   "theorems": [
    "CircBlock.C17_write_bytes_partial",
    "CircBlock.C17_write_wide_violated",
    "CircBlock.C17_write_wide_exact"
   ],
   "note": "violated for all elements wider than a byte; the bytes written are characterised exactly for every width"
  },
  {
   "property": "C18",
   "status": "proved",
   "theorems": [
    "CircStack.C18_is_bounded_stack"
   ],
   "note": ""
  },
  {
   "property": "C19",
   "status": "proved",
   "theorems": [
    "FixedVector.C19_is_bounded_list"
   ],
   "note": ""
  },
  {
   "property": "C20",
   "status": "proved",
   "theorems": [
    "FixedVector.C20_capacity_results"
   ],
   "note": ""
  },
  {
   "property": "C21",
   "status": "partial",
   "theorems": [
    "StaticString.C21_copy_cstr",
    "StaticString.C21_copy_string_view_partial",
    "StaticString.C21_clear",
    "StaticString.C21_length_available",
    "StaticString.C21_capacity_zero_violated",
    "StaticString.C21_copy_string_view_exact"
   ],
   "note": "violated for capacity 0 with a non-empty string_view; holds for every other capacity; exactly when the copy is defined"
  },
  {
   "property": "C22",
   "status": "proved",
   "theorems": [
    "StaticString.C22_equal_iff",
    "StaticString.C22_copy_between"
   ],
   "note": ""
  },
  {
   "property": "C23",
   "status": "proved",
   "theorems": [
    "SeqMap.C23_overwrite_get",
    "SeqMap.C23_get_after_overwrite",
    "SeqMap.C23_recent_keys_survive"
   ],
   "note": ""
  },
  {
   "property": "C24",
   "status": "proved",
   "theorems": [
    "SeqMap.C24_get_iff_exists",
    "SeqMap.C24_insert",
    "SeqMap.C24_remove_last"
   ],
   "note": ""
  },
  {
   "property": "C25",
   "status": "partial",
   "theorems": [
    "SeqMap.C25_remove_partial",
    "SeqMap.C25_remove_exact_partial",
    "SeqMap.C25_remove_violated"
   ],
   "note": ""
  },
  {
   "property": "C26",
   "status": "proved",
   "theorems": [
    "SequentialMap.C26_is_map"
   ],
   "note": ""
  },
  {
   "property": "C27",
   "status": "partial",
   "theorems": [
    "SequentialMap.C27_insert_partial",
    "SequentialMap.C27_insert_violated",
    "SequentialMap.C27_insert_exact"
   ],
   "note": "violated: insert never stores the value; exactly: the slot's old value"
  },
  {
   "property": "C28",
   "status": "partial",
   "theorems": [
    "SequentialMap.C28_overfull_partial",
    "SequentialMap.C28_capacity_zero_violated",
    "SequentialMap.C28_overfull_exact"
   ],
   "note": "violated for capacity 0 only; exactly when it is defined"
  },
  {
   "property": "C29",
   "status": "proved",
   "theorems": [
    "WearLevel.C29_write_then_read"
   ],
   "note": ""
  },
  {
   "property": "C30",
   "status": "proved",
   "theorems": [
    "WearLevel.C30_restart",
    "WearLevel.C30_last_record"
   ],
   "note": ""
  },
  {
   "property": "C31",
   "status": "proved",
   "theorems": [
    "WearLevel.C31_interrupted_write"
   ],
   "note": ""
  },
  {
   "property": "C32",
   "status": "partial",
   "theorems": [
    "WearLevel.C32_no_erase_partial",
    "WearLevel.C32_erase_window_violated"
   ],
   "note": "violated between the erase and the write of a call that erases"
  },
  {
   "property": "C33",
   "status": "proved",
   "theorems": [
    "WearLevel.C33_writes_only_writeable",
    "WearLevel.C33_each_cell_once",
    "WearLevel.C33_schedule"
   ],
   "note": ""
  },
  {
   "property": "C34",
   "status": "proved",
   "theorems": [
    "WearLevel.C34_write_terminates"
   ],
   "note": ""
  },
  {
   "property": "C35",
   "status": "partial",
   "theorems": [
    "WearLevel.C35_read_partial",
    "WearLevel.C35_read_no_fault_partial",
    "WearLevel.C35_read_violated",
    "WearLevel.C35_read_exact"
   ],
   "note": "violated when a low-level read fails and the caller's variable already holds a valid record; exact behaviour with any unreadable cells and any variable"
  },
  {
   "property": "C36",
   "status": "partial",
   "theorems": [
    "WearLevel.C36_failed_erase_partial",
    "WearLevel.C36_leveler_failed_erase_violated",
    "WearLevel.C36_level_failed_erase_violated",
    "WearLevel.C36_level_exact"
   ],
   "note": "violated by WearLeveler always, by WearLevel if the caller's variable holds a valid record; exact behaviour of WearLevel"
  },
  {
   "property": "C37",
   "status": "proved",
   "theorems": [
    "Pool.C37_create",
    "Pool.C37_create_for_overwrite",
    "Pool.C37_destroy",
    "Pool.C37_init"
   ],
   "note": ""
  },
  {
   "property": "C38",
   "status": "proved",
   "theorems": [
    "TsPool.C38_exclusive_ownership"
   ],
   "note": ""
  },
  {
   "property": "C39",
   "status": "proved",
   "theorems": [
    "TsPool.C39_fails_only_if_seen_full",
    "TsPool.C39_create_alone",
    "TsPool.C39_create_alone_is_the_step_model",
    "TsPool.C39_destroy_free",
    "TsPool.C39_clear"
   ],
   "note": ""
  },
  {
   "property": "C40",
   "status": "partial",
   "theorems": [
    "Alloc.C40_blocks_partial",
    "Alloc.C40_exact_fit_violated"
   ],
   "note": "violated: a request for exactly the free space is refused"
  },
  {
   "property": "C41",
   "status": "partial",
   "theorems": [
    "Alloc.C41_padded",
    "Alloc.C41_aligned_allocator_partial",
    "Alloc.C41_aligned_allocator_zero",
    "Alloc.C41_aligned_allocator_violated",
    "Alloc.C41_aligned_allocator_exact"
   ],
   "note": "violated by AlignedAllocator for byte counts within Alignment-1 of the top of size_t; exact condition proved"
  },
  {
   "property": "C42",
   "status": "proved",
   "theorems": [
    "CompactBinary.C42_parse",
    "CompactBinary.C42_nested",
    "CompactBinary.C42_round_trip",
    "CompactBinary.C42_truncation_needed",
    "CompactBinary.C42_concat"
   ],
   "note": ""
  },
  {
   "property": "C43",
   "status": "proved",
   "theorems": [
    "CompactBinary.C43_writer_is_serializer",
    "CompactBinary.C43_depth_needed"
   ],
   "note": ""
  },
  {
   "property": "C44",
   "status": "proved",
   "theorems": [
    "CompactBinary.C44_sizes",
    "CompactBinary.C44_stream_is_serialize"
   ],
   "note": ""
  },
  {
   "property": "C45",
   "status": "proved",
   "theorems": [
    "CompactBinary.C45_serialize",
    "CompactBinary.C43_writer_is_serializer",
    "CompactBinary.C45_writer_any_calls"
   ],
   "note": ""
  },
  {
   "property": "C46",
   "status": "partial",
   "theorems": [
    "CompactBinary.C46_get_safe",
    "CompactBinary.C46_node_safe_partial",
    "CompactBinary.C46_node_violated",
    "CompactBinary.C46_node_exact"
   ],
   "note": "get_node violated when DataSizeT is as wide as size_t: the bounds check wraps; C46_node_exact states the outcome of get_node for every blob: undefined exactly if offset plus size wraps and the size is not the largest"
  },
  {
   "property": "C47",
   "status": "proved",
   "theorems": [
    "CompactBinary.C47_compare",
    "CompactBinary.C47_written_key_matches"
   ],
   "note": ""
  },
  {
   "property": "C48",
   "status": "proved",
   "theorems": [
    "IntToStr.C48_num_digits"
   ],
   "note": ""
  },
  {
   "property": "C49",
   "status": "partial",
   "theorems": [
    "IntToStr.C49_int_to_str_partial",
    "IntToStr.C49_int_to_str_violated",
    "IntToStr.intToStr_eq"
   ],
   "note": "violated for every value with a zero digit: the zeros are left out; intToStr_eq gives the exact result for all values"
  },
  {
   "property": "C50",
   "status": "partial",
   "theorems": [
    "IntToStr.C50_chop_partial",
    "IntToStr.C50_chop_safe_partial",
    "IntToStr.C50_chop_exact",
    "IntToStr.C50_power_violated",
    "IntToStr.C50_chop_violated"
   ],
   "note": "violated for values with a zero digit or last digit 1; C50_chop_exact states the text for every value and buffer: zero digits vanish, and a remainder of exactly 10^k becomes the character ':' (nothing for k = 0); C50_power_violated: every power of ten"
  },
  {
   "property": "C51",
   "status": "partial",
   "theorems": [
    "Print.C51_int_partial",
    "Print.C51_int_min_violated",
    "Print.C51_hex",
    "Print.C51_float_partial",
    "Print.C51_float_violated",
    "Print.C51_float_exact"
   ],
   "note": "integers: violated only for INT32_MIN (signed overflow); floats: only the integer part is printed, between question marks, and values beyond int32_t are undefined behaviour"
  },
  {
   "property": "C52",
   "status": "partial",
   "theorems": [
    "Print.C52_cstr",
    "Print.C52_view_partial",
    "Print.C52_view_violated",
    "Print.C52_print_args",
    "Print.C52_view_exact"
   ],
   "note": "violated for string_views that are not NUL-terminated right after their last character; C52_view_exact: exactly what is printed for any view"
  },
  {
   "property": "C53",
   "status": "proved",
   "theorems": [
    "Version.C53_cmp",
    "Version.C53_total_order"
   ],
   "note": ""
  },
  {
   "property": "C54",
   "status": "partial",
   "theorems": [
    "Version.C54_round_trip",
    "Version.C54_parse_partial",
    "Version.C54_parse_violated",
    "Version.C54_parse_exact",
    "Version.C54_wrap_violated",
    "Version.C54_every_text",
    "Version.C54_text_covered",
    "Version.C54_negative_violated"
   ],
   "note": "round trip proved for all M.m.r[-suffix]; violated for field texts of 2^32 and more with a 64-bit long, and for views followed by a digit in memory; C54_parse_exact covers numbers of any length; every zero-terminated text: the exact result (white space, signs, no digits, any numbers)"
  },
  {
   "property": "C55",
   "status": "proved",
   "theorems": [
    "Version.C55_can_host"
   ],
   "note": ""
  },
  {
   "property": "C56",
   "status": "partial",
   "theorems": [
    "Version.C56_prerelease_partial",
    "Version.C56_prerelease_violated"
   ],
   "note": "violated: only the text after the last dot is examined for the dash"
  },
  {
   "property": "C57",
   "status": "partial",
   "theorems": [
    "Strings.C57_replace_all_partial",
    "Strings.C57_shorter_partial",
    "Strings.C57_equal_length",
    "Strings.C57_terminates_partial",
    "Strings.C57_diverges_violated",
    "Strings.C57_misses_violated",
    "Strings.C57_terminates_exact",
    "Strings.C57_replace_all_exact"
   ],
   "note": "violated: the position advances by the length of the text searched for, not of its replacement; correct when the replacement is at least as long and cannot match again; exact conditions for ending and for being right"
  },
  {
   "property": "C58",
   "status": "proved",
   "theorems": [
    "Strings.C58_tokenize",
    "Strings.C58_runs_unique"
   ],
   "note": ""
  },
  {
   "property": "C59",
   "status": "proved",
   "theorems": [
    "Strings.C59_equal_ci",
    "Strings.C59_less_ci",
    "Strings.C59_less_ci_meaning"
   ],
   "note": ""
  },
  {
   "property": "C60",
   "status": "proved",
   "theorems": [
    "Strings.C60_contains_word"
   ],
   "note": ""
  },
  {
   "property": "C61",
   "status": "proved",
   "theorems": [
    "Partition.C61_each_once",
    "Partition.C61_too_many",
    "Partition.C61_too_many_initial"
   ],
   "note": ""
  },
  {
   "property": "C62",
   "status": "proved",
   "theorems": [
    "Partition.C62_balanced",
    "Partition.C62_overflow_violated"
   ],
   "note": "under the stated condition that no sum overflows T"
  },
  {
   "property": "C63",
   "status": "proved",
   "theorems": [
    "Debouncer.C63_debounce",
    "Debouncer.C63_default",
    "DebouncerCounter.C63_counter_same",
    "DebouncerCounter.C63_counter_count"
   ],
   "note": ""
  },
  {
   "property": "C64",
   "status": "proved",
   "theorems": [
    "Toggler.C64_at_most_once",
    "Toggler.C64_delivered",
    "Toggler.C64_no_new_edge",
    "Toggler.C64_states"
   ],
   "note": ""
  },
  {
   "property": "C65",
   "status": "partial",
   "theorems": [
    "Toggler.C65_transfer_partial",
    "Toggler.C65_transfer_violated",
    "Toggler.C65_copy",
    "Toggler.C65_transfer_exact",
    "Toggler.C65_lost_violated"
   ],
   "note": "violated when both events are pending in the source: the rising one is dropped; C65_transfer_exact covers all states"
  },
  {
   "property": "C66",
   "status": "proved",
   "theorems": [
    "TogglerCompact.C66_compact"
   ],
   "note": ""
  },
  {
   "property": "C67",
   "status": "proved",
   "theorems": [
    "TogglerCounter.C67_count",
    "TogglerCounter.C67_level",
    "TogglerCounter.C67_event",
    "TogglerCounter.C67_not_boolean"
   ],
   "note": ""
  },
  {
   "property": "C68",
   "status": "proved",
   "theorems": [
    "Schmitt.C68_events",
    "Schmitt.C68_inside",
    "Schmitt.C68_alternate",
    "Schmitt.C68_rising_only"
   ],
   "note": ""
  },
  {
   "property": "C69",
   "status": "proved",
   "theorems": [
    "EdgeState.C69_edge_state",
    "EdgeState.C69_edges",
    "ChangeDet.C69_changed"
   ],
   "note": ""
  },
  {
   "property": "C70",
   "status": "partial",
   "theorems": [
    "PollEvent.C70_poll_partial",
    "PollEvent.C70_poll_violated",
    "PollEvent.C70_signed_partial",
    "PollEvent.C70_signed_violated",
    "PollEvent.C70_signed_exact"
   ],
   "note": "exact characterisation; an event whose due time lies before a clock overflow and is only polled after it is missed; with the default signed clock the overflow is undefined behaviour; C70_signed_exact covers all readings of a signed clock"
  },
  {
   "property": "C71",
   "status": "partial",
   "theorems": [
    "PollEvent.C71_every_tick_partial",
    "PollEvent.C71_gaps_partial",
    "PollEvent.C71_gap_violated",
    "PollEvent.C71_stuck_violated",
    "PollEvent.C71_stuck_reachable_violated",
    "PollEvent.C71_exact"
   ],
   "note": "exact when polled at every tick; with gaps of at most g the action runs at the first poll after the due time unless that is one of the last g - 1 clock values before an overflow; there events are lost, for ever if the gaps divide the range of the clock (a uint8_t clock, period 50, polled every 8 ticks, stops after 1736 ticks); exact condition for every poll at any gap"
  },
  {
   "property": "C72",
   "status": "partial",
   "theorems": [
    "PollChange.C72_poll",
    "PollChange.C72_take_change",
    "PollChange.C72_force_partial",
    "PollChange.C72_force_violated",
    "PollChange.C72_force_exact"
   ],
   "note": "force_next_poll does not force a look when now < update_ticks"
  },
  {
   "property": "C73",
   "status": "proved",
   "theorems": [
    "Quad.C73_motion",
    "Quad.C73_turns"
   ],
   "note": ""
  },
  {
   "property": "C74",
   "status": "proved",
   "theorems": [
    "Rotary.C74_conserved"
   ],
   "note": ""
  },
  {
   "property": "C75",
   "status": "proved",
   "theorems": [
    "DoubleBuf.C75_fifo",
    "DoubleBuf.C75_progress"
   ],
   "note": ""
  },
  {
   "property": "C76",
   "status": "proved",
   "theorems": [
    "DoubleBuf.C76_in_flight",
    "DoubleBuf.C76_all_or_nothing"
   ],
   "note": ""
  },
  {
   "property": "C77",
   "status": "partial",
   "theorems": [
    "DoubleBuf.C77_result_partial",
    "DoubleBuf.C77_failed_start_violated",
    "DoubleBuf.C77_exact"
   ],
   "note": "with a failing transmit function later transmit() calls report success for data never sent; exact behaviour of every next call after every history, with failing transmit functions"
  },
  {
   "property": "C78",
   "status": "proved",
   "theorems": [
    "IntMath.C78_is_power_of_2",
    "IntMath.C78_log2_floor",
    "IntMath.C78_Log2",
    "IntMath.C78_agree"
   ],
   "note": ""
  },
  {
   "property": "C79",
   "status": "partial",
   "theorems": [
    "IntMath.C79_next_power_of_2",
    "IntMath.C79_next64_partial",
    "IntMath.C79_pow2_violated",
    "IntMath.C79_low_violated",
    "IntMath.C79_next64_exact"
   ],
   "note": "right for 8, 16 and 32 bits; for 64-bit types the power-of-two test only looks at the low 32 bits; exact condition proved"
  },
  {
   "property": "C80",
   "status": "proved",
   "theorems": [
    "IntMath.C80_wrap_max",
    "IntMath.C80_wrap",
    "IntMath.C80_unique",
    "IntMath.C80_range_needed"
   ],
   "note": ""
  },
  {
   "property": "C81",
   "status": "proved",
   "theorems": [
    "IntMath.C81_constrain",
    "IntMath.C81_max_min",
    "IntMath.C81_between",
    "IntMath.C81_abs_diff",
    "IntMath.C81_abs_diff_unsigned"
   ],
   "note": ""
  },
  {
   "property": "C82",
   "status": "proved",
   "theorems": [
    "IntMath.C82_plateau",
    "IntMath.C82_odd",
    "IntMath.C82_monotone_lipschitz"
   ],
   "note": ""
  },
  {
   "property": "C83",
   "status": "proved",
   "theorems": [
    "IntMath.C83_swap16",
    "IntMath.C83_swap32",
    "IntMath.C83_involution",
    "IntMath.C83_combine"
   ],
   "note": ""
  },
  {
   "property": "C84",
   "status": "partial",
   "theorems": [
    "IntMath.C84_interpolate_partial",
    "IntMath.C84_exact_partial",
    "IntMath.C84_negative_violated"
   ],
   "note": "wrong for negative values: the arithmetic is unsigned"
  },
  {
   "property": "C85",
   "status": "proved",
   "theorems": [
    "IntMath.C85_signed",
    "IntMath.C85_unsigned",
    "IntMath.C85_other_widths",
    "IntMath.C85_clamp"
   ],
   "note": ""
  },
  {
   "property": "C86",
   "status": "partial",
   "theorems": [
    "RatMath.C86_end_points",
    "RatMath.C86_affine",
    "RatMath.C86_monotone",
    "RatMath.C86_range",
    "RatMath.C86_inverse",
    "RatMath.C86_int_partial",
    "RatMath.C86_int_violated",
    "RatMath.C86_int_exact",
    "RatMath.C86_unsigned_exact"
   ],
   "note": "exact arithmetic proved in full; integers: only without overflow, and not for unsigned types with a decreasing output range; exact definedness and value on int, exact on unsigned for increasing ranges"
  },
  {
   "property": "C87",
   "status": "partial",
   "theorems": [
    "RatMath.C87_gate_partial",
    "RatMath.C87_gate_violated",
    "RatMath.C87_feedback"
   ],
   "note": "hysteresis_gate turns on at the middle of its thresholds, not at turn_on"
  },
  {
   "property": "C88",
   "status": "proved",
   "theorems": [
    "IntMath.C88_is_finite"
   ],
   "note": ""
  },
  {
   "property": "C89",
   "status": "proved",
   "theorems": [
    "IntMath.C89_unsigned",
    "IntMath.C89_signed"
   ],
   "note": ""
  },
  {
   "property": "C90",
   "status": "proved",
   "theorems": [
    "Color.C90_blend8",
    "Color.C90_blend32",
    "Color.C90_blend_half",
    "Color.C90_blend_float",
    "Color.C90_scale",
    "Color.C90_equality"
   ],
   "note": "float overloads in exact arithmetic"
  },
  {
   "property": "C91",
   "status": "proved",
   "theorems": [
    "Color.C91_of565",
    "Color.C91_rgb565",
    "Color.C91_round_trip",
    "Color.C91_RGB565",
    "Color.C91_RGB565_float",
    "Color.C91_construct_raw_exact"
   ],
   "note": "; but constructing an RGB565 from the uint16_t it converts to takes it for a 24-bit colour (exact: only 0 survives)"
  },
  {
   "property": "C92",
   "status": "proved",
   "theorems": [
    "Color.C92_blend_packed",
    "Color.C92_float"
   ],
   "note": ""
  },
  {
   "property": "C93",
   "status": "partial",
   "theorems": [
    "Color.C93_usat",
    "Color.C93_combine",
    "Color.C93_adjust",
    "Color.C93_add_dsp",
    "Color.C93_add_partial",
    "Color.C93_add_violated",
    "Color.C93_add_exact"
   ],
   "note": "operator+ saturates only on the ARM DSP target; elsewhere it wraps"
  },
  {
   "property": "C94",
   "status": "proved",
   "theorems": [
    "HSV.C94_hsv",
    "HSV.C94_hue",
    "HSV.C94_ramps"
   ],
   "note": ""
  },
  {
   "property": "C95",
   "status": "proved",
   "theorems": [
    "Oscs.C95_accum",
    "Oscs.C95_triangle_phase",
    "Oscs.C95_triangle_value",
    "Oscs.C95_process",
    "Oscs.C95_frequency",
    "Oscs.C95_frequency_float",
    "Oscs.C95_down",
    "Oscs.C95_down_terminates"
   ],
   "note": ""
  },
  {
   "property": "C96",
   "status": "partial",
   "theorems": [
    "Oscs.C96_set_period_ms_partial",
    "Oscs.C96_set_period_sec",
    "Oscs.C96_down_period",
    "Oscs.C96_set_period_ms_violated",
    "Oscs.C96_fraction_violated"
   ],
   "note": "false for periods below 1000 ms (division by zero) and for fractions of a second"
  },
  {
   "property": "C97",
   "status": "proved",
   "theorems": [
    "Oscs.C97_oneshot",
    "Oscs.C97_control"
   ],
   "note": "exact arithmetic"
  },
  {
   "property": "C98",
   "status": "proved",
   "theorems": [
    "Filter.MovingAverage.C98_moving_average",
    "Filter.MovingAverage.C98_range"
   ],
   "note": "unsigned samples"
  },
  {
   "property": "C99",
   "status": "partial",
   "theorems": [
    "Filter.C99_oversampler",
    "Filter.C99_smooth_partial",
    "Filter.C99_smooth_pow2",
    "Filter.C99_smooth_violated",
    "Filter.C99_resizing",
    "Filter.C99_resizing_misc",
    "Filter.C99_smooth_exact"
   ],
   "note": "SmoothOversampler's static_assert rounds log2(Size) down, so some accepted sizes overflow; everything else proved; exact value (sum modulo 2^32)"
  },
  {
   "property": "C100",
   "status": "proved",
   "theorems": [
    "Filter.C100_hysteresis",
    "Filter.C100_hysteresis_run",
    "Filter.C100_quadratic",
    "Filter.C100_stays",
    "Filter.C100_quadratic_range_needed"
   ],
   "note": "exact arithmetic"
  },
  {
   "property": "C101",
   "status": "partial",
   "theorems": [
    "InterpArray.C101_by_index",
    "InterpArray.C101_at_index",
    "InterpArray.C101_interp",
    "InterpArray.C101_wrap_index",
    "InterpArray.C101_wrap_partial",
    "InterpArray.C101_closest",
    "InterpArray.C101_set_get",
    "InterpArray.C101_negative_phase_violated",
    "InterpArray.C101_wrap_exact",
    "InterpArray.C101_index_exact"
   ],
   "note": "proved for non-negative phases; negative integer phases, which the comment allows, convert a negative float to unsigned; the exact range of positions for which both interpolations are defined, and what interp_wrap gives just below 0"
  },
  {
   "property": "C102",
   "status": "proved",
   "theorems": [
    "LookupTable.C102_clamps",
    "LookupTable.C102_interpolates",
    "LookupTable.C102_defined",
    "LookupTable.C102_monotone",
    "LookupTable.C102_generate"
   ],
   "note": "exact arithmetic"
  },
  {
   "property": "C103",
   "status": "proved",
   "theorems": [
    "Calibrator.C103_calibrate",
    "Calibrator.C103_inverse",
    "Calibrator.C103_identity",
    "Calibrator.C103_distinct_needed"
   ],
   "note": "exact arithmetic"
  },
  {
   "property": "C104",
   "status": "proved",
   "theorems": [
    "Voct.C104_recovers_line",
    "Voct.C104_two_points",
    "Voct.C104_C0",
    "Voct.C104_fresh",
    "Voct.C104_two_notes_needed"
   ],
   "note": "exact arithmetic"
  },
  {
   "property": "C105",
   "status": "partial",
   "theorems": [
    "InterpParam.C105_param",
    "InterpParamInt.C105_int_partial",
    "InterpParamInt.C105_int_violated",
    "InterpParamVar.C105_var",
    "InterpParamVar.C105_var_zero",
    "InterpParamVariable.C105_variable",
    "InterpParamVariable.C105_variable_default",
    "FilteredInterp.C105_array_partial",
    "FilteredInterp.C105_array_steps",
    "FilteredInterp.C105_array_violated",
    "FilteredInterp.C105_array_exact"
   ],
   "note": "exact arithmetic; false for integer types (division truncates) and, for FilteredInterpArray, after 2^32 updates without a new reading (counter wraps); C105_array_exact gives the output after any number of updates, beyond 2^32 too"
  },
  {
   "property": "C106",
   "status": "proved",
   "theorems": [
    "Param.C106_parameter",
    "RefParam.C106_ref",
    "Latched.C106_store",
    "Latched.C106_did_change",
    "Latched.C106_assign",
    "Latched.C106_threshold",
    "Latched.C106_overflow"
   ],
   "note": ""
  },
  {
   "property": "C107",
   "status": "partial",
   "theorems": [
    "Peak.C107_extremes_partial",
    "Peak.C107_integers",
    "Peak.C107_float_violated",
    "Analyzed.C107_after_reset",
    "Analyzed.C107_analyzed_partial",
    "Analyzed.C107_avg_within",
    "Analyzed.C107_avg_converges",
    "Peak.C107_extremes_exact"
   ],
   "note": "false for floating-point signals that never exceed numeric_limits<float>::min(), e.g. negative ones"
  },
  {
   "property": "C108",
   "status": "proved",
   "theorems": [
    "MemTest.C108_pattern_distinct",
    "MemTest.C108_check_iff",
    "MemTest.C108_good",
    "MemTest.C108_alias",
    "MemTest.C108_bad_word",
    "MemTest.C108_addresses",
    "MemTest.C108_frame"
   ],
   "note": ""
  },
  {
   "property": "C109",
   "status": "proved",
   "theorems": [
    "ByteBlock.C109_print",
    "ByteBlock.C109_unique",
    "ByteBlock.C109_raw"
   ],
   "note": ""
  },
  {
   "property": "C110",
   "status": "proved",
   "theorems": [
    "IOBuf.C110_input",
    "IOBuf.C110_output",
    "IOBuf.C110_fill"
   ],
   "note": ""
  },
  {
   "property": "C111",
   "status": "partial",
   "theorems": [
    "RectC.C111_exact_partial",
    "RectC.C111_sound",
    "RectC.C111_y",
    "RectC.C111_contained_violated",
    "RectC.C111_asymmetric_violated",
    "RectC.C111_size",
    "RectC.C111_overflow",
    "RectC.C111_rect"
   ],
   "note": "x_intersects misses containment"
  },
  {
   "property": "C112",
   "status": "partial",
   "theorems": [
    "Poly.C112_iff",
    "Poly.C112_rotate",
    "Poly.C112_reverse",
    "Poly.C112_translate",
    "Poly.C112_convex",
    "Poly.C112_triangle",
    "Poly.C112_int",
    "Poly.C112_overflow_violated",
    "Poly.C112_float_int",
    "Poly.C112_unsigned_exact",
    "Poly.C112_float_violated",
    "Poly.C112_unsigned_violated"
   ],
   "note": "proved for integer coordinates at most 32767 apart (int arithmetic) and in exact arithmetic; int overflows beyond, float and unsigned coordinates go wrong"
  },
  {
   "property": "C113",
   "status": "proved",
   "theorems": [
    "Zip.C113_zip",
    "Zip.C113_countzip",
    "Zip.C113_nothing"
   ],
   "note": "zip() of no containers never ends (C113_nothing)"
  },
  {
   "property": "C114",
   "status": "partial",
   "theorems": [
    "Owners.C114_once_partial",
    "Owners.C114_copy_violated",
    "Owners.C114_assign_violated",
    "Owners.C114_bool",
    "Owners.C114_exact"
   ],
   "note": "false once a callable is copied or assigned: the implicit copy duplicates the owning pointer; C114_exact: in every history, with copies and assignments, a callable is destroyed 1 + (times copied) - (times overwritten) times"
  },
  {
   "property": "C115",
   "status": "partial",
   "theorems": [
    "Bitfield.C115_bitfield",
    "Bitfield.C115_OR_violated",
    "Bitfield.C115_OR_loop_partial"
   ],
   "note": "OR() reads an uninitialised variable"
  },
  {
   "property": "C116",
   "status": "partial",
   "theorems": [
    "AudioFrame.C116_sign_extend",
    "AudioFrame.C116_saturates_partial",
    "AudioFrame.C116_saturates_24_partial",
    "AudioFrame.C116_round_trip",
    "AudioFrame.C116_sample_round_trip",
    "AudioFrame.C116_full_scale_32_violated",
    "AudioFrame.C116_used_16_violated",
    "AudioFrame.C116_used_16_float_violated",
    "AudioFrame.C116_wide_24_violated",
    "AudioFrame.C116_unsigned",
    "AudioFrame.C116_unsigned_exact",
    "AudioFrame.C116_unsigned_round_trip_violated",
    "AudioFrame.C116_channels"
   ],
   "note": "exact and binary32 arithmetic; false for 32-bit samples at full scale (undefined), for partly used types other than 24 bits, for 24-bit samples from 256 upwards, and the round trip for unsigned types"
  },
  {
   "property": "C117",
   "status": "partial",
   "theorems": [
    "MathFns.C117_sizes",
    "MathFns.C117_sin_table",
    "MathFns.C117_increasing",
    "MathFns.C117_tan_table",
    "MathFns.C117_interp",
    "MathFns.C117_pitch",
    "MathFns.C117_pitch_increasing",
    "MathFns.C117_freq",
    "MathFns.C117_pow2",
    "MathFns.C117_pow2_negative_violated",
    "MathFns.C117_pow2_large_violated",
    "MathFns.C117_sin01",
    "MathFns.C117_pow2_exact"
   ],
   "note": "exact arithmetic on the decimal table entries; pow2 is undefined for negative and does not end for very large arguments; the exact domain of pow2 in exact arithmetic"
  },
  {
   "property": "C118",
   "status": "partial",
   "theorems": [
    "MathFns.C118_partial",
    "MathFns.C118_quarters",
    "MathFns.C118_negative_violated",
    "MathFns.C118_large_violated",
    "MathFns.C118_cos_close",
    "MathFns.C118_tan",
    "MathFns.C118_is_inf",
    "MathFns.C118_domain_exact"
   ],
   "note": "holds for arguments from 0 to 2^21 periods; undefined for negative and larger ones; exact domain proved"
  },
  {
   "property": "C119",
   "status": "partial",
   "theorems": [
    "Spsc.C119_span_ctor_partial",
    "Spsc.C119_span_ctor_violated",
    "Spsc.C119_span_ctor_exact"
   ],
   "note": "violated for elements wider than a byte: only the elements in the first max_size bytes are copied (exact characterisation)"
  },
  {
   "property": "C120",
   "status": "partial",
   "theorems": [
    "CircStack.C120_ctor_from_values_violated",
    "CircStack.C120_exact",
    "CircStack.C120_size_partial"
   ],
   "note": "violated: the constructor fills the array but leaves the stack empty; C120_exact: it behaves exactly as an empty stack"
  },
  {
   "property": "C121",
   "status": "partial",
   "theorems": [
    "SequentialMap.C121_new_key_partial",
    "SequentialMap.C121_stale_value_violated",
    "SequentialMap.C121_new_key_exact"
   ],
   "note": "violated after erase or clear; exactly: the slot's old value"
  },
  {
   "property": "C122",
   "status": "partial",
   "theorems": [
    "SequentialMap.C122_const_read_partial",
    "SequentialMap.C122_const_read_absent_violated",
    "SequentialMap.C122_const_read_exact"
   ],
   "note": "violated for every absent key: dangling reference; exactly when it is defined"
  },
  {
   "property": "C123",
   "status": "partial",
   "theorems": [
    "FixedVector.C123_past_the_end_subscript_violated",
    "FixedVector.C123_insert_partial",
    "FixedVector.C123_erase_partial"
   ],
   "note": "violated; the exact states in which a checking subscript traps"
  },
  {
   "property": "C124",
   "status": "proved",
   "theorems": [
    "IntMath.C124_ipow",
    "IntMath.C124_bipolar"
   ],
   "note": "bipolar_type_range of an 8-byte type is 2^32-1"
  },
  {
   "property": "C125",
   "status": "proved",
   "theorems": [
    "IntMath.C125_adj_diff",
    "IntMath.C125_telescope"
   ],
   "note": ""
  },
  {
   "property": "C126",
   "status": "proved",
   "theorems": [
    "RatMath.C126_interpolate",
    "RatMath.C126_faster_sine"
   ],
   "note": ""
  },
  {
   "property": "C127",
   "status": "partial",
   "theorems": [
    "RgbLed.C127_flash_partial",
    "RgbLed.C127_rest",
    "RgbLed.C127_fade",
    "RgbLed.C127_base",
    "RgbLed.C127_brightness",
    "RgbLed.C127_long_flash_violated",
    "RgbLed.C127_rounding_violated",
    "RgbLed.C127_flash_exact",
    "RgbLed.C127_fresh"
   ],
   "note": "false for durations above 1000 ms and for durations not of the form 1000/f; proved for ms = 1000/f; every duration is rounded to 1000/floor(1000/ms)"
  },
  {
   "property": "C128",
   "status": "proved",
   "theorems": [
    "Filter.C128_no_filter",
    "Filter.C128_cascade"
   ],
   "note": ""
  },
  {
   "property": "C129",
   "status": "proved",
   "theorems": [
    "PaddedAligned.C129_size"
   ],
   "note": ""
  },
  {
   "property": "C130",
   "status": "proved",
   "theorems": [
    "Neon.C130_lanes",
    "Neon.C130_load_sum"
   ],
   "note": ""
  },
  {
   "property": "C131",
   "status": "partial",
   "theorems": [
    "Owners.C114_once_partial",
    "Owners.C114_copy_violated",
    "Owners.C114_assign_violated",
    "Owners.C114_exact"
   ],
   "note": "the same owner model as C114; false for implicit copies; C114_exact gives the number of deletions for every history"
  },
  {
   "property": "C132",
   "status": "partial",
   "theorems": [
    "MathFns.C132_float",
    "MathFns.C132_int_partial",
    "MathFns.C132_long32_violated",
    "MathFns.C132_wide_violated",
    "MathFns.C132_int_exact"
   ],
   "note": "int version overflows where long has 32 bits; exact condition proved"
  },
  {
   "property": "C133",
   "status": "partial",
   "theorems": [
    "SineOsc.C133_range",
    "SineOsc.C133_samples",
    "SineOsc.C133_val_violated",
    "SineOsc.C133_controls"
   ],
   "note": "ranges proved in exact and binary32 arithmetic; val() advances the phase"
  },
  {
   "property": "C134",
   "status": "proved",
   "theorems": [
    "CircAccess.C134_write_blend",
    "CircAccess.C134_write_reverse_blend",
    "CircAccess.C134_blend_between",
    "CircAccess.C14_mix"
   ],
   "note": "between-ness in exact arithmetic; end points also in binary32"
  },
  {
   "property": "C135",
   "status": "proved",
   "theorems": [
    "Accuracy.C135_sin_entries",
    "Accuracy.C135_sin01",
    "Accuracy.C135_sin",
    "Accuracy.C135_cos"
   ],
   "note": "exact arithmetic; binary32 in C139"
  },
  {
   "property": "C136",
   "status": "proved",
   "theorems": [
    "Accuracy.C136_exp_tables",
    "Accuracy.C136_pow2",
    "Accuracy.C136_pitch"
   ],
   "note": "exact arithmetic"
  },
  {
   "property": "C137",
   "status": "proved",
   "theorems": [
    "Accuracy.C137_log_entries",
    "Accuracy.C137_freq"
   ],
   "note": "exact arithmetic"
  },
  {
   "property": "C138",
   "status": "partial",
   "theorems": [
    "Accuracy.C138_tan_entries",
    "Accuracy.C138_tan_partial",
    "Accuracy.C138_near_half_pi_violated"
   ],
   "note": "exact arithmetic; holds away from the pole with explicit bound, false in the two cells next to pi/2, where the table entry is -22877334"
  },
  {
   "property": "C139",
   "status": "proved",
   "theorems": [
    "AccuracyFloat.C139_sin01",
    "AccuracyFloat.C139_sin",
    "AccuracyFloat.C139_cos"
   ],
   "note": "exact and any round-to-nearest binary32 arithmetic, each operation rounded separately"
  },
  {
   "property": "C140",
   "status": "proved",
   "theorems": [
    "AccuracyFloat.C140_sine"
   ],
   "note": "exact and any round-to-nearest binary32 arithmetic"
  },
  {
   "property": "C141",
   "status": "proved",
   "theorems": [
    "LookupTable.C141_accuracy"
   ],
   "note": "exact arithmetic; F with a bounded second derivative"
  },
  {
   "property": "C142",
   "status": "partial",
   "theorems": [
    "Strings.C142_defined_partial",
    "Strings.C142_signed_violated",
    "Strings.C142_defined_exact"
   ],
   "note": "undefined for bytes 128 to 254 where char is signed"
  },
  {
   "property": "C143",
   "status": "proved",
   "theorems": [
    "FilterFloat.C143_hysteresis",
    "FilterFloat.C143_quadratic",
    "FilterFloat.C143_stays",
    "FilterFloat.C143_smooth"
   ],
   "note": "binary32, any round-to-nearest rule"
  },
  {
   "property": "C144",
   "status": "partial",
   "theorems": [
    "ParamsFloat.C144_close_partial",
    "ParamsFloat.C144_exact",
    "ParamsFloat.C144_snap",
    "ParamsFloat.C144_array",
    "ParamsFloat.C144_stuck_violated"
   ],
   "note": "close to the line always; exact on a common grid and for FilteredInterpArray; in general the target is missed by rounding and a parameter may not move at all"
  },
  {
   "property": "C145",
   "status": "proved",
   "theorems": [
    "InterpFloat.C145_between",
    "InterpFloat.C145_ends",
    "InterpFloat.C145_monotone",
    "InterpFloat.C145_close"
   ],
   "note": "binary32, any round-to-nearest rule"
  },
  {
   "property": "C146",
   "status": "partial",
   "theorems": [
    "InterpFloat.C146_args_partial",
    "InterpFloat.C146_outside_violated"
   ],
   "note": "first argument exact, all arguments within rounding; the last may be rounded past max"
  },
  {
   "property": "C147",
   "status": "partial",
   "theorems": [
    "InterpFloat.C147_by_index",
    "InterpFloat.C147_interp",
    "InterpFloat.C147_wrap",
    "InterpFloat.C147_constant_violated"
   ],
   "note": "in bounds, exact at elements and accurate: proved; between the neighbours: fails by one unit in the last place even for equal neighbours"
  },
  {
   "property": "C148",
   "status": "partial",
   "theorems": [
    "CalibFloat.C148_monotone",
    "CalibFloat.C148_reverse_adjust_partial",
    "CalibFloat.C148_adjust_reverse_partial",
    "CalibFloat.C148_asserts",
    "CalibFloat.C148_roundtrip_violated",
    "CalibFloat.C148_calibrate"
   ],
   "note": "round trips hold up to rounding, exactly for the asserted value but not in general"
  },
  {
   "property": "C149",
   "status": "proved",
   "theorems": [
    "OscsFloat.C149_process_float",
    "OscsFloat.C149_ramp_one",
    "OscsFloat.C149_frequency",
    "OscsFloat.C149_down_period"
   ],
   "note": "for every round-to-nearest rule"
  },
  {
   "property": "C150",
   "status": "partial",
   "theorems": [
    "OscsFloat.C150_pulse_partial",
    "OscsFloat.C150_exact",
    "OscsFloat.C150_never_ends_violated",
    "OscsFloat.C150_late_violated",
    "OscsFloat.C150_control"
   ],
   "note": "exact for power-of-two rates; otherwise the length has relative error up to (w*rate+3)/2^24, and at 48 kHz a 250 s pulse is more than 10 s too long and a 600 s pulse never ends"
  },
  {
   "property": "C151",
   "status": "partial",
   "theorems": [
    "ColorFloat.C151_blend_partial",
    "ColorFloat.C151_scale",
    "ColorFloat.C151_packed",
    "ColorFloat.C151_rgb565",
    "ColorFloat.C151_white_violated"
   ],
   "note": "defined, exact ends, within rounding of the mean, never above the larger channel: proved; at most one below the smaller channel, which happens: white blended with white gives 254"
  },
  {
   "property": "C152",
   "status": "partial",
   "theorems": [
    "OscsFloat.C152_flash_partial",
    "OscsFloat.C152_truncated_violated",
    "OscsFloat.C152_long_flash_violated",
    "OscsFloat.C152_breathe"
   ],
   "note": "flashes equal the exact ones of C127 unless 1000/ms rounds across an integer; 1000/13 ms is shown as 1000/12 ms"
  },
  {
   "property": "C153",
   "status": "partial",
   "theorems": [
    "MathFloat.C153_map_start",
    "MathFloat.C153_map_monotone",
    "MathFloat.C153_map_above",
    "MathFloat.C153_map_accuracy_partial",
    "MathFloat.C153_map_end_violated",
    "MathFloat.C153_interpolate3",
    "MathFloat.C153_interpolate3_monotone",
    "MathFloat.C153_interpolate3_end_violated",
    "MathFloat.C153_interpolate_ends",
    "MathFloat.C153_agree_partial",
    "MathFloat.C153_interpolate_violated",
    "MathFloat.C153_random_partial",
    "MathFloat.C153_random_violated"
   ],
   "note": "lower ends exact, order kept, accuracy bounds, interpolate3 between its arguments below phase 1; upper ends and interpolate's range fail by a unit in the last place"
  },
  {
   "property": "C154",
   "status": "proved",
   "theorems": [
    "MathFloat.C154_faster_sine"
   ],
   "note": "for every round-to-nearest rule"
  },
  {
   "property": "C155",
   "status": "proved",
   "theorems": [
    "MathFloat.C155_gate",
    "MathFloat.C155_thresholds",
    "MathFloat.C155_no_chatter",
    "MathFloat.C155_feedback"
   ],
   "note": "for every round-to-nearest rule; the on threshold of hysteresis_gate is the middle of its two parameters, see C87"
  },
  {
   "property": "C156",
   "status": "partial",
   "theorems": [
    "MathFloat.C156_avg_within",
    "MathFloat.C156_coef",
    "MathFloat.C156_approaches_partial",
    "MathFloat.C156_outside_violated",
    "MathFloat.C156_stalls_violated"
   ],
   "note": "always within the samples for coefficients below 1; coefficient 1 may overshoot; the average of a constant signal may stop short of it"
  },
  {
   "property": "C157",
   "status": "proved",
   "theorems": [
    "PoolWeak.C157_handover",
    "PoolWeak.C157_one_owner"
   ],
   "note": "vector-clock model of happens-before; the client's own synchronisation (Act.sync) is also allowed but not needed"
  },
  {
   "property": "C158",
   "status": "partial",
   "theorems": [
    "PoolWeak.C158_quiescent_clear_partial",
    "PoolWeak.C158_clear_races_violated",
    "PoolWeak.C158_clear_concurrent_violated",
    "PoolWeak.When.C158_when_exact",
    "PoolWeak.When.C158_other_moments_violated"
   ],
   "note": "holds when nothing is owned, nothing else runs and all earlier accesses happen before the call; otherwise clear() races with earlier owners (it acquires nothing) and can hand out an entry twice; the exact moments: clear() while only the caller owns entries and all accesses happen before it, other threads creating behind it as it goes; a data race follows at every other moment"
  },
  {
   "property": "C159",
   "status": "proved",
   "theorems": [
    "ExpFloat.C159_pow2",
    "ExpFloat.C159_pitch"
   ],
   "note": "relative error 1.7e-6 + 4.3e-8 x for pow2, 1.7e-6 for setPitchMultiple, for every round-to-nearest rule"
  },
  {
   "property": "C160",
   "status": "proved",
   "theorems": [
    "ExpFloat.C160_freq"
   ],
   "note": "error 2.8e-6 + 1.73/g^2 with g = max(20, x - 9.78), for every round-to-nearest rule"
  },
  {
   "property": "C161",
   "status": "partial",
   "theorems": [
    "ExpFloat.C161_cos_close",
    "ExpFloat.C161_tan_partial",
    "ExpFloat.C161_near_half_pi_violated"
   ],
   "note": "cos_close everywhere; the tangents away from odd multiples of half pi, with an error growing like the square of the tangent; next to half pi tan has the wrong sign"
  },
  {
   "property": "C162",
   "status": "proved",
   "theorems": [
    "VoctFloat.C162_voct",
    "VoctFloat.C162_C0",
    "VoctFloat.C162_exact"
   ],
   "note": "slope within 2 delta + 6 M/2^24, offset within 21 delta + 190 M/2^24, for measurements of magnitude up to M and every round-to-nearest rule"
  },
  {
   "property": "C163",
   "status": "partial",
   "theorems": [
    "ParamsFloat.C163_store_partial",
    "ParamsFloat.C163_tracks",
    "ParamsFloat.C163_noise",
    "ParamsFloat.C163_threshold_violated"
   ],
   "note": "the threshold is num/den up to two units of rounding, not exactly; both directions proved with that slack, and over all histories"
  },
  {
   "property": "C164",
   "status": "proved",
   "theorems": [
    "DoubleBuf.C164_nested_is_sequential",
    "DoubleBuf.C164_nested_fifo",
    "DoubleBuf.C164_blocking"
   ],
   "note": "the transmit function's own calls are an arbitrary tree of calls"
  },
  {
   "property": "C165",
   "status": "proved",
   "theorems": [
    "FiltConc.C165_not_lost",
    "FiltConc.C165_value",
    "FiltConc.C165_at_most_once",
    "FiltConc.C165_call",
    "FiltConc.C165_not_ready",
    "FiltConc.C165_mixed"
   ],
   "note": "steps are the accesses to the atomic flag and the calls of read_fn; C165_mixed shows that one call may mix two announcements"
  },
  {
   "property": "C166",
   "status": "partial",
   "theorems": [
    "FiltWeak.C166_value",
    "FiltWeak.C166_in_order",
    "FiltWeak.C166_recent",
    "FiltWeak.C166_progress",
    "FiltWeak.C166_not_lost_partial",
    "FiltWeak.C166_not_lost_violated",
    "FiltWeak.C166_each_window_violated"
   ],
   "note": "no announcement is lost if none falls between the load of the flag and the store that clears it (or if an exchange cleared it); otherwise one can be lost, because the clearing store does not read the announcement it overwrites: witness; C166_each_window_violated: a loss is possible at every such moment of every history"
  },
  {
   "property": "C167",
   "status": "partial",
   "theorems": [
    "SpscWeak.C167_dyn_guarded_partial",
    "SpscWeak.C167_dyn_acquire_partial",
    "SpscWeak.C167_dyn_relaxed_load_races_violated",
    "SpscWeak.C167_exact"
   ],
   "note": "as C05, for every capacity, up to 2^w puts or without limit for capacities dividing 2^w; exact condition as in C05 (C167_exact)"
  },
  {
   "property": "C168",
   "status": "proved",
   "theorems": [
    "Neon.Float.C168_dot",
    "Neon.Float.C168_lanes"
   ],
   "note": "infinities are not modelled"
  },
  {
   "property": "C169",
   "status": "partial",
   "theorems": [
    "TogglerIsr.C169_answers",
    "TogglerIsr.C169_counts",
    "TogglerIsr.Compact.C169_compact_partial",
    "TogglerIsr.Compact.C169_compact_violated",
    "TogglerIsr.Compact.C169_compact_exact"
   ],
   "note": "proved for Toggler; TogglerCompact keeps its flags in bit-fields of one byte, so clearing one writes back the others and an interrupt between load and store is lost; C169_compact_exact: exactly the interrupts between load and store are lost, nothing else"
  },
  {
   "property": "C170",
   "status": "proved",
   "theorems": [
    "StaticString.C170_copy_self",
    "StaticString.C170_copy_view_self"
   ],
   "note": ""
  },
  {
   "property": "C171",
   "status": "partial",
   "theorems": [
    "ParamsInt.C171_reaches_partial",
    "ParamsInt.C171_init",
    "ParamsInt.C171_snap",
    "ParamsInt.C171_down_partial",
    "ParamsInt.C171_unsigned_violated",
    "ParamsInt.C171_unsigned32_violated",
    "ParamsInt.C171_default_steps_violated",
    "ParamsInt.C171_overflow_violated"
   ],
   "note": "holds when the difference and the number of steps are values of the type; unsigned types going down, one-byte types with the default 256 steps and differences that overflow fail"
  },
  {
   "property": "C172",
   "status": "partial",
   "theorems": [
    "CircAccess.C172_accuracy",
    "CircAccess.C172_between",
    "CircAccess.C172_int",
    "CircAccess.C172_constant_violated"
   ],
   "note": "integer elements can leave the range between old and new by one (the sum is truncated): 3 written over 3 may store 2"
  },
  {
   "property": "C173",
   "status": "partial",
   "theorems": [
    "FilterInt.C173_moving_average_partial",
    "FilterInt.C173_oversampler_partial",
    "FilterInt.C173_smooth_partial",
    "FilterInt.C173_int_violated",
    "FilterInt.C173_smooth_violated",
    "FilterInt.C173_moving_average_exact",
    "FilterInt.C173_smooth_exact"
   ],
   "note": "exact for signed types whose width plus log2(Size) is at most 32, and otherwise when the sum is not negative; MovingAverage<4,int> and every signed SmoothOversampler fail on negative sums; exact values for all types and streams"
  },
  {
   "property": "C174",
   "status": "partial",
   "theorems": [
    "HystInt.C174_hysteresis_partial",
    "HystInt.C174_range_partial",
    "HystInt.C174_unsigned_violated",
    "HystInt.C174_unsigned_exact"
   ],
   "note": "holds for signed types and types narrower than 32 bits; with a 32-bit unsigned type an input below the state is undefined; C174_unsigned_exact says exactly what uint32_t does going up and down"
  },
  {
   "property": "C175",
   "status": "partial",
   "theorems": [
    "InterpInt.C175_by_index",
    "InterpInt.C175_interp",
    "InterpInt.C175_wrap",
    "InterpInt.C175_constant_violated"
   ],
   "note": "the value can lie one unit outside the two elements (truncation): the table {3, 3} reads 2 at some phases"
  },
  {
   "property": "C176",
   "status": "partial",
   "theorems": [
    "MapInt.C176_to_int_partial",
    "MapInt.C176_to_int_monotone",
    "MapInt.C176_wide",
    "MapInt.C176_end_violated",
    "MapInt.C176_of_int_partial",
    "MapInt.C176_below_violated"
   ],
   "note": "the upper end of the input range can give one less than the upper end of the output range: map_value(0.3f, 0.f, 0.3f, 0, 255) is 254; exact when the width is a power of two"
  },
  {
   "property": "C177",
   "status": "partial",
   "theorems": [
    "WrapInt.C177_wrap",
    "WrapInt.C177_wrap_max_partial",
    "WrapInt.C177_negative_violated",
    "WrapInt.C177_wrap_max_exact"
   ],
   "note": "wrap<Max, T> on negative values reduces them as unsigned numbers: wrap<10, int>(-1) is 5; exact value for Max within the positive half of the type"
  },
  {
   "property": "C178",
   "status": "partial",
   "theorems": [
    "CompactBinary.C178_parse_partial",
    "CompactBinary.C178_get_safe",
    "CompactBinary.C178_node_partial",
    "CompactBinary.C178_node_violated",
    "CompactBinary.C178_overflow_violated",
    "CompactBinary.C178_large_violated"
   ],
   "note": "sizes of half the range and more are not read back and hide the entries after them; get_node on a hostile size forms a span outside the blob (get<T> does not): exact characterisation"
  },
  {
   "property": "C179",
   "status": "partial",
   "theorems": [
    "VoctI.C179_defined_partial",
    "VoctI.C179_recovers_line_partial",
    "VoctI.C179_two_points_partial",
    "VoctI.C179_wrap_violated",
    "VoctI.C179_overflow_violated"
   ],
   "note": "holds for measurements up to 1/42 of the range of the type; larger ones can wrap (int16_t) or overflow (int)"
  },
  {
   "property": "C180",
   "status": "partial",
   "theorems": [
    "MotionIsr.Change.C180_changed",
    "MotionIsr.C180_motion_partial",
    "MotionIsr.C180_motion_violated",
    "MotionIsr.C180_add_partial"
   ],
   "note": "proved for ChangeDetector; a turn between the load and the store of use_motion() is lost (exact account), one between the two additions of add_motion() makes the counters differ"
  },
  {
   "property": "C181",
   "status": "partial",
   "theorems": [
    "DiffInt.C181_distance",
    "DiffInt.C181_between",
    "DiffInt.C181_distance_violated",
    "DiffInt.C181_threshold",
    "DiffInt.C181_threshold_violated",
    "DiffInt.C181_store_partial",
    "DiffInt.C181_history_partial",
    "DiffInt.C181_store_violated"
   ],
   "note": "holds in unsigned types; in signed types distances beyond the largest value are negative or undefined (exact characterisation), so a LatchedParam<int8_t> refuses large changes"
  },
  {
   "property": "C182",
   "status": "partial",
   "theorems": [
    "ParamIsr.C182_param_partial",
    "ParamIsr.C182_param_violated",
    "ParamIsr.Ref.C182_ref",
    "ParamIsr.Latch.C182_latched",
    "ParamIsr.C182_exact",
    "ParamIsr.Latch.C182_progress"
   ],
   "note": "proved for RefParameter and LatchedParam; Parameter::isChanged() clears the flag even if it read false, so a change between its two accesses is never reported; C182_exact: the answers are right iff no change falls into such a call"
  },
  {
   "property": "C183",
   "status": "partial",
   "theorems": [
    "Voct.C183_latest_partial",
    "Voct.C183_equal_violated",
    "Voct.C183_exact"
   ],
   "note": "exact arithmetic; holds if the two values differ; if they are equal the old slope is kept; C183_exact gives slope and offset after any two measurements, equal ones and an earlier C0 included"
  },
  {
   "property": "C184",
   "status": "partial",
   "theorems": [
    "CircBufIsr.C184_isr_partial",
    "CircBufIsr.C184_in_bounds",
    "CircBufIsr.C184_room_violated",
    "CircBufIsr.When.C184_when_exact",
    "CircBufIsr.When.C184_other_moments_violated"
   ],
   "note": "in bounds for every schedule; right if every item put during a get() finds two free places; with fewer, get() can miss all items, lose all of them or overcount (witnesses); the exact moments at which an interrupt may put an item, point by point of get(), and a wrong answer or count at every other moment"
  },
  {
   "property": "C185",
   "status": "partial",
   "theorems": [
    "WrapFloat.C185_wrap_max_partial",
    "WrapFloat.C185_wrap_max_violated",
    "WrapFloat.C185_wrap_partial",
    "WrapFloat.C185_wrap_whole",
    "WrapFloat.C185_wrap_violated",
    "WrapFloat.C185_wrap_exact"
   ],
   "note": "exact for whole numbers below 2^22 and wrap<Max> up to 2^24; fractions may end up between max and max+1; large values loop for ever; C185_wrap_exact gives the result exactly"
  },
  {
   "property": "C186",
   "status": "partial",
   "theorems": [
    "FilterMix.C186_moving_average_partial",
    "FilterMix.C186_moving_average_violated",
    "FilterMix.C186_oversampler_partial",
    "FilterMix.C186_oversampler_violated",
    "FilterMix.C186_resizing"
   ],
   "note": "ResizingOversampler proved with an error bound; the other two hold for whole samples, but their accumulator is an unsigned, which drops the fractions of float samples and is undefined for negative sums"
  },
  {
   "property": "C187",
   "status": "partial",
   "theorems": [
    "PartitionNum.C187_each_once",
    "PartitionNum.C187_signed_partial",
    "PartitionNum.C187_float",
    "PartitionNum.C187_negative_violated",
    "PartitionNum.C187_rounding_violated",
    "PartitionNum.C187_one_part_exact"
   ],
   "note": "Each-once is proved for every addition; balance for non-negative signed and float values, the latter with an explicit rounding term. Balance fails with negative values and, without the rounding term, for floats (both witnesses proved). The C++ sort is any sorted permutation. Infinities and NaN are not modelled."
  },
  {
   "property": "C188",
   "status": "partial",
   "theorems": [
    "LookupInt.C188_ends_partial",
    "LookupInt.C188_inside_partial",
    "LookupInt.C188_exact",
    "LookupInt.C188_interpolation_violated",
    "LookupInt.C188_below_violated",
    "LookupInt.C188_above_violated"
   ],
   "note": "The exact result is proved for every integer type not wider than size_t; that it interpolates, or stays at the end it is beyond, is false (witnesses proved)."
  },
  {
   "property": "C189",
   "status": "partial",
   "theorems": [
    "PollTypes.C189_narrow_partial",
    "PollTypes.C189_every_tick_partial",
    "PollTypes.C189_narrow_violated",
    "PollTypes.C189_float",
    "PollTypes.C189_float_back",
    "PollTypes.C189_float_runs",
    "PollTypes.C189_early_violated"
   ],
   "note": "Exact for narrow signed clocks (an event due just before the wrap and polled after it is missed: witness); with floats the run can be early by a 2^24th part (witness). Times are finite floats."
  },
  {
   "property": "C190",
   "status": "partial",
   "theorems": [
    "DoubleBufIsr.C190_harmless_partial",
    "DoubleBufIsr.C190_other_moments_violated"
   ],
   "note": "Proved for all schedules with harmless interrupts; at the other moments the loss is proved from every such state."
  },
  {
   "property": "C191",
   "status": "partial",
   "theorems": [
    "XCirc.C191_replace_partial",
    "XCirc.C191_replace_violated",
    "XCirc.C191_forever_violated",
    "XCirc.C191_clear",
    "XCirc.C191_blend_finite",
    "XCirc.C191_int32_violated"
   ],
   "note": "Holds for finite stored values. Violated: 0*inf and 0*NaN are NaN, so a special value is never overwritten; blending an int32 through float rounds up to 2^31."
  },
  {
   "property": "C192",
   "status": "partial",
   "theorems": [
    "XTable.C192_lookup",
    "XTable.C192_lookup_nan_violated",
    "XTable.C192_lookup_width_violated",
    "XTable.C192_lookup_empty",
    "XTable.C192_interp",
    "XTable.C192_interp_violated",
    "XTable.C192_trig",
    "XTable.C192_pitch",
    "XTable.C192_freq",
    "XTable.C192_nan_violated",
    "XTable.C192_pow2",
    "XTable.C192_pow2_special_violated",
    "XTable.C192_pow2_minus_violated",
    "XTable.C192_pow2_large_violated"
   ],
   "note": "The safe ranges are proved exactly; outside them the functions are undefined."
  },
  {
   "property": "C193",
   "status": "partial",
   "theorems": [
    "XFilter.C193_poisoned_violated",
    "XFilter.C193_overflow_violated",
    "XFilter.C193_finite",
    "XFilter.C193_block",
    "XFilter.C193_finishes",
    "XFilter.C193_size_zero_violated",
    "XFilter.C193_reset",
    "XFilter.C193_analyser_violated",
    "XFilter.C193_extremes_nan",
    "XFilter.C193_peaks"
   ],
   "note": "Safe for finite samples within the range of C143; the oversampler and the extremes recover. Violated for the recursive filters."
  },
  {
   "property": "C194",
   "status": "partial",
   "theorems": [
    "XMath.C194_constrain",
    "XMath.C194_constrain_violated",
    "XMath.C194_max_min",
    "XMath.C194_max_min_violated",
    "XMath.C194_between",
    "XMath.C194_between_finite",
    "XMath.C194_between_violated",
    "XMath.C194_abs",
    "XMath.C194_diff",
    "XMath.C194_diff_violated",
    "XMath.C194_interpolate",
    "XMath.C194_interpolate3_violated",
    "XMath.C194_ends_violated",
    "XMath.C194_map",
    "XMath.C194_map_violated",
    "XMath.C194_sine",
    "XMath.C194_sine_violated",
    "XMath.C194_gates",
    "XMath.C194_schmitt",
    "XMath.C194_schmitt_inf"
   ],
   "note": "Exact on the non-NaN floats or on the stated finite ranges; violations proved beside."
  },
  {
   "property": "C195",
   "status": "partial",
   "theorems": [
    "XParam.C195_param",
    "XParam.C195_param_violated",
    "XParam.C195_ref",
    "XParam.C195_ref_violated",
    "XParam.C195_latch",
    "XParam.C195_latch_violated",
    "XParam.C195_interp_violated",
    "XParam.C195_interp",
    "XParam.C195_snap",
    "XParam.C195_zero_updates_violated"
   ],
   "note": "Exact for non-NaN values (Parameter, RefParameter) and for magnitudes up to 2^100 (interpolated); special values are proved to be absorbing."
  },
  {
   "property": "C196",
   "status": "partial",
   "theorems": [
    "XAudio.C196_finite",
    "XAudio.C196_infinite",
    "XAudio.C196_violated"
   ],
   "note": "Defined exactly as in C116 for finite floats; NaN always undefined."
  },
  {
   "property": "C197",
   "status": "partial",
   "theorems": [
    "XAudio.C197_finite",
    "XAudio.C197_blend",
    "XAudio.C197_violated",
    "XAudio.C197_shot",
    "XAudio.C197_shot_violated",
    "XAudio.C197_shot_nan"
   ],
   "note": "Agreement with C149-C152 on finite floats; special values characterised completely for each function."
  },
  {
   "property": "C198",
   "status": "partial",
   "theorems": [
    "XCalib.C198_finite",
    "XCalib.C198_violated",
    "XCalib.C198_special"
   ],
   "note": "Exact agreement with C148 in the stated range; the useless calibrations are characterised."
  },
  {
   "property": "C199",
   "status": "partial",
   "theorems": [
    "XCalib.C199_finite",
    "XCalib.C199_recovers",
    "XCalib.C199_offset_violated",
    "XCalib.C199_slope_violated"
   ],
   "note": "Refinement of the finite model over all histories, recovery of the slope proved from every reachable state; the offset does not recover."
  },
  {
   "property": "C200",
   "status": "partial",
   "theorems": [
    "XWrap.C200_max",
    "XWrap.C200_max_violated",
    "XWrap.C200_wrap",
    "XWrap.C200_wrap_violated",
    "XWrap.C200_overflow_violated"
   ],
   "note": "Loop-for-loop agreement with C185 on finite floats; non-termination for infinities."
  },
  {
   "property": "C201",
   "status": "partial",
   "theorems": [
    "SeqMap.C201_seqmap_pointer_exact",
    "SeqMap.C201_seqmap_pointer_partial",
    "SeqMap.C201_seqmap_pointer_violated",
    "SeqMap.C201_seqmap_fresh_pointer",
    "SeqMap.C201_seqmap_init",
    "SeqMap.C201_seqmap_evicted",
    "SequentialMap.C201_erase_exact",
    "SequentialMap.C201_erase_comment_violated",
    "SequentialMap.C201_index_exact"
   ],
   "note": "Exact characterisation for both maps; the documented rule for SequentialMap::erase is the wrong way round, and duplicate keys detach a SeqMap pointer."
  },
  {
   "property": "C202",
   "status": "partial",
   "theorems": [
    "FixedVector.C202_objects_exact",
    "FixedVector.C202_live",
    "FixedVector.C202_removed_violated"
   ],
   "note": "Exact content of the whole array for every history; removed elements stay alive."
  },
  {
   "property": "C203",
   "status": "partial",
   "theorems": [
    "WearLevel.Crash.C203_history",
    "WearLevel.Crash.C203_last_partial",
    "WearLevel.Crash.C203_torn_erase_violated"
   ],
   "note": "C203_history is the exact answer for every history; the last sentence of the statement holds if power never fails between an erase and the write that follows it and never during an erase (C203_last_partial), and is violated otherwise: nothing is left after a failure in that window (C32), and an older record comes back after a failure during the erase (C203_torn_erase_violated)"
  },
  {
   "property": "C204",
   "status": "partial",
   "theorems": [
    "CircBufTake.C204_in_bounds",
    "CircBufTake.C204_answers_partial",
    "CircBufTake.C204_emptied_violated",
    "CircBufTake.C204_full_violated",
    "CircBufTake.C204_filled_violated",
    "CircBufTake.When.C204_when_exact",
    "CircBufTake.When.C204_other_moments_violated"
   ],
   "note": "accesses are in bounds in every schedule. The answers are right if an interrupt inside put() takes an item only while there are fewer than N items and, between the arrival of the new item and the comparison of the indices, only if it leaves one; otherwise wrong (three witnesses). The header says that producer and consumer must not interrupt each other: this is what happens if they do. C184 is the mirror case.; for buffers of at least two places the moments at which taking an item is harmless are determined exactly: Spec/CircBufWhen.lean, where a put into a full buffer drops and adds at two moments; at every other moment, after every history, a wrong result follows."
  },
  {
   "property": "C205",
   "status": "partial",
   "theorems": [
    "TokenAlias.C205_exact",
    "TokenAlias.C205_view_violated",
    "TokenAlias.C205_delims_violated"
   ],
   "note": "C205_exact decides every case: defined (and then right) if and only if the spare capacity is at least the number of tokens (delimiters in the vector), or of tokens followed by a delimiter (text in the vector); violated otherwise. A std::string that is moved away counts as gone, as in the standard; an implementation may keep its characters where they are."
  },
  {
   "property": "C206",
   "status": "partial",
   "theorems": [
    "Callable.C206_exact",
    "Callable.C206_object_partial",
    "Callable.C206_callable_tests_true",
    "Callable.C206_null_violated",
    "Callable.C206_empty_violated",
    "Callable.C206_aligned_exact",
    "Callable.C206_overaligned_violated"
   ],
   "note": "Calls are defined exactly if there is an object or a non-null function at the bottom of any nesting (C206_exact); for objects the answers are those of the object with its state handed from call to call. False in full: a Function made from a null function pointer, and a larger one made from an empty smaller one, test true and cannot be called; and only the size of a callable is checked, so one that needs an alignment of more than 8 is accepted and can be misaligned (alignments dividing 8 are always met, and no others)."
  },
  {
   "property": "C207",
   "status": "partial",
   "theorems": [
    "CircAccess.C207_read_exact",
    "CircAccess.C207_read_when",
    "CircAccess.C207_read_reverse_exact",
    "CircAccess.C207_read_reverse_when",
    "CircAccess.C207_write_exact",
    "CircAccess.C207_write_when",
    "CircAccess.C207_write_blend_partial",
    "CircAccess.C207_write_reverse_exact",
    "CircAccess.C207_write_reverse_when",
    "CircAccess.C207_write_reverse_blend_partial",
    "CircAccess.C207_write_violated"
   ],
   "note": "The _exact theorems say for every overlap what arrives where, the position and the answer; the _when theorems say exactly in which cases it is a copy of what was there before: forward unless the destination begins inside the source, 0 < d < n places behind its beginning; reversed if n is at most half the distance plus one. False in full: the loops do not look for overlap (C207_write_violated)."
  },
  {
   "property": "C208",
   "status": "partial",
   "theorems": [
    "Debouncer.C208_process_exact",
    "Debouncer.C208_process_violated",
    "DebouncerCounter.C208_counter_violated",
    "Schmitt.C208_register_violated"
   ],
   "note": "What the inherited members do is characterised exactly; what register_state of a debouncer and process of a trigger do is C63 and C68. False in full: process on a Debouncer is Toggler's and does not debounce (n bounces are n presses); on a DebouncerCounter it does not count either; register_state on a SchmittTrigger converts the value to bool and ignores the thresholds."
  },
  {
   "property": "C209",
   "status": "partial",
   "theorems": [
    "Rotary.C209_transfer_exact",
    "Rotary.C209_add_exact",
    "Rotary.C209_transfer_violated",
    "Toggler.C209_copy_update",
    "Toggler.C209_transfer_violated",
    "TogglerCompact.C209_compact_transfer_violated"
   ],
   "note": "Copying and updating are without effect. False in full: transfer_motion to itself moves the position once more, add_motion to itself moves it twice as far as adding a copy, and transfer_events to itself loses all events; what happens instead is given exactly."
  },
  {
   "property": "C210",
   "status": "partial",
   "theorems": [
    "RgbLed.C210_calls",
    "RgbLed.C210_outside_partial",
    "RgbLed.C210_state_exact",
    "RgbLed.C210_lost_violated",
    "RgbLed.C210_shown",
    "RgbLed.C210_glitch_violated",
    "RgbLed.C210_fade_exact"
   ],
   "note": "Holds for interrupts outside the call. False in full: an interrupt between restarting the flasher and setting its speed moves the new flash at the speed of the one before, and on a fresh LED loses it altogether; an interrupt late in fade_once_ms shows the unfaded colour. The state after every schedule of interrupts in flash_once_ms is given exactly."
  },
  {
   "property": "C211",
   "status": "partial",
   "theorems": [
    "PlateauT.C211_int_partial",
    "PlateauT.C211_low_bits",
    "PlateauT.C211_wide_violated",
    "PlateauT.C211_unsigned_violated",
    "PlateauT.C211_float_partial",
    "PlateauT.C211_float_within",
    "PlateauT.C211_float_violated",
    "PlateauT.C211_float_range"
   ],
   "note": "Right for integer values and distances that are int32_t values and values of the type, and for whole-number floats. False in full: only the lowest 32 bits of wider types count, unsigned types wrap below the centre, floats lose their fraction (always by less than 1) and are undefined beyond the int32_t range."
  },
  {
   "property": "C212",
   "status": "partial",
   "theorems": [
    "ParamCopy.C212_value",
    "ParamCopy.C212_faithful_partial",
    "ParamCopy.C212_assign_exact",
    "ParamCopy.C212_lost_violated",
    "ParamCopy.C212_spurious_violated",
    "ParamCopy.C212_latched_violated"
   ],
   "note": "Values are right through every history. False in full for the change flags: an assignment copies the other's flag, so a change is lost if the other's has been reported and one is invented if the values are equal but the other's has not; the exact condition under which an assignment is right is given, and histories of such assignments answer rightly throughout."
  },
  {
   "property": "C213",
   "status": "partial",
   "theorems": [
    "CompactState.C213_steady_partial",
    "CompactState.C213_stateless",
    "CompactState.C213_invocations_exact",
    "CompactState.C213_size_violated"
   ],
   "note": "If sizes do not depend on the state the result is the encoding of one description with the values of each callable's last run, and measure is right. False in full: a callable inside n sub-objects is invoked n + 1 times, not twice, and one whose data sizes change between runs leaves a wrong size that hides the entries after it."
  },
  {
   "property": "C214",
   "status": "partial",
   "theorems": [
    "EdgeIsr.C214_quiet",
    "EdgeIsr.C214_edges",
    "EdgeIsr.C214_others_partial",
    "EdgeIsr.C214_changed_exact",
    "EdgeIsr.C214_changed_violated",
    "EdgeIsr.C214_staying_exact",
    "EdgeIsr.C214_staying_violated",
    "EdgeIsr.C214_reset_violated"
   ],
   "note": "True of went_high and went_low for any updates, of 'yes' from changed and 'no' from staying_high/low. False of the others: an input that toggles at every update is reported as unchanged, or as staying, if an odd number of updates comes during the call; exact conditions proved. With reset() in the interrupt went_low can be answered for an input that was always high. Assumes two loads per query."
  },
  {
   "property": "C215",
   "status": "partial",
   "theorems": [
    "PollIsr.C215_owed",
    "PollIsr.C215_count",
    "PollIsr.C215_found",
    "PollIsr.C215_alone",
    "PollIsr.C215_force_partial",
    "PollIsr.C215_force_violated",
    "PollIsr.C215_force_exact"
   ],
   "note": "False for force_next_poll called while a poll has decided to sample and not stored its time: the store overwrites it. Outside of this window the next poll samples exactly if its time is at least the period. Assumes loads and stores as in the source, sequentially consistent.; C215_force_exact: in that window the call changes nothing at all"
  },
  {
   "property": "C216",
   "status": "proved",
   "theorems": [
    "PollNest.C216_nested",
    "PollNest.C216_self"
   ],
   "note": "With a positive period; with period 0 an action that polls with itself as action never ends (same theorem)."
  },
  {
   "property": "C217",
   "status": "partial",
   "theorems": [
    "MemTestTop.C217_ends_exact",
    "MemTestTop.C217_ends_violated",
    "MemTestTop.C217_region_partial",
    "MemTestTop.C217_region_exact",
    "MemTestTop.C217_region_violated",
    "MemTestTop.C217_same"
   ],
   "note": "Exact conditions: it ends unless the last, possibly partial word reaches the end of the 32-bit address space (then the pointer starts again at 0 and all memory is overwritten for ever); it writes up to three bytes behind a region whose length is no multiple of 4."
  },
  {
   "property": "C218",
   "status": "partial",
   "theorems": [
    "TermCodes.C218_display",
    "TermCodes.C218_normal",
    "TermCodes.C218_color_exact",
    "TermCodes.C218_plain_partial",
    "TermCodes.C218_plain_violated"
   ],
   "note": "False in one point: a plain colour does not switch off bold or blinking from before, so Red after BoldBlue is bold red; exactly what is in force is proved. The terminal is a specification (the part of ECMA-48 these constants use)."
  },
  {
   "property": "C219",
   "status": "proved",
   "theorems": [
    "Debouncer.Bounce.C219_once",
    "Debouncer.Bounce.C219_count",
    "Debouncer.Bounce.C219_counter",
    "Debouncer.Bounce.C219_default",
    "Debouncer.Bounce.C219_limits_sharp"
   ],
   "note": "Samples are 0 or 1 (for others see the entry about register_state arguments)."
  },
  {
   "property": "C220",
   "status": "partial",
   "theorems": [
    "Quad.Shaft.C220_exact",
    "Quad.Shaft.C220_tracks_partial",
    "Quad.Shaft.C220_sum_partial",
    "Quad.Shaft.C220_bounce_violated",
    "Quad.Shaft.C220_drift_violated"
   ],
   "note": "Exactly: a step is reported when the shaft arrives at a detent by three quarter steps or more without turning round. The full statement holds if the shaft never turns back from the last quarter before the next detent. Otherwise a step can be lost (bounce of the last contact) or invented (turning back three quarters), without limit."
  },
  {
   "property": "C221",
   "status": "proved",
   "theorems": [
    "Partition.Best.C221_near_best",
    "Partition.Best.C221_initial",
    "Partition.Best.C221_reached"
   ],
   "note": "The bound without initial values is reached by five values in two parts (C221_reached). Values are unsigned; lists longer than MaxElements: see the entry about each element being assigned once."
  },
  {
   "property": "C222",
   "status": "partial",
   "theorems": [
    "MemTest.Faults.C222_read_exact",
    "MemTest.Faults.C222_stuck_line",
    "MemTest.Faults.C222_shorted_lines",
    "MemTest.Faults.C222_least",
    "MemTest.Faults.C222_stuck_cell_exact",
    "MemTest.Faults.C222_stuck_cell_violated",
    "MemTest.Faults.C222_coupled_exact",
    "MemTest.Faults.C222_coupled_violated"
   ],
   "note": "Stuck and touching lines are found in every range of at least eight and nine words (the least numbers). A single stuck cell is found exactly if its word of the pattern has the other value there, and a disturbance exactly if the disturbed word comes before: each word is written once only."
  },
  {
   "property": "C223",
   "status": "proved",
   "theorems": [
    "HSV.C223_hue",
    "HSV.C223_round",
    "HSV.C223_value_saturation",
    "HSV.C223_reached"
   ],
   "note": "The bounds 6, 16 and 2 are reached (C223_reached)."
  },
  {
   "property": "C224",
   "status": "proved",
   "theorems": [
    "InterpArray.C224_wrap",
    "InterpArray.C224_phase",
    "InterpArray.C224_interp",
    "LookupTable.C224_lookup",
    "LookupTable.C224_approximates",
    "LookupTable.C224_approximates_sharp"
   ],
   "note": "Exact arithmetic; the rounding of binary32 is the subject of C145 and C147."
  },
  {
   "property": "C225",
   "status": "proved",
   "theorems": [
    "RatMath.C225_close",
    "RatMath.C225_reached",
    "MathFloat.C225_float"
   ],
   "note": "An error of 1/18 is reached at x = 11/12."
  },
  {
   "property": "C226",
   "status": "partial",
   "theorems": [
    "Filter.C226_average_response",
    "Filter.C226_average_slew",
    "Filter.C226_average_monotone",
    "Filter.C226_oversampler",
    "Filter.C226_oversampler_sharp",
    "Filter.C226_quadratic",
    "Filter.C226_quadratic_never",
    "Filter.C226_hysteresis",
    "FilterFloat.C226_quadratic_float_partial",
    "FilterFloat.C226_hysteresis_float_partial",
    "FilterFloat.C226_quadratic_float_violated"
   ],
   "note": "Partial: the quadratic filter does not reach its input. In exact arithmetic the distance after n samples is at most D*e/(D+n*e) but never 0; in binary32 it comes to rest where the square of the distance is about divisor*2^(m-25), e.g. for ever half a unit off at 2048 (divisor 4096)."
  },
  {
   "property": "C227",
   "status": "proved",
   "theorems": [
    "Schmitt.C227_events",
    "Schmitt.C227_triggers",
    "Schmitt.C227_ramp",
    "Schmitt.C227_sharp"
   ],
   "note": "The comparisons of floats are exact, so rationals stand for any finite floats."
  },
  {
   "property": "C228",
   "status": "proved",
   "theorems": [
    "Spsc.C228_producer",
    "Spsc.C228_consumer",
    "Spsc.C228_index",
    "PoolWeak.C228_pool"
   ],
   "note": "Interleaving models of C01 and C157; that each atomic operation itself is one step (lock-free hardware atomics; no retry loop inside a compare-exchange) is an assumption."
  },
  {
   "property": "C229",
   "status": "proved",
   "theorems": [
    "Oscs.C229_cycles",
    "Oscs.C229_frequency",
    "Oscs.C229_cycle_length",
    "Oscs.C229_repeats",
    "Oscs.C229_all_values",
    "Oscs.C229_in_step"
   ],
   "note": "Cycles are counted as falls of the value (`Spec/LongRun.lean`)."
  },
  {
   "property": "C230",
   "status": "partial",
   "theorems": [
    "HandOver.C230_once_partial",
    "HandOver.C230_ring_partial",
    "HandOver.C230_announced",
    "HandOver.C230_dyn_ring_partial",
    "HandOver.C230_too_few",
    "HandOver.C230_unguarded_violated"
   ],
   "note": "Partial because the code violates it for an unguarded get() (relaxed load of head_, as C05): `C230_unguarded_violated`. `C230_too_few` shows that capacity + 2 is the least number of buffers."
  },
  {
   "property": "C231",
   "status": "proved",
   "theorems": [
    "PoolSignal.C231_done",
    "PoolSignal.C231_false_means_done",
    "PoolSignal.C231_owner_is_told",
    "PoolSignal.C231_true_is_no_licence",
    "PoolSignal.C231_only_for_the_creator"
   ],
   "note": "The rules the clients keep are in `Spec/PoolSignal.lean`, read off the observed events. The two negative theorems show that the rules cannot be relaxed to `is_used() == true` or to other threads."
  },
  {
   "property": "C232",
   "status": "proved",
   "theorems": [
    "SpscWeak.C232_promises",
    "SpscWeak.C232_dyn_promises",
    "SpscWeak.C232_put_accepted",
    "SpscWeak.C232_reset_drops_items"
   ],
   "note": "Release/acquire model of Model/SpscWeak.lean, now with num_free(). Holds for the code as written (relaxed load of head_ in get) and for the acquire variant. reset() is excluded: it drops announced items (C232_reset_drops_items)."
  },
  {
   "property": "C233",
   "status": "partial",
   "theorems": [
    "SpscWeak.C233_views_partial",
    "SpscWeak.C233_dyn_views_partial",
    "SpscWeak.C233_one_sided_partial",
    "Spsc.C233_interleaved_partial",
    "SpscWeak.C233_both_violated"
   ],
   "note": "Proved for each thread's view separately (all its own answers together with the other thread's successful transfers), for both together if one side only learns of success, and for interleavings on one core. Violated for both together on weak memory: 'full' told to the producer and 'empty' told to the consumer contradict each other."
  },
  {
   "property": "C234",
   "status": "partial",
   "theorems": [
    "CircBuf.C234_buffer_exact",
    "CircBuf.C234_buffer_last_partial",
    "CircBuf.C234_buffer_violated",
    "CircStack.C234_stack_exact",
    "CircStack.C234_stack_violated",
    "Spsc.C234_fifo_partial",
    "Spsc.C234_fifo_get_move",
    "Spsc.C234_fifo_violated",
    "Pool.C234_pool_violated",
    "SeqMap.C234_map_remove",
    "SeqMap.C234_map_remove_last_violated"
   ],
   "note": "Violated by all but get_move and SeqMap::remove, which do give the element up. For the others it is proved exactly which objects are held: the circular buffers and the stack through any history, the FIFO exactly the last 2^k accepted items."
  },
  {
   "property": "C235",
   "status": "partial",
   "theorems": [
    "TsPool.Size.C235_demand",
    "TsPool.Size.C235_in_use_alone_violated"
   ],
   "note": "The first sentence is proved. The second is false: in a pool of any size a create() can fail although at no time more than one entry is in use."
  },
  {
   "property": "C236",
   "status": "partial",
   "theorems": [
    "SeqMap.Keys.C236_seqmap",
    "SeqMap.Keys.C236_seqmap_identity",
    "SeqMap.Keys.C236_seqmap_overwrite_get",
    "SequentialMap.Keys.C236_sequential_map",
    "MapKeys.C236_float_classes",
    "MapKeys.C236_string_classes",
    "SeqMap.Keys.C236_seqmap_nan_violated",
    "SequentialMap.Keys.C236_sequential_map_nan_violated"
   ],
   "note": "Proved for every == that is an equivalence among the keys used: all StaticStrings, all floats but NaN. A NaN key is accepted but never found again."
  },
  {
   "property": "C237",
   "status": "partial",
   "theorems": [
    "FilteredInterp.C237_hull_partial",
    "FilteredInterp.C237_readings_partial",
    "FilteredInterp.C237_raise_violated",
    "FilteredInterp.C237_lower_raise_violated"
   ],
   "note": "Proved for all histories in which set_num_updates, once readings have been taken, only lowers the number, and fewer than 2^32 updates pass between readings; otherwise the output overshoots. Exact rationals."
  },
  {
   "property": "C238",
   "status": "partial",
   "theorems": [
    "GateNoise.C238_feedback",
    "GateNoise.C238_feedback_sharp",
    "GateNoise.C238_gate_partial",
    "GateNoise.C238_gate_violated"
   ],
   "note": "hysteresis_feedback: proved, and the bound is sharp. hysteresis_gate keeps out only half of the noise its documented thresholds promise. Exact rationals (binary32: C155)."
  },
  {
   "property": "C239",
   "status": "proved",
   "theorems": [
    "ZipWrite.C239_rows",
    "ZipWrite.C239_transform"
   ],
   "note": "Bodies are sequences of assignments through the tuple's references; bodies that resize a container are outside (they invalidate the iterators)."
  },
  {
   "property": "C240",
   "status": "partial",
   "theorems": [
    "ByteSelf.C240_exact_partial",
    "ByteSelf.C240_copy",
    "ByteSelf.C240_full_violated"
   ],
   "note": "Holds exactly if the vector has room for all but the last byte; otherwise the pointer is used after the bytes have moved."
  },
  {
   "property": "C241",
   "status": "partial",
   "theorems": [
    "CompactBinary.C241_narrow",
    "CompactBinary.C241_parse",
    "CompactBinary.C241_get_partial",
    "CompactBinary.C241_size_violated"
   ],
   "note": "Proved: the round trip for every description that fits into memory, get<T> on any bytes, and that sizes no wider than size_t behave as in C46. Violated: get_size and get_node cut a stored size to size_t, so a truncated or corrupt entry looks complete."
  },
  {
   "property": "C242",
   "status": "partial",
   "theorems": [
    "PolyTypes.C242_long_exact",
    "PolyTypes.C242_long_partial",
    "PolyTypes.C242_long_violated",
    "PolyTypes.C242_float_exact",
    "PolyTypes.C242_float_partial",
    "PolyTypes.C242_float_violated"
   ],
   "note": "Exact for both kinds of coordinates; correct for turns that fit into 32 bits (int64_t) and for whole-numbered float coordinates at most 2896 apart. Violated for larger polygons, and for float polygons smaller than 1."
  },
  {
   "property": "C243",
   "status": "partial",
   "theorems": [
    "AlignHeap.C243_blocks_partial",
    "AlignHeap.C243_null_exact",
    "AlignHeap.C243_fits_exact",
    "AlignHeap.C243_exhausted_violated",
    "AlignHeap.C243_overflow_violated"
   ],
   "note": "Proved for all counts whose rounding is representable; exact condition for null and for blocks that are too small. Violated: an exhausted heap yields a null pointer instead of an exception, and a wrapped byte count is granted, so that two containers share memory."
  },
  {
   "property": "C244",
   "status": "partial",
   "theorems": [
    "Version.C244_order_partial",
    "Version.C244_zeros",
    "Version.C244_order_violated"
   ],
   "note": "Proved for one to three numbers up to 255, with or without a pre-release suffix. Violated outside: a number above 255 counts as 0, a fourth number is ignored, pre-releases of one version are equal, and a suffix with a dot is not recognised."
  },
  {
   "property": "C245",
   "status": "partial",
   "theorems": [
    "XNeon.C245_programs_partial",
    "XNeon.C245_in_place",
    "XNeon.C245_max_exact",
    "XNeon.C245_peak_partial",
    "XNeon.C245_accumulator_violated",
    "XNeon.C245_peak_violated"
   ],
   "note": "Proved for every program that does not read an accumulator again after vmlaq_f32 unless it was assigned, and takes no maximum of NaN and a number in this order (exact condition for one maximum). Violated: vmlaq_f32 changes its first argument, and a NaN erases a running maximum. The sign of zero is not modelled."
  },
  {
   "property": "C246",
   "status": "partial",
   "theorems": [
    "RandomDraw.C246_fair_partial",
    "RandomDraw.C246_upper_violated",
    "RandomDraw.C246_unsigned64",
    "RandomDraw.C246_unsigned32_exact",
    "RandomDraw.C246_unsigned32_violated"
   ],
   "note": "Proved (64-bit long): each value below the upper bound is drawn by RAND_MAX/(hi-lo) results, or one more. Violated: the upper bound is drawn by one result only, so randomNumber(0, 1) is practically always 0; and on the ARM targets randomNumber<uint32_t> returns only lo, lo+1 and lo+2."
  },
  {
   "property": "C247",
   "status": "partial",
   "theorems": [
    "Throwing.C247_strong_partial",
    "Throwing.C247_agrees",
    "Throwing.C247_erase_violated",
    "Throwing.C247_insert_violated",
    "Throwing.C247_pop_violated",
    "Throwing.C247_overwrite_violated",
    "Throwing.C247_index_violated",
    "Throwing.C247_create_violated",
    "Throwing.C247_map_pool_agree"
   ],
   "note": "Proved for FixedVector push_back and resize, CircularStack push_back, CircularBuffer put and get, CircularBufferOpt put, SeqMap insert. Violated, with the exact state left: FixedVector erase and insert (elements lost and doubled), the functions that remove before they copy (pop_back of both, CircularBufferOpt get: the element is lost), SeqMap overwrite (the new key with the value of the evicted one), SequentialMap operator[] (one more entry, with a stale key), Pool create (an entry leaks)."
  },
  {
   "property": "C248",
   "status": "partial",
   "theorems": [
    "OscIsr.C248_accum_exact",
    "OscIsr.C248_accum_partial",
    "OscIsr.C248_phase_violated",
    "OscIsr.C248_val_exact",
    "OscIsr.C248_val_violated",
    "OscIsr.C248_down_partial",
    "OscIsr.C248_down_violated",
    "OscIsr.C248_oneshot_exact",
    "OscIsr.C248_oneshot_violated"
   ],
   "note": "Proved: every schedule amounts to calls one after another, in which exactly the phases (widths) stored between an update's load and store are missing; frequencies are never lost; val() is right exactly if both reads fall in the same half. Violated: a hard sync, start() or stop() in that window is lost; a frequency set between DownCounter's comparison and subtraction makes the counter wrap to nearly its maximum; val() of the triangle is 0 at its peak if the phase passes the middle between its reads."
  },
  {
   "property": "C249",
   "status": "partial",
   "theorems": [
    "ReadIsr.C249_vector_ends",
    "ReadIsr.C249_vector_partial",
    "ReadIsr.C249_insert_exact",
    "ReadIsr.C249_insert_seen",
    "ReadIsr.C249_erase_exact",
    "ReadIsr.C249_erase_one_exact",
    "ReadIsr.C249_erase_seen",
    "ReadIsr.C249_vector_violated",
    "ReadIsr.C249_map_ends",
    "ReadIsr.C249_map_partial",
    "ReadIsr.C249_overwrite_others_partial",
    "ReadIsr.C249_overwrite_full_exact",
    "ReadIsr.C249_overwrite_append_exact",
    "ReadIsr.C249_remove_partial",
    "ReadIsr.C249_map_violated",
    "ReadIsr.C249_sequential_exact"
   ],
   "note": "Proved for push_back, resize, pop_back, clear, insertion and erasure at the end; SeqMap insert, remove_last and overwrite of a key already there. For the rest it is proved exactly what is seen: during an insertion one element twice and the last missing; during an erasure some elements twice; a new key first with a stale value or that of the key it throws out; other keys undisturbed. Violated for those."
  },
  {
   "property": "C250",
   "status": "partial",
   "theorems": [
    "StringIsr.C250_copy_exact",
    "StringIsr.C250_ends",
    "StringIsr.C250_static_partial",
    "StringIsr.C250_mixed_exact",
    "StringIsr.C250_longer_exact",
    "StringIsr.C250_clear",
    "StringIsr.C250_violated"
   ],
   "note": "Proved: what the array holds after each store; a string whose last byte is NUL to begin with (static storage) never lets a reader overrun, through any history of calls; over an older text at least as long the reader sees the first j characters of the new and the rest of the old; over a shorter one it sees the bytes behind the old text, and overruns exactly if there is no NUL among them. Violated: mixtures are read, and a default-constructed string on the stack or heap can be read past its end."
  },
  {
   "property": "C251",
   "status": "partial",
   "theorems": [
    "AllocIsr.C251_mono_exact",
    "AllocIsr.C251_mono_refused",
    "AllocIsr.C251_mono_violated",
    "AllocIsr.C251_pool_partial",
    "AllocIsr.C251_pool_sound_exact",
    "AllocIsr.C251_pool_exact",
    "AllocIsr.C251_pool_violated",
    "AllocIsr.C251_pool_alone"
   ],
   "note": "Proved: exactly which interrupts are harmless. MonotonicAllocator: those in the first gap after which the request still fits; none that gets a byte later. Pool: any calls at any moment but a create() between the main program's test of the flag and its store; interrupts that only create get the same entry exactly if one comes there. Violated in each of these windows."
  },
  {
   "property": "C252",
   "status": "partial",
   "theorems": [
    "MeterIsr.C252_update_exact",
    "MeterIsr.C252_update_partial",
    "MeterIsr.C252_reset_exact",
    "MeterIsr.C252_violated"
   ],
   "note": "Proved: after an interrupted update() min and max are right exactly if no smaller sample falls between the comparison with min and its store, and no greater one between the comparison with max and its store; during reset() samples count for min and not for max. Violated in those windows."
  },
  {
   "property": "C253",
   "status": "partial",
   "theorems": [
    "FilterIsr.C253_read_partial",
    "FilterIsr.C253_average_exact",
    "FilterIsr.C253_reset_exact",
    "FilterIsr.C253_reset_partial",
    "FilterIsr.C253_set_size_exact",
    "FilterIsr.C253_violated",
    "FilterIsr.C253_shrink_exact",
    "FilterIsr.C253_shrink_violated"
   ],
   "note": "Proved: the oversamplers show the average of before or after; the MovingAverage in between shows the average with its oldest sample counted as 0; after reset() the samples of the open block stay in the sum while the count is 0; after set_size() a block may hold more samples than it is divided by. Violated in these cases. set_size() when the open block is already long enough is modelled with all its windows, but shown only equal to the plain call without interrupts. C253_shrink_exact gives the same for a set_size() that cuts a block short, with samples at each of its six moments."
  },
  {
   "property": "C254",
   "status": "partial",
   "theorems": [
    "Spsc.C254_rewind_partial",
    "Spsc.C254_rewind_overwritten",
    "Spsc.C254_violated"
   ],
   "note": "Proved exactly: it holds if d and the items accepted since the call read the write position (including that of a put that has already found room) are together at most max_size(); otherwise the next get() returns the item written max_size() puts after the one asked for. Not covered: a producer inside num_free() or full() at the moment of the store; weak memory."
  },
  {
   "property": "C255",
   "status": "partial",
   "theorems": [
    "ThrowFifo.C255_strong_partial",
    "ThrowFifo.C255_get_exact",
    "ThrowFifo.C255_resize_exact",
    "ThrowFifo.C255_violated",
    "ThrowFifo.put_agrees",
    "ThrowFifo.get_agrees",
    "ThrowFifo.resize_agrees",
    "ThrowFifo.C255_dyn_strong_partial",
    "ThrowFifo.getMove_agrees",
    "ThrowFifo.putDyn_agrees"
   ],
   "note": "Holds for put() and get_move(). get() loses the oldest item if making its result throws. resize() that throws leaves the FIFO empty, and when it was to shrink also without memory although max_size() is unchanged, so the next put() writes outside the vector. Without exceptions the calls are those of C01."
  },
  {
   "property": "C256",
   "status": "proved",
   "theorems": [
    "StringRange.C256_visits",
    "StringRange.C256_edit",
    "StringRange.C256_edit_all",
    "StringRange.C256_stores",
    "StringRange.C256_end_exact",
    "StringRange.C256_of_std",
    "StringRange.C256_round_trip"
   ],
   "note": "C256_end_exact says what a store at end() itself does: the terminator is gone and the bytes behind it join the text, or reading runs out of the array. The equality with the string_view constructor needs a capacity above zero (C21)."
  },
  {
   "property": "C257",
   "status": "partial",
   "theorems": [
    "CalibIsr.C257_adjust_iff_partial",
    "CalibIsr.C257_adjust_exact",
    "CalibIsr.C257_reverse_exact",
    "CalibIsr.C257_across_iff",
    "CalibIsr.C257_reverse_across",
    "CalibIsr.C257_chan_exact",
    "CalibIsr.C257_voct_same_line",
    "CalibIsr.C257_violated",
    "CalibIsr.C257_voct_violated",
    "CalibIsr.steps_final",
    "CalibIsr.voct_final"
   ],
   "note": "Proved exactly in exact arithmetic: it holds if and only if the slope or the offset stays the same (or the slope in use is zero); otherwise the mixture is off by the slope times the change of the offset. A V/oct measurement on the line already known changes nothing at any moment. Not covered: rounding, which may hide a mixture."
  },
  {
   "property": "C258",
   "status": "partial",
   "theorems": [
    "ThrowStream.C258_transmit_exact",
    "ThrowStream.C258_transmit_partial",
    "ThrowStream.C258_done_exact",
    "ThrowStream.C258_violated",
    "ThrowStream.transmit_agrees",
    "ThrowStream.done_agrees"
   ],
   "note": "The state left by an exception is given exactly. An exception from an element leaves the elements before it waiting: they are sent in front of the next word. An exception from the transmit function leaves the stream as if a transmission were under way: no later transmit() starts one until tx_done_callback() is called, which drops the word. It holds while a transmission is under way and for an exception before the first element is complete. Without exceptions the calls are those of C75."
  },
  {
   "property": "C259",
   "status": "proved",
   "theorems": [
    "VecLoops.C259_erase_if",
    "VecLoops.C259_erase_advancing_exact",
    "VecLoops.C259_erase_downward",
    "VecLoops.C259_append",
    "VecLoops.C259_insert_sorted"
   ],
   "note": "The loop that always advances leaves, besides, the element right after each one it removed: given exactly. Appending in a range-for is safe because end() is taken once and the storage does not move. The loops themselves are user code, written in the model on top of the calls."
  },
  {
   "property": "C260",
   "status": "proved",
   "theorems": [
    "SeqMap.C260_overwrite_with_own_value",
    "SeqMap.C260_insert_own_value",
    "SequentialMap.C260_assign_own_value",
    "SequentialMap.C260_assign_exact",
    "SequentialMap.C260_erase_loop"
   ],
   "note": "The reference is an index that is read where the code reads it. In a full SequentialMap m[a] = m[b] is still the read followed by the assignment (which replaces the last entry, C28). In m[a] = m[b] the right operand is evaluated first, as C++17 says."
  },
  {
   "property": "C261",
   "status": "partial",
   "theorems": [
    "WearLevel.C261_shared_partial",
    "WearLevel.C261_fresh_partial",
    "WearLevel.C261_shared_violated"
   ],
   "note": "Each object remembers its own position. It holds as long as nobody erases the block, and for ever if each object is constructed anew before it writes. After an erase by one object, another one that stands further up writes above it, and everything the first one writes below is lost at the next restart. Storage without faults, as in C29-C33."
  },
  {
   "property": "C262",
   "status": "proved",
   "theorems": [
    "CompactBinary.C262_get_cut",
    "CompactBinary.C262_get_mono",
    "CompactBinary.C262_node_cut",
    "CompactBinary.C262_written_or_nothing",
    "CompactBinary.C262_path_cut",
    "CompactBinary.C262_small_buffer",
    "CompactBinary.C262_size_cut"
   ],
   "note": "get_size may already return the size of data that is not there (an example beside C262_size_cut). The data are at most as long as size_t can count, with room for one more value or node. An entry with the same key further on is never taken instead."
  },
  {
   "property": "C263",
   "status": "partial",
   "theorems": [
    "CompactBinary.C263_open_exact",
    "CompactBinary.C263_before_partial",
    "CompactBinary.C263_open_violated"
   ],
   "note": "Full statement violated: begin_object stores the size 0 until end_object patches it, so an object not ended reads as empty and its entries are taken for entries of the level above (C263_open_exact gives the exact bytes, C263_open_violated a key found on the wrong level). Proved: keys among the entries before the first open object."
  },
  {
   "property": "C264",
   "status": "partial",
   "theorems": [
    "CompactBinary.C264_deep_exact",
    "CompactBinary.C264_size",
    "CompactBinary.C264_enough",
    "CompactBinary.C264_shallow_partial",
    "CompactBinary.C264_deep_violated",
    "CompactBinary.C264_any_calls"
   ],
   "note": "Full statement violated: objects beyond MaxDepth keep the size 0 (C264_deep_exact gives the exact bytes), so their entries read as entries of the object around them (C264_deep_violated). Proved: memory, size(), and all fields under paths of at most MaxDepth keys, however deep other parts are. C264_any_calls: the exact bytes after any sequence of calls, also unbalanced ones."
  },
  {
   "property": "C265",
   "status": "proved",
   "theorems": [
    "Throwing.TsP.C265_clear_exact",
    "Throwing.TsP.C265_again"
   ],
   "note": "One thread, as clear() requires (C158 for others). An assignment that throws leaves its target as it was (as in C247)."
  },
  {
   "property": "C266",
   "status": "proved",
   "theorems": [
    "NoWait.C266_motion",
    "NoWait.C266_change",
    "NoWait.C266_toggler",
    "NoWait.C266_compact",
    "NoWait.C266_param",
    "NoWait.C266_osc",
    "NoWait.C266_readings",
    "CircBufIsr.C266_circular"
   ],
   "note": "Steps are accesses to shared memory, in the models that the other properties about these classes and interrupts use. Under weak memory the FilteredInterpArray has C166_progress; the thread-safe pool has C228. For circular buffers (C266_circular, seven steps) the size is a power of two, as the headers require."
  },
  {
   "property": "C267",
   "status": "proved",
   "theorems": [
    "Alone.C267_motion",
    "Alone.C267_change",
    "Alone.C267_toggler",
    "Alone.C267_compact",
    "Alone.C267_param",
    "Alone.C267_osc",
    "Alone.C267_meter",
    "Alone.C267_readings",
    "Alone.C267_circular"
   ],
   "note": "Ties the models with interrupts to the models the sequential properties are about. For RotaryMotion the sums have to be in the range of int, as otherwise the whole call is undefined."
  }
 ]
}