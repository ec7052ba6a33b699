{
 "claims": [
  {
   "property": "C12",
   "status": "proved",
   "theorems": [
    "Verif.CRC.c12_crc_table_is_division"
   ],
   "note": "all widths >= 8; the C++ instances are 8, 16 and 32 bits"
  },
  {
   "property": "C13",
   "status": "proved",
   "theorems": [
    "Verif.Sqrt.c13_squareRoot_unsigned",
    "Verif.Sqrt.c13_squareRoot_signed",
    "Verif.Sqrt.c13_int32_min_undefined"
   ],
   "note": "signed 32/64-bit minimum is undefined behaviour and excluded"
  },
  {
   "property": "C14",
   "status": "partial",
   "theorems": [
    "Verif.Base64.c14_roundtrip_partial",
    "Verif.Base64.c14_decode_encode",
    "Verif.Base64.c14_roundtrip_fails",
    "Verif.Base64.c14_encode_is_rfc4648",
    "Verif.Base64.c14_decode_rejects_foreign"
   ],
   "note": "the code appends a spurious zero byte when length % 3 = 1; exact behaviour proved, full claim refuted"
  },
  {
   "property": "C17",
   "status": "partial",
   "theorems": [
    "Verif.Timeout.c17_views_consistent_partial",
    "Verif.Timeout.c17_decrement_saturates",
    "Verif.Timeout.c17_subMsec_breaks",
    "Verif.Timeout.c17_zero_usec_decrement_identity",
    "Verif.Timeout.c17_constructors",
    "Verif.Timeout.c17_finite_iff",
    "Verif.Timeout.c17_equal_iff",
    "Verif.Timeout.c17_named"
   ],
   "note": "operator-=(uint32) truncates on timeouts >= 2^32 ms; full claim refuted"
  },
  {
   "property": "C15",
   "status": "partial",
   "theorems": [
    "Verif.IntText.c15_decimal_exact_partial",
    "Verif.IntText.c15_unsigned_minus_rejected",
    "Verif.IntText.c15_long_text_truncated",
    "Verif.IntText.c15_dispatch"
   ],
   "note": "exact for every text of at most 1000 characters; longer texts are silently truncated by the code (refuted), leading zeros are refused by the dispatcher"
  },
  {
   "property": "C16",
   "status": "proved",
   "theorems": [
    "Verif.IntText.c16_print_parse_roundtrip",
    "Verif.IntText.c16_print_is_decimal",
    "Verif.IntText.c16_minimum_ignores_padding"
   ],
   "note": "int64 values >= 10^18 rely on wrap-around of a signed product (undefined behaviour), modelled as wrap"
  },
  {
   "property": "C01",
   "status": "partial",
   "theorems": [
    "Verif.StaticList.c01_history_partial",
    "Verif.StaticList.c01_history",
    "Verif.StaticList.c01_byte_list_overflows",
    "Verif.StaticList.c01_subscript",
    "Verif.StaticList.c01_subscript_of_empty"
   ],
   "note": "every history for elements of >= 2 bytes; for 1-byte elements histories below 2^32 calls, beyond which the claim is refuted (uint32 wrap of the capacity)"
  },
  {
   "property": "C02",
   "status": "proved",
   "theorems": [
    "Verif.LinkedList.c02_history"
   ],
   "note": "heap-level refinement for every legal history; ListSafeDelete and ListIterate are not modelled"
  },
  {
   "property": "C03",
   "status": "proved",
   "theorems": [
    "Verif.LinkedList.c03_sort",
    "Verif.LinkedList.c02_history"
   ],
   "note": ""
  },
  {
   "property": "C04",
   "status": "proved",
   "theorems": [
    "Verif.UMap.c04_history"
   ],
   "note": "for hash functions injective on the identifiers used (the container stores only the hash) and load factor >= 1"
  },
  {
   "property": "C05",
   "status": "proved",
   "theorems": [
    "Verif.BTree.c05_history",
    "Verif.BTree.c05_full_insert_changes_nothing",
    "Verif.BTree.c05_full_values_leave_orphan_key"
   ],
   "note": "for hash functions injective on the identifiers used, histories within the capacity of the underlying lists"
  },
  {
   "property": "C06",
   "status": "proved",
   "theorems": [
    "Verif.RefC.c06_history"
   ],
   "note": "single thread, fewer than 2^31 references; the linked list itself is C02"
  },
  {
   "property": "C07",
   "status": "partial",
   "theorems": [
    "Verif.RefC.c07_single_name",
    "Verif.RefC.c07_find_path_partial",
    "Verif.RefC.c07_find_path_exact",
    "Verif.RefC.c07_wrong_object",
    "Verif.RefC.c07_missed_object",
    "Verif.RefC.c07_remove_all_use_after_free"
   ],
   "note": "exact for single names, and for paths when sibling names differ and the first name is not reused deeper; the full claim is refuted for paths"
  },
  {
   "property": "C08",
   "status": "partial",
   "theorems": [
    "Verif.Ref.c08_history_partial",
    "Verif.Ref.c08_number_of_references",
    "Verif.Ref.c08_concurrent_release_partial",
    "Verif.Ref.c08_assign_from_member_use_after_free",
    "Verif.Ref.c08_assign_own_pointer_use_after_free",
    "Verif.Ref.c08_concurrent_double_delete"
   ],
   "note": "holds for one thread when neither side of an assignment lives in an object destroyed by it; refuted for r = r->next, for self assignment through the raw pointer and for two threads releasing concurrently"
  },
  {
   "property": "C09",
   "status": "partial",
   "theorems": [
    "Verif.BitSet.c09_set",
    "Verif.BitSet.c09_resize",
    "Verif.BitSet.c09_and",
    "Verif.BitSet.c09_or",
    "Verif.BitSet.c09_xor",
    "Verif.BitSet.c09_not",
    "Verif.BitSet.c09_shl",
    "Verif.BitSet.c09_shr",
    "Verif.BitSet.c09_eq",
    "Verif.BitSet.c09_ofU32",
    "Verif.BitSet.c09_ofU64",
    "Verif.BitSet.c09_eqU32",
    "Verif.BitSet.c09_toU64_partial",
    "Verif.BitSet.c09_eqU64_partial",
    "Verif.BitSet.c09_toU64_drops_upper",
    "Verif.BitSet.c09_eqU64_out_of_bounds",
    "Verif.BitSet.c09_sizes",
    "Verif.BitSet.c09_empty_and_toU32"
   ],
   "note": "proved for every operation except the conversion to and comparison with uint64, which are refuted for sets of more than two words and of one word"
  },
  {
   "property": "C10",
   "status": "partial",
   "theorems": [
    "Verif.BitRange.c10_read_back",
    "Verif.BitRange.c10_outside_unsigned",
    "Verif.BitRange.c10_outside_signed_partial",
    "Verif.BitRange.c10_signed_overwrites_above",
    "Verif.BitRange.c10_signed_neighbour_erased",
    "Verif.BitRange.c10_flag"
   ],
   "note": "full for unsigned base types; for signed base types every bit above the field is overwritten with the sign (refuted)"
  },
  {
   "property": "C11",
   "status": "proved",
   "theorems": [
    "Verif.SafeMath.c11_addition",
    "Verif.SafeMath.c11_subtraction",
    "Verif.SafeMath.c11_multiplication"
   ],
   "note": "every integer width and signedness; signed int32/int64 overflow is modelled as wrap-around, which the code relies on"
  },
  {
   "property": "C41",
   "status": "proved",
   "theorems": [
    "Verif.BitRange.c41_saturate",
    "Verif.BitRange.c41_safe_number"
   ],
   "note": "integer types"
  },
  {
   "property": "C22",
   "status": "proved",
   "theorems": [
    "Verif.FastMutex.c22_mutual_exclusion",
    "Verif.FastMutex.c22_free_lock_is_taken",
    "Verif.FastMutex.c22_timeout_elapsed"
   ],
   "note": "sequentially consistent steps, any number of threads and interleaving"
  },
  {
   "property": "C24",
   "status": "partial",
   "theorems": [
    "Verif.EventSem.c24_barrier_partial",
    "Verif.EventSem.c24_all_proceed_partial",
    "Verif.EventSem.c24_delayed_post_opens_next_round",
    "Verif.EventSem.c24_reset_strands_actor",
    "Verif.EventSem.c24_spurious_wakeup_passes",
    "Verif.EventSem.c24_lock_timeout_passes"
   ],
   "note": "any interleaving with resets only while no other call is in progress and no spurious wakeups; refuted for a Reset between arrival and wait/post, for POSIX spurious wakeups and for a timed lock that expires"
  },
  {
   "property": "C42",
   "status": "partial",
   "theorems": [
    "Verif.EventSem.c42_wait_needs_post_partial",
    "Verif.EventSem.c42_open_lets_pass_partial",
    "Verif.EventSem.c42_spurious_wakeup_passes",
    "Verif.EventSem.c42_lock_timeout_passes"
   ],
   "note": "any interleaving with Reset not concurrent with Post and no spurious wakeups; refuted for spurious wakeups and expired locks"
  },
  {
   "property": "C23",
   "status": "partial",
   "theorems": [
    "Verif.FastResource.c23_exclusive",
    "Verif.FastResource.c23_size",
    "Verif.FastResource.c23_size_none",
    "Verif.FastResource.c23_take_returns",
    "Verif.FastResource.c23_take_fails_only_if_empty",
    "Verif.FastResource.c23_take_alone",
    "Verif.FastResource.c23_taken_container_hands_out_owned",
    "Verif.FastResource.c23_take_fails_with_free_element",
    "Verif.FastResource.c23_no_elements_takes_zero"
   ],
   "note": "exclusivity, memory safety and wait-freedom for every interleaving; availability unless a Return overlaps (refuted with an overlapping Return); refuted for containers created taken or without elements"
  },
  {
   "property": "C25",
   "status": "proved",
   "theorems": [
    "Verif.MsgQ.c25_fifo",
    "Verif.MsgQ.c25_nothing_lost",
    "Verif.MsgQ.c25_no_lost_wakeup",
    "Verif.MsgQ.c25_wakeup_pending",
    "Verif.MsgQ.c25_waiting_consumer_served",
    "Verif.MsgQ.c25_single_consumer_never_fails",
    "Verif.MsgQ.c25_two_consumers_can_fail",
    "Verif.MsgQ.c25_spurious_wakeup_fails"
   ],
   "note": "Any number of producers and consumers. The two *_fail theorems show that GetMessage reports a fatal error (losing nothing) with two consumers or a spurious wakeup."
  },
  {
   "property": "C26",
   "status": "proved",
   "theorems": [
    "Verif.Msg.c26_first_accepting",
    "Verif.Msg.c26_only_acceptor_removed"
   ],
   "note": "Filters that modify the pool while consuming are not modelled. A filter that answers NotCompleted accepts and stays."
  },
  {
   "property": "C27",
   "status": "partial",
   "theorems": [
    "Verif.Msg.c27_gives_up_before_timeout",
    "Verif.Msg.c27_never_times_out",
    "Verif.Msg.c27_infinite_wait_partial",
    "Verif.Msg.c27_indirect_wait_result",
    "Verif.Msg.c27_indirect_wait_success_partial",
    "Verif.Msg.c27_indirect_wait_returns",
    "Verif.Msg.c27_indirect_wait_reply_lost",
    "Verif.Msg.c27_catcher_released_by_non_reply",
    "Verif.Msg.c27_catcher_ignores_others",
    "Verif.Msg.c27_catcher_answers"
   ],
   "note": "False of WaitForReply for finite timeouts (comparison inverted): proved for every timeline. What holds: infinite timeout; the wait for an indirect reply up to the resolution of the polling."
  },
  {
   "property": "C28",
   "status": "proved",
   "theorems": [
    "Verif.Msg.c28_released_at_last_reply",
    "Verif.Msg.c28_released_once",
    "Verif.Msg.c28_released",
    "Verif.Msg.c28_foreign_refused"
   ],
   "note": ""
  },
  {
   "property": "C30",
   "status": "proved",
   "theorems": [
    "Verif.Props.c30_input_moves",
    "Verif.Props.c30_output_moves",
    "Verif.Props.c30_synchronised"
   ],
   "note": "End to end from the declared signals to the memory after Execute, any number of state buffers. Excludes several samples of one partial range, where Init overflows its table (C43)."
  },
  {
   "property": "C31",
   "status": "partial",
   "theorems": [
    "Verif.Props.c31_ring_walk_partial",
    "Verif.Props.c31_inside_ring_partial",
    "Verif.Props.c31_element_does_not_cross",
    "Verif.Props.c31_walk_in_ring",
    "Verif.Props.c31_large_copy_leaves_ring",
    "Verif.Props.c31_copy_offset_leaves_ring",
    "Verif.Props.c31_wrapped_offset_leaves_ring"
   ],
   "note": "True for whole signals up to the ring size and for copies inside an element; refuted in general for larger copies, copy offsets crossing the end and offsets beyond the end. int32 overflow not modelled."
  },
  {
   "property": "C43",
   "status": "partial",
   "theorems": [
    "Verif.Props.c43_table_exact",
    "Verif.Props.c43_optimised_table_fits",
    "Verif.Props.c43_partial_range_overflows",
    "Verif.Props.c43_zero_samples_overflows"
   ],
   "note": "The exception (one partial range, several samples; or zero samples) writes beyond the table and is proved as such."
  },
  {
   "property": "C44",
   "status": "proved",
   "theorems": [
    "Verif.Props.c44_optimised_input_moves",
    "Verif.Props.c44_optimised_output_moves",
    "Verif.Props.c44_same_effect",
    "Verif.Props.c44_sort_permutes",
    "Verif.Props.c44_sort_does_not_sort"
   ],
   "note": "The sort does not sort, which costs only merging opportunities."
  },
  {
   "property": "C45",
   "status": "partial",
   "theorems": [
    "Verif.Props.c45_areas",
    "Verif.Props.c45_same_distance",
    "Verif.Props.c45_total_wraps",
    "Verif.Props.c45_empty_signal_refused"
   ],
   "note": "Proved when the total is below 2^32 bytes; above, the 32 bit accumulation wraps and the property is refuted."
  },
  {
   "property": "C46",
   "status": "proved",
   "theorems": [
    "Verif.Props.c46_to_flat",
    "Verif.Props.c46_to_interleaved",
    "Verif.Props.c46_round_trip"
   ],
   "note": ""
  },
  {
   "property": "C34",
   "status": "proved",
   "theorems": [
    "Verif.Props.c34_execution_list",
    "Verif.Props.c34_cycle_success",
    "Verif.Props.c34_cycle_failure",
    "Verif.Props.c34_cycle_result"
   ],
   "note": "Timing addresses are non-null for configured executables (checked at insertion)."
  },
  {
   "property": "C35",
   "status": "partial",
   "theorems": [
    "Verif.Props.c35_prepare_keeps_running",
    "Verif.Props.c35_start_prepared",
    "Verif.Props.c35_prepare_result",
    "Verif.Props.c35_running_is_last_started",
    "Verif.Props.c35_threads_run_current",
    "Verif.Props.c35_blind_start_goes_back",
    "Verif.Props.c35_failed_prepare_renames",
    "Verif.Props.c35_start_without_stop_overruns",
    "Verif.Props.c35_prepare_can_hold_back_started"
   ],
   "note": "GAMScheduler; FastScheduler not modelled. True for histories where every start follows a successful preparation (and a stop, for the threads); the disagreements are proved."
  },
  {
   "property": "C29",
   "status": "partial",
   "theorems": [
    "Verif.Props.c29_current_state_declared",
    "Verif.Props.c29_follows_table_partial",
    "Verif.Props.c29_old_event_still_triggers",
    "Verif.Props.c29_failed_self_transition_deaf",
    "Verif.Props.c29_one_message_two_transitions",
    "Verif.Props.c29_message_handled_for_ever"
   ],
   "note": "The table is followed for histories that leave each state through one event only (and two more conditions on failures); outside them the code disagrees with the property, proved with witnesses."
  },
  {
   "property": "C32",
   "status": "partial",
   "theorems": [
    "Verif.Props.c32_fifo_partial",
    "Verif.Props.c32_no_lost_wakeup_partial",
    "Verif.Props.c32_no_simultaneous_access_partial",
    "Verif.Props.c32_flush_partial",
    "Verif.Props.c32_single_buffer",
    "Verif.Props.c32_started_reached",
    "Verif.Props.c32_full_ring_looks_empty",
    "Verif.Props.c32_stuck_for_ever",
    "Verif.Props.c32_first_pass_out_of_order",
    "Verif.Props.c32_flush_returns_early",
    "Verif.Props.c32_overrun_repeats_record"
   ],
   "note": "Proved for one buffer until an overrun, and for several buffers while at most n-2 records wait when Execute is called; beyond that the code disagrees (full ring looks empty, early Flush), proved with witnesses."
  },
  {
   "property": "C33",
   "status": "partial",
   "theorems": [
    "Verif.Props.c33_delivers_triggered_partial",
    "Verif.Props.c33_no_simultaneous_access_partial",
    "Verif.Props.c33_started_reached",
    "Verif.Props.c33_late_consumer_misses_trigger"
   ],
   "note": "Proved for at least two buffers while the consuming thread is not too late; a late consumer loses a triggered sample, proved with a witness. FlushAllTriggers and ResetPreTriggerBuffers not modelled."
  },
  {
   "property": "C19",
   "status": "proved",
   "theorems": [
    "Verif.Token.c19_tokens",
    "Verif.Token.c19_runs",
    "Verif.Token.c19_array",
    "Verif.Token.c19_cut",
    "Verif.Token.c19_lines",
    "Verif.Token.c19_skip_tokens",
    "Verif.Token.c19_array_of_one_overflows",
    "Verif.Token.c19_array_wrong_terminator"
   ],
   "note": "streams below 4 GiB; the array form needs an array of at least 2 characters (with 1 it writes past the end, proved) and reports the wrong terminator when a token fills the array (proved)"
  },
  {
   "property": "C36",
   "status": "proved",
   "theorems": [
    "Verif.ConfigDb.c36_refines_tree",
    "Verif.ConfigDb.c36_read_after_write",
    "Verif.ConfigDb.c36_other_values_unchanged",
    "Verif.ConfigDb.c36_delete_removes",
    "Verif.ConfigDb.c36_enumeration"
   ],
   "note": "Every history of calls with well formed paths and no creation through a value (that crashes, proved in C37). Names are compared exactly: the code compares hashes of names in the map of children, collisions are not modelled. Copy, AddToCurrentNode, SetCurrentNodeAsRootNode and the global lock are not modelled."
  },
  {
   "property": "C37",
   "status": "partial",
   "theorems": [
    "Verif.ConfigDb.c37_ancestor_returns",
    "Verif.ConfigDb.c37_failure_changes_nothing",
    "Verif.ConfigDb.c37_failed_create_absolute_moves",
    "Verif.ConfigDb.c37_create_through_value_crashes",
    "Verif.ConfigDb.c37_leading_dots"
   ],
   "note": "True of Move and CreateRelative with well formed paths; a failed CreateAbsolute moves to the root, creating through a value crashes and paths with several leading dots are misread, all proved."
  },
  {
   "property": "C40",
   "status": "partial",
   "theorems": [
    "Verif.CircularBuffer.c40_reads_newest_partial",
    "Verif.CircularBuffer.c40_reads_in_order_partial",
    "Verif.CircularBuffer.c40_get_first_consecutive_partial",
    "Verif.CircularBuffer.c40_overrun_flagged",
    "Verif.CircularBuffer.c40_full_ring_frozen",
    "Verif.CircularBuffer.c40_full_ring_reads_old_sample",
    "Verif.CircularBuffer.c40_sync_reads_old_samples",
    "Verif.CircularBuffer.c40_sync_whole_ring_fails"
   ],
   "note": "One signal and one copy per cycle. True while the driver stays behind the free part of the ring; once the ring is full the signal is frozen for ever, and the synchronising signal can give old samples or fail for ever, all proved."
  },
  {
   "property": "C18",
   "status": "partial",
   "theorems": [
    "Verif.Props.StreamString.c18_history_partial",
    "Verif.Props.StreamString.c18_backward_seek_reads_wrong_byte",
    "Verif.Props.StreamString.c18_backward_seek_leaves_memory",
    "Verif.Props.StreamString.c18_self_append_use_after_free",
    "Verif.Props.StreamString.c18_tail_of_empty_leaves_memory",
    "Verif.Props.StreamString.c18_setSize_truncates",
    "Verif.Props.StreamString.c18_equality_partial",
    "Verif.Props.StreamString.c18_equality_ignores_after_zero"
   ],
   "note": "Every history of calls with sizes below 2^31 except backwards RelativeSeek, s += s and Tail of an empty text, which are refuted. Allocation failure and Printf are not modelled."
  },
  {
   "property": "C20",
   "status": "partial",
   "theorems": [
    "Verif.Props.BufferedStream.c20_history_partial",
    "Verif.Props.BufferedStream.c20_appended",
    "Verif.Props.BufferedStream.c20_success_reports_all",
    "Verif.Props.BufferedStream.c20_partial_os_write_loses_data",
    "Verif.Props.BufferedStream.c20_failed_write_repeats_data",
    "Verif.Props.BufferedStream.c20_failure_reported"
   ],
   "note": "DoubleBufferedStream; every history, buffer size and calibration, and no call leaves the buffers or loops for ever whatever the device does. True of devices that accept all or nothing of a block; a short write of the device is ignored by Flush and loses data (proved)."
  },
  {
   "property": "C21",
   "status": "partial",
   "theorems": [
    "Verif.Props.BufferedStream.c21_history_partial",
    "Verif.Props.BufferedStream.c21_existing_data_is_read",
    "Verif.Props.BufferedStream.c21_failed_read_skips_data",
    "Verif.Props.BufferedStream.c21_end_of_data_is_lost",
    "Verif.Props.BufferedStream.c21_failure_reported"
   ],
   "note": "DoubleBufferedStream; true up to and including the first failing read; a read that fails after the device delivered some bytes drops them (proved)."
  },
  {
   "property": "C47",
   "status": "partial",
   "theorems": [
    "Verif.Props.BufferedStream.c47_history_partial",
    "Verif.Props.BufferedStream.c47_relative_seek_forward_wrong",
    "Verif.Props.BufferedStream.c47_relative_seek_back_reads_wrong_byte",
    "Verif.Props.BufferedStream.c47_seek_after_large_read_wrong_byte",
    "Verif.Props.BufferedStream.c47_read_at_end_loses_bytes"
   ],
   "note": "SingleBufferedStream over a file. RelativeSeek while reading, Seek backwards after a large read and reads beyond the end of the file are excluded and refuted. Failing OSSeek is not modelled."
  },
  {
   "property": "C48",
   "status": "proved",
   "theorems": [
    "Verif.Stack.c48_stack",
    "Verif.Stack.c48_circular"
   ],
   "note": "StaticStack for elements of at least two bytes or histories below the maximum capacity (see C01 for one byte elements). The StaticList calls that CircularStaticList inherits publicly (Add, Remove...) would break its index and are excluded."
  },
  {
   "property": "C49",
   "status": "proved",
   "theorems": [
    "Verif.IntText.c49_parse",
    "Verif.IntText.c49_print",
    "Verif.IntText.c49_roundtrip"
   ],
   "note": "Texts with more leading zeros than digits of the type are refused, as c49_parse says. Streams are unlimited."
  },
  {
   "property": "C50",
   "status": "partial",
   "theorems": [
    "Verif.IntText.c50_decimal_field_partial",
    "Verif.IntText.c49_field",
    "Verif.IntText.c16_minimum_ignores_padding"
   ],
   "note": "Holds for all four notations except for the minimum of a signed type in decimal, whose literal text ignores the field (refuted)."
  },
  {
   "property": "C39",
   "status": "partial",
   "theorems": [
    "Verif.Rt.c39_compile_safe",
    "Verif.Rt.c39_run",
    "Verif.Rt.c39_safe",
    "Verif.Rt.c39_fast",
    "Verif.Rt.c39_fast_noskip",
    "Verif.Rt.c39_builtin",
    "Verif.Rt.c39_fast_refuted",
    "Verif.Rt.c39_rread_refuted",
    "Verif.Rt.c39_recompile_refuted"
   ],
   "note": "The compiler never leaves its memories; the compiled program computes what the text says and stays inside its memories: always in safe mode, and in fast mode until an error occurs. Refuted: fast mode after an arithmetic error runs over the stack; the names RREAD/RWRITE are accepted as commands; compiling the same evaluator twice overlaps the variables. Arithmetic itself and the debug mode are not modelled; programs have at most 32767 lines (the addresses are 16 bits)."
  },
  {
   "property": "C38",
   "status": "partial",
   "theorems": [
    "Verif.Math.c38_parse_partial",
    "Verif.Math.c38_parse_any",
    "Verif.Math.c38_unique",
    "Verif.Math.c38_value",
    "Verif.Math.c38_uniform",
    "Verif.Math.c38_text",
    "Verif.Math.c38_safe",
    "Verif.Math.c38_end_refuted",
    "Verif.Math.c38_precedence_refuted",
    "Verif.Math.c38_comparison_refuted",
    "Verif.Math.c38_depth_refuted",
    "Verif.Math.c38_rest_refuted"
   ],
   "note": "Every program of the grammar (one level for || && ^, one for the comparisons) with parentheses nested up to 37 deep is translated to the reverse Polish form of its tree, which computes its value; for a parse stack of any size with 13 places per level. The full property fails: the logical operators share a precedence, more than about 98 nested parentheses are silently mistranslated, a text ending in ( name ) loops for ever, the rest of a text after an unknown token is ignored. Numeric values are a parameter; the lexical analyser is not modelled."
  },
  {
   "property": "C51",
   "status": "partial",
   "theorems": [
    "Verif.Config.c51_parse",
    "Verif.Config.c51_tree",
    "Verif.Config.c51_added",
    "Verif.Config.c51_bad_value",
    "Verif.Config.c51_refuse",
    "Verif.Config.c51_accepts_iff",
    "Verif.Config.c51_unknown_type_fails",
    "Verif.Config.c51_unknown_token_fails",
    "Verif.Config.c51_dotted_block_fails",
    "Verif.Config.c51_block_below_value_crashes",
    "Verif.Config.c51_value_replaces_block",
    "Verif.Config.c51_refused"
   ],
   "note": "Every document with simple block names nested up to 249 levels, into a database with any history; every other sequence of words with braces nested up to 249 levels is refused. Refuted: a type that does not exist gives a string, what follows an unknown token is ignored, a block name with dots displaces what follows, a block below a value uses a null pointer. The input is a list of tokens; expressions are not modelled; the conversion of texts to numbers is a parameter."
  },
  {
   "property": "C52",
   "status": "partial",
   "theorems": [
    "Verif.Lexer.c52_tokens",
    "Verif.Lexer.c52_lines_partial",
    "Verif.Config.c52_text_to_tree",
    "Verif.Config.c52_text_refused",
    "Verif.Config.c52_written",
    "Verif.Lexer.c52_empty_comment_fails",
    "Verif.Lexer.c52_last_slash_fails",
    "Verif.Lexer.c52_backslash_fails",
    "Verif.Lexer.c52_open_string_fails",
    "Verif.Lexer.c52_lines_fail",
    "Verif.Lexer.c52_peek_fails"
   ],
   "note": "Any layout, any grammar with these comments or none and no keywords; GetToken and PeekToken in any order, one place ahead at a time; from the text to the database together with C51. Refuted: an empty comment of one line swallows the next line, a slash at the end of the text is lost, a lone backslash ends the file, a string that is not closed is accepted, lines are wrong after an escaped end of line, PeekToken two places ahead inserts an end of file."
  },
  {
   "property": "C53",
   "status": "partial",
   "theorems": [
    "Verif.Config.c53_every_tree",
    "Verif.Config.c53_round_trip",
    "Verif.Config.c53_strings",
    "Verif.Config.c53_standard_printer",
    "Verif.Config.c53_quotes_fail",
    "Verif.Config.c53_backslash_fails",
    "Verif.Config.c53_blank_in_name_fails",
    "Verif.Config.c53_number_as_name_fails",
    "Verif.Config.c53_empty_node_fails",
    "Verif.Config.c53_types_fail",
    "Verif.Config.c53_standard_printer_fails"
   ],
   "note": "Any reachable tree whose names are words, whose strings have no quotes or backslashes and whose nodes are not empty: printing then parsing gives the same tree (numbers as texts), for both printers; strings exactly. Refuted in general: quotes and backslashes are not escaped, names are not quoted, empty nodes and numeric names are refused, the types of numbers are lost, the standard printer runs a number and the next name together. The text of a number is a parameter. JSON and XML printers are not modelled."
  },
  {
   "property": "C54",
   "status": "partial",
   "theorems": [
    "Verif.EmbeddedThread.c54_stages",
    "Verif.EmbeddedThread.c54_off_is_off",
    "Verif.EmbeddedThread.c54_start_answers",
    "Verif.EmbeddedThread.c54_stop_when_off",
    "Verif.EmbeddedThread.c54_second_stop_answer",
    "Verif.EmbeddedThread.c54_stop_ends_partial",
    "Verif.EmbeddedThread.c54_stop_answers_partial",
    "Verif.EmbeddedThread.c54_stop_returns_partial",
    "Verif.EmbeddedThread.c54_stop_lost_fails",
    "Verif.EmbeddedThread.c54_killed_runs_on_fails",
    "Verif.EmbeddedThread.c54_killed_deletes_twice_fails",
    "Verif.EmbeddedThread.c54_long_timeout_fails",
    "Verif.EmbeddedThread.c54_timeout_forgotten_fails"
   ],
   "note": "One owner, any interleaving with the threads. Order of the stages and silence when off hold in all histories in which no thread is killed; a stop ends the thread, and Stop answers as it should, unless the command falls between the test and the command of the thread that is starting (refuted there: the stop is lost). Refuted after a kill: the killed thread runs on beside a new one and frees its description twice; timeouts above 2^31-1 ticks are shortened and a timeout that was reported is forgotten. The mutex of the object is taken to work (C27), several owners at once are not modelled."
  },
  {
   "property": "C55",
   "status": "partial",
   "theorems": [
    "Verif.MultiClient.c55_limits",
    "Verif.MultiClient.c55_setters",
    "Verif.MultiClient.c55_start",
    "Verif.MultiClient.c55_start_refused",
    "Verif.MultiClient.c55_start_error",
    "Verif.MultiClient.c55_limits_kept",
    "Verif.MultiClient.c55_stages_partial",
    "Verif.MultiClient.c55_pool_partial",
    "Verif.MultiClient.c55_enough_partial",
    "Verif.MultiClient.c55_somebody_waits_partial",
    "Verif.MultiClient.c55_stop_ends_partial",
    "Verif.MultiClient.c55_above_max_fails",
    "Verif.MultiClient.c55_below_min_fails",
    "Verif.MultiClient.c55_remove_crashes_fails",
    "Verif.MultiClient.c55_remove_misses_fails",
    "Verif.MultiClient.c55_nobody_waits_fails",
    "Verif.MultiClient.c55_stop_lost_fails",
    "Verif.MultiClient.c55_end_without_startup_fails"
   ],
   "note": "Any interleaving. The limits and the order of the calls hold in general, except for a stop between two tests; the pool is right as long as test and change of the pool by one thread are not interleaved with those of another, and refuted without that (too many, too few, a thread that does not find itself, an invalid reference). Somebody waits as long as adding a thread never fails; refuted once the pool was full. A stop before the thread has begun is lost."
  },
  {
   "property": "C56",
   "status": "partial",
   "theorems": [
    "Verif.Format.c56_directive",
    "Verif.Format.c56_formatted",
    "Verif.Format.c56_accepted_iff",
    "Verif.Format.c56_accepted",
    "Verif.Format.c56_text_partial",
    "Verif.Format.c56_text_max",
    "Verif.Format.c56_no_place",
    "Verif.Format.c56_stream_partial",
    "Verif.Format.c56_boolean_partial",
    "Verif.Format.c56_info",
    "Verif.Format.c56_decimal_partial",
    "Verif.Format.c56_radix",
    "Verif.Format.c56_pointer",
    "Verif.Format.c56_float",
    "Verif.Format.c56_float_width",
    "Verif.Format.c56_vector",
    "Verif.Format.c56_matrix",
    "Verif.Format.c56_vector_failure",
    "Verif.Format.c56_percent_fails",
    "Verif.Format.c56_quoted_fails",
    "Verif.Format.c56_zeros_fails",
    "Verif.Format.c56_minimum_fails",
    "Verif.Format.c56_width_fails",
    "Verif.Format.c56_character_fails",
    "Verif.Format.c56_null_fails",
    "Verif.Format.c56_boolean_fails",
    "Verif.Format.c56_unfinished_fails",
    "Verif.Format.c56_grammars_fails",
    "Verif.Format.c56_stream_fails"
   ],
   "note": "All formats and all parameters that are integers, booleans, texts, pointers, streams or arrays of these. Refuted: a percent cannot be printed, quoted texts lose characters in fields that are not padded, zeros come before the sign, the minimum of a signed type is not padded, widths wrap at 2^32, single characters and null pointers fail, base 16 prints the address of the text of a boolean, an unfinished field is read beyond its end, two grammars refuse arrays, quoted streams of 9999 characters are replaced. Structures and objects are not modelled."
  },
  {
   "property": "C57",
   "status": "partial",
   "theorems": [
    "Verif.AppBuild.c57_shape",
    "Verif.AppBuild.c57_unique",
    "Verif.AppBuild.c57_agree_partial",
    "Verif.AppBuild.c57_ranges",
    "Verif.AppBuild.c57_memory",
    "Verif.AppBuild.c57_producers",
    "Verif.AppBuild.c57_timing",
    "Verif.AppBuild.c57_locked_partial",
    "Verif.AppBuild.c57_accepts",
    "Verif.AppBuild.c57_kept",
    "Verif.AppBuild.c57_full_type_partial",
    "Verif.AppBuild.c57_full_type_fails",
    "Verif.AppBuild.c57_dimensions_fails",
    "Verif.AppBuild.c57_type_fails",
    "Verif.AppBuild.c57_order_fails",
    "Verif.AppBuild.c57_size_fails",
    "Verif.AppBuild.c57_locked_fails"
   ],
   "note": "All flattened configurations. Types and numbers of elements agree for the signals that declare their number of elements; refuted for those that do not (the error is overwritten by the default number of elements, and the result depends on the order of the functions). Sizes are in 32 bits: refuted above. Producers and timing hold without restriction; locked data sources except for functions without states. The introspection of structured types, the default values and the signals of the timing data source are not modelled."
  },
  {
   "property": "C58",
   "status": "partial",
   "theorems": [
    "Verif.Md5.c58_md5",
    "Verif.Md5.c58_update",
    "Verif.Md5.c58_hmac_partial",
    "Verif.Md5.c58_long_key_ignored_fails",
    "Verif.Md5.c58_long_key_fails"
   ],
   "note": "Digests proved for all inputs, all splittings and reused contexts, against RFC 1321 written as 32 bit words (the code keeps 64 bit words). HMAC proved for keys of at most 64 bytes; refuted for longer ones, whose bytes after the sixty-fourth are ignored instead of the key being hashed."
  },
  {
   "property": "C59",
   "status": "partial",
   "theorems": [
    "Verif.HttpChunk.c59_reply",
    "Verif.HttpChunk.c59_reply_succeeds",
    "Verif.HttpChunk.c59_content_length",
    "Verif.HttpChunk.c59_short_write_fails",
    "Verif.HttpChunk.c59_calibration_fails",
    "Verif.HttpChunk.c59_receive_chunks_fails",
    "Verif.HttpChunk.c59_receive_end_fails"
   ],
   "note": "Replies in chunks proved for all buffers, calls and failures of a socket that takes all or nothing; refuted when the socket takes part of the bytes (the size that was sent is not looked at) and with a write calibration. Receiving proved with Content-Length; refuted for chunked messages, which are not decoded and end at any piece that ends like a last chunk."
  },
  {
   "property": "C60",
   "status": "partial",
   "theorems": [
    "Verif.HttpUrl.c60_encode",
    "Verif.HttpUrl.c60_decode",
    "Verif.HttpUrl.c60_round_trip",
    "Verif.HttpUrl.c60_encode_part",
    "Verif.HttpUrl.c60_request_partial",
    "Verif.HttpUrl.c60_form_partial",
    "Verif.HttpUrl.c60_short_fails",
    "Verif.HttpUrl.c60_empty_query_fails",
    "Verif.HttpUrl.c60_slash_fails",
    "Verif.HttpUrl.c60_plus_fails",
    "Verif.HttpUrl.c60_semicolon_fails",
    "Verif.HttpUrl.c60_newline_fails",
    "Verif.HttpUrl.c60_bad_code_fails",
    "Verif.HttpUrl.c60_cut_code_fails",
    "Verif.HttpUrl.c60_cut_request_fails",
    "Verif.HttpUrl.c60_no_name_fails",
    "Verif.HttpUrl.c60_encode_error_fails"
   ],
   "note": "Encoding and decoding proved for all texts and all codings. Request lines and posted forms proved for all paths, queries and versions except that commands of up to three characters are dropped; refuted for those, for an empty query, an encoded slash, plus signs and semicolons of forms, white space that HttpEncode leaves, and malformed codes. Multipart bodies and options of the header are not modelled."
  },
  {
   "property": "C61",
   "status": "partial",
   "theorems": [
    "Verif.RefC.c61_nth_name",
    "Verif.RefC.c61_nth_reference",
    "Verif.RefC.c61_all_name_partial",
    "Verif.RefC.c61_all_reference_partial",
    "Verif.RefC.c61_delete_name",
    "Verif.RefC.c61_leading_dot",
    "Verif.RefC.c61_double_dot",
    "Verif.RefC.c61_all_paths_fails",
    "Verif.RefC.c61_remove_all_fails"
   ],
   "note": "All trees, modes and occurrences for single names (paths of several names are C07) and references. Refuted for all occurrences with PATH (nothing is found) and with REMOVE (freed memory is used)."
  },
  {
   "property": "C62",
   "status": "partial",
   "theorems": [
    "Verif.ObjectBuild.c62_build",
    "Verif.ObjectBuild.c62_is_token",
    "Verif.ObjectBuild.c62_add_token",
    "Verif.ObjectBuild.c62_remove_token_partial",
    "Verif.ObjectBuild.c62_remove_token_fails",
    "Verif.ObjectBuild.c62_failure_fails",
    "Verif.ObjectBuild.c62_same_name_fails"
   ],
   "note": "All trees, histories, classes and marks. A class is what its Initialise does: whether it first builds its objects, which parameters it reads and whether it accepts them. Names with a mark have no dots. Refuted: after a failure the objects already made stay and the configuration is left inside; two nodes whose names differ in the mark give two objects of one name; removing an absent mark from a full list removes another one."
  },
  {
   "property": "C63",
   "status": "partial",
   "theorems": [
    "Verif.Json.c63_parse",
    "Verif.Json.c63_tree",
    "Verif.Json.c63_text_to_tree",
    "Verif.Json.c63_same_as_standard",
    "Verif.Json.c63_written",
    "Verif.Json.c63_idx_fails",
    "Verif.Json.c63_json_refused_fails",
    "Verif.Json.c63_not_json_fails",
    "Verif.Json.c63_cast_fails"
   ],
   "note": "All documents with simple names, nested up to 249 levels (a list counts as two), any layout, any history of the database. That everything else is refused is not proved. Refuted: a list named Idx inside a list; JSON texts with empty objects, empty lists or mixed lists are refused, and texts that are not JSON are accepted; the type casts of the grammar cannot be written in a text."
  },
  {
   "property": "C64",
   "status": "partial",
   "theorems": [
    "Verif.DoubleInteger.c64_arithmetic",
    "Verif.DoubleInteger.c64_order",
    "Verif.DoubleInteger.c64_shift_unsigned",
    "Verif.DoubleInteger.c64_signed_shift_partial",
    "Verif.DoubleInteger.c64_of",
    "Verif.DoubleInteger.c64_signed_shift_fails",
    "Verif.DoubleInteger.c64_signed_shift_fills",
    "Verif.DoubleInteger.c64_logical_signed",
    "Verif.DoubleInteger.c64_logical_fails"
   ],
   "note": "Every width, number and shift: arithmetic, order, construction, shifts of unsigned numbers. Shifts of signed numbers proved when the most significant bit of the lower half is clear and refuted otherwise (the lower half is shifted with its own sign). The logical shift of a negative number is refuted: it keeps the sign."
  },
  {
   "property": "C65",
   "status": "partial",
   "theorems": [
    "Verif.BitConvert.c65_convert",
    "Verif.BitConvert.c65_others_partial",
    "Verif.BitConvert.c65_refused",
    "Verif.BitConvert.c65_neighbours_fails",
    "Verif.BitConvert.c65_neighbours_case_fails",
    "Verif.BitConvert.c65_type_convert",
    "Verif.BitConvert.c65_same_type_partial",
    "Verif.BitConvert.c65_same_address",
    "Verif.BitConvert.c65_same_type_fails",
    "Verif.BitConvert.c65_size_fails"
   ],
   "note": "The value that is stored: all memories, addresses, sizes and signs. The other bits are kept except, as refuted in general, when a negative number fits a narrower signed field that does not end with a byte: the bits after it are set. Between equal types whole bytes are copied: proved for whole bytes, refuted for bit addresses. Sizes whose end passes 255 overflow a variable (refuted)."
  },
  {
   "property": "C66",
   "status": "partial",
   "theorems": [
    "Verif.FloatNum.c66_nearest",
    "Verif.FloatNum.c66_exact",
    "Verif.FloatNum.c66_infinite",
    "Verif.FloatNum.c66_nan_unsigned",
    "Verif.FloatNum.c66_nan_signed_fails",
    "Verif.FloatNum.c66_memory",
    "Verif.FloatNum.c66_large",
    "Verif.FloatNum.c66_bits_fails"
   ],
   "note": "All numbers of both formats and all integer types; the arithmetic of the machine is modelled as IEEE 754 with rounding to the nearest even. Refuted: NaN to a signed integer is undefined behaviour; fields of bits are written as whole bytes at the bit 0."
  },
  {
   "property": "C67",
   "status": "partial",
   "theorems": [
    "Verif.FloatNum.c67_integer",
    "Verif.FloatNum.c67_round_trip",
    "Verif.FloatNum.c67_widen",
    "Verif.FloatNum.c67_narrow",
    "Verif.FloatNum.c67_refused",
    "Verif.FloatNum.c67_bool",
    "Verif.FloatNum.c67_to_bool_fails",
    "Verif.FloatNum.c67_bits_fails"
   ],
   "note": "All integers of 8, 16, 32 and 64 bits and all numbers of both formats. Refuted: integers other than 0 and 1 are false; integers of other sizes leave the boolean as it was, with the answer true; fields of bits are read and written as whole bytes."
  },
  {
   "property": "C68",
   "status": "partial",
   "theorems": [
    "Verif.FloatNum.c68_integer",
    "Verif.FloatNum.c68_decimal",
    "Verif.FloatNum.c68_exponent",
    "Verif.FloatNum.c68_positive_exponent",
    "Verif.FloatNum.c68_negative_exponent",
    "Verif.FloatNum.c68_refused",
    "Verif.FloatNum.c68_refused_decimals",
    "Verif.FloatNum.c68_refused_exponent",
    "Verif.FloatNum.c68_no_digits_fails",
    "Verif.FloatNum.c68_exponent_fails",
    "Verif.FloatNum.c68_decimals_fails",
    "Verif.FloatNum.c68_length_fails"
   ],
   "note": "Whole numbers and small positive exponents exactly, decimals with a bound of the error, whole numbers with any positive or negative exponent with a relative bound of 25 roundings; missing: a bound for decimals with an exponent, for subnormal results and for more digits than the significand holds. Refuted: texts without digits are zero; float32 exponents from 64 on count as 63; any text is accepted after 38 (308) decimals or after 1000 characters. Texts 0x, 0o, 0b are C15 and C49 followed by C67."
  },
  {
   "property": "C69",
   "status": "partial",
   "theorems": [
    "Verif.RefC.c69_insert",
    "Verif.RefC.c69_refused",
    "Verif.RefC.c69_found",
    "Verif.RefC.c69_kept",
    "Verif.RefC.c69_no_path",
    "Verif.RefC.c69_double_dot_fails",
    "Verif.RefC.c69_leading_dot_fails"
   ],
   "note": "Every path of non empty names; with two dots in a row the object is inserted at what precedes them and the answer is true, and a leading dot is refused although searches accept it."
  },
  {
   "property": "C70",
   "status": "proved",
   "theorems": [
    "Verif.RefC.c70_domain",
    "Verif.RefC.c70_root"
   ],
   "note": "For every tree, set of domains and number of colons."
  },
  {
   "property": "C71",
   "status": "proved",
   "theorems": [
    "Verif.RefPurge.c71_purge"
   ],
   "note": "For every graph of containers, shared and cyclic ones included; the overrides of Purge in other classes are not modelled."
  },
  {
   "property": "C72",
   "status": "partial",
   "theorems": [
    "Verif.MatrixOps.c72_product",
    "Verif.MatrixOps.c72_sum",
    "Verif.MatrixOps.c72_copy",
    "Verif.MatrixOps.c72_sub_matrix",
    "Verif.MatrixOps.c72_transpose",
    "Verif.MatrixOps.c72_determinant",
    "Verif.MatrixOps.c72_inverse",
    "Verif.MatrixOps.c72_inverse_dimensions",
    "Verif.MatrixOps.c72_inverse_one_fails",
    "Verif.MatrixOps.c72_determinant_none_fails",
    "Verif.MatrixOps.c72_in_place_fails",
    "Verif.MatrixOps.c72_large_fails"
   ],
   "note": "In exact arithmetic (any ring or field), for every dimension and storage; false for the inverse of a matrix with one row (zero), the determinant of one without rows, a result that shares memory with an operand and more than 2^32 elements. Rounding is not modelled."
  },
  {
   "property": "C73",
   "status": "partial",
   "theorems": [
    "Verif.Interp.c73_history_partial",
    "Verif.Interp.c73_adjacent",
    "Verif.Interp.c73_stopped",
    "Verif.Interp.c73_vector_fails",
    "Verif.Interp.c73_unsigned_fails",
    "Verif.Interp.c73_rounding_fails",
    "Verif.Interp.c73_skipped_fails"
   ],
   "note": "Every history of calls, for signals of one element of integer type with slopes that are exact in float64; false for signals with more elements, decreasing unsigned integers of 32 and 64 bits, slopes that round, and samples closer than the period. Missing: floating point elements and a bound of the error of other slopes."
  },
  {
   "property": "C74",
   "status": "partial",
   "theorems": [
    "Verif.Props.ThreadsDb.c74_no_fault",
    "Verif.Props.ThreadsDb.c74_history_partial",
    "Verif.Props.ThreadsDb.c74_insert_then_lookup",
    "Verif.Props.ThreadsDb.c74_refused",
    "Verif.Props.ThreadsDb.c74_insertions",
    "Verif.Props.ThreadsDb.c74_full_fails",
    "Verif.Props.ThreadsDb.c74_realloc_fails",
    "Verif.Props.ThreadsDb.c74_index_fails",
    "Verif.Props.ThreadsDb.c74_duplicate_fails"
   ],
   "note": "For every history with new identifiers; false: an insertion is refused when the one free place is before the first that is read, the array is lost when it cannot grow, and the largest index reads outside of it. The lock is taken as held by the callers."
  },
  {
   "property": "C75",
   "status": "partial",
   "theorems": [
    "Verif.Props.GamData.c75_allocate",
    "Verif.Props.GamData.c75_prepare",
    "Verif.Props.GamData.c75_prepare_defined",
    "Verif.Props.GamData.c75_one_sample",
    "Verif.Props.GamData.c75_broker",
    "Verif.Props.GamData.c75_producers",
    "Verif.Props.GamData.c75_samples_fails",
    "Verif.Props.GamData.c75_large_fails"
   ],
   "note": "For every configuration with less than 2^32 bytes and every memory content; false for signals with more than one sample (only the first gets the default) and for sizes that wrap around. The conversion of a default to the type of its signal is taken as given."
  },
  {
   "property": "C76",
   "status": "partial",
   "theorems": [
    "Verif.Props.CStrings.c76_length",
    "Verif.Props.CStrings.c76_outside",
    "Verif.Props.CStrings.c76_substr_refused",
    "Verif.Props.CStrings.c76_compare_partial",
    "Verif.Props.CStrings.c76_compare_n_partial",
    "Verif.Props.CStrings.c76_compare_no_case",
    "Verif.Props.CStrings.c76_search_char",
    "Verif.Props.CStrings.c76_search_last_char_partial",
    "Verif.Props.CStrings.c76_search_chars",
    "Verif.Props.CStrings.c76_search_string",
    "Verif.Props.CStrings.c76_set_char",
    "Verif.Props.CStrings.c76_concatenate_partial",
    "Verif.Props.CStrings.c76_copy_fails",
    "Verif.Props.CStrings.c76_copy_n_fails",
    "Verif.Props.CStrings.c76_compare_fails",
    "Verif.Props.CStrings.c76_search_last_char_fails",
    "Verif.Props.CStrings.c76_concatenate3",
    "Verif.Props.CStrings.c76_concatenate_n",
    "Verif.Props.CStrings.c76_tokenize_chars",
    "Verif.Props.CStrings.c76_tokenize_string",
    "Verif.Props.CStrings.c76_substr_partial",
    "Verif.Props.CStrings.c76_substr_fails"
   ],
   "note": "Every text and memory content; false: the portable copy and joining do not write the end of the text, the portable comparison takes bytes of 128 and more as negative, and a part that starts after the end reads past it. The file with the portable functions is not in the make files of the environments of this tree; the C library is not modelled, but for strcpy."
  },
  {
   "property": "C77",
   "status": "partial",
   "theorems": [
    "Verif.Props.ThreadPool.c77_history_partial",
    "Verif.Props.ThreadPool.c77_start_new",
    "Verif.Props.ThreadPool.c77_start",
    "Verif.Props.ThreadPool.c77_set_all",
    "Verif.Props.ThreadPool.c77_set_one",
    "Verif.Props.ThreadPool.c77_configured",
    "Verif.Props.ThreadPool.c77_stop",
    "Verif.Props.ThreadPool.c77_stack_fails",
    "Verif.Props.ThreadPool.c77_start_failed_fails",
    "Verif.Props.ThreadPool.c77_stop_fails",
    "Verif.Props.ThreadPool.c77_restart_fails",
    "Verif.Props.ThreadPool.c77_number_fails",
    "Verif.Props.ThreadPool.c77_level_fails"
   ],
   "note": "For every history, number of threads and answers; the answers of a thread to Start and Stop come from the environment. False: the stack size of the service does not reach the threads, a failed Start leaves threads running, Stop answers by its last request only, and a Stop forgets the settings of single threads."
  },
  {
   "property": "C78",
   "status": "partial",
   "theorems": [
    "Verif.Props.Validate.c78_integer_partial",
    "Verif.Props.Validate.c78_text_partial",
    "Verif.Props.Validate.c78_character_partial",
    "Verif.Props.Validate.c78_uint32_fails",
    "Verif.Props.Validate.c78_uint32_case_fails",
    "Verif.Props.Validate.c78_wide_fails",
    "Verif.Props.Validate.c78_tall_fails",
    "Verif.Props.Validate.c78_outside_fails",
    "Verif.Props.Validate.c78_uint32_matrix_fails",
    "Verif.Props.Validate.c78_limit_fails",
    "Verif.Props.Validate.c78_unparsed_fails",
    "Verif.Props.Validate.c78_values_fails",
    "Verif.Props.Validate.c78_long_fails"
   ],
   "note": "Single values, vectors and square matrices of integers, texts and characters, for every combination of attributes; floating point numbers are not modelled. False: vectors of uint32, matrices that are not square, limits out of the range of the type, long texts."
  },
  {
   "property": "C79",
   "status": "partial",
   "theorems": [
    "Verif.Props.ArrayConvert.c79_refused",
    "Verif.Props.ArrayConvert.c79_scalar",
    "Verif.Props.ArrayConvert.c79_vector",
    "Verif.Props.ArrayConvert.c79_matrix_partial",
    "Verif.Props.ArrayConvert.c79_three_fails",
    "Verif.Props.ArrayConvert.c79_large_fails"
   ],
   "note": "For every conversion of the elements that writes only its element, every shape and storage; matrices of texts are not modelled. False for arrays of three dimensions, that are not converted and answered with true, and for arrays of 2^32 bytes or more."
  },
  {
   "property": "C80",
   "status": "partial",
   "theorems": [
    "Verif.Logger.c80_history_partial",
    "Verif.Logger.c80_log",
    "Verif.Logger.c80_get",
    "Verif.Logger.c80_drain",
    "Verif.Logger.c80_order_fails",
    "Verif.Logger.c80_short_fails",
    "Verif.Logger.c80_long_fails",
    "Verif.Logger.c80_overlap_fails"
   ],
   "note": "For calls that do not overlap, on the model of the containers of C23. False: the order is not kept and a message may wait for ever, 200 bytes are read from any description, a text of 200 characters loses its end, and with calls that overlap the reader may obtain a page that was never added."
  },
  {
   "property": "C81",
   "status": "partial",
   "theorems": [
    "Verif.HttpFields.c81_fields",
    "Verif.HttpFields.c81_write_read",
    "Verif.HttpFields.c81_read",
    "Verif.HttpFields.c81_form_partial",
    "Verif.HttpFields.c81_case_fails",
    "Verif.HttpFields.c81_tab_fails",
    "Verif.HttpFields.c81_unclosed_fails",
    "Verif.HttpFields.c81_no_type_fails",
    "Verif.HttpFields.c81_third_header_fails",
    "Verif.HttpFields.c81_order_fails",
    "Verif.HttpFields.c81_empty_line_fails",
    "Verif.HttpFields.c81_parameter_fails",
    "Verif.HttpFields.c81_no_name_fails",
    "Verif.HttpFields.c81_quote"
   ],
   "note": "Forms: parts whose header is the disposition, with the name first, and for files the type; lines of the content that are not empty. False: a name without its closing quote makes the server read outside of the line; files without a type or with a further field lose their content; empty lines of a content are dropped; the names of the fields depend on the case."
  },
  {
   "property": "C82",
   "status": "partial",
   "theorems": [
    "Verif.FastSched.c82_pool",
    "Verif.FastSched.c82_own",
    "Verif.FastSched.c82_bound_partial",
    "Verif.FastSched.c82_prepare",
    "Verif.FastSched.c82_bound_fails",
    "Verif.FastSched.c82_memory_fails",
    "Verif.FastSched.c82_all_fails",
    "Verif.FastSched.c82_twice_fails"
   ],
   "note": "The size of the pool and the threads of their own for all states, if the map is made; that it is made and the masks are right when each mask has its most threads in one of the first two states (so always with one or two states, or with the same threads in all of them). False for three states: a thread may be bound to other processors; with four states the map may be written outside of its memory. The execution of the threads is not modelled."
  },
  {
   "property": "C83",
   "status": "partial",
   "theorems": [
    "Verif.Props.ClassReg.c83_identifiers_partial",
    "Verif.Props.ClassReg.c83_add_partial",
    "Verif.Props.ClassReg.c83_registered",
    "Verif.Props.ClassReg.c83_type",
    "Verif.Props.ClassReg.c83_stable_partial",
    "Verif.Props.ClassReg.c83_library_partial",
    "Verif.Props.ClassReg.c83_missing",
    "Verif.Props.ClassReg.c83_unique_fails",
    "Verif.Props.ClassReg.c83_unique_reached",
    "Verif.Props.ClassReg.c83_prefix_fails",
    "Verif.Props.ClassReg.c83_long_fails"
   ],
   "note": "All histories with at most 2^14 classes and names of libraries of at most 128 characters. False beyond: the identifiers saturate, so the class after the last one takes its identifier and its place. The library of a qualified name is ignored when a class of the name is registered. The lock is taken to succeed; libraries are what dlopen finds under a file name."
  },
  {
   "property": "C84",
   "status": "partial",
   "theorems": [
    "Verif.Props.StructDecl.c84_layout_partial",
    "Verif.Props.StructDecl.c84_disjoint",
    "Verif.Props.StructDecl.c84_refused",
    "Verif.Props.StructDecl.c84_unknown_fails",
    "Verif.Props.StructDecl.c84_zero_fails",
    "Verif.Props.StructDecl.c84_large_fails",
    "Verif.Props.StructDecl.c84_dimensions_fails",
    "Verif.Props.StructDecl.c84_stale_fails"
   ],
   "note": "Members of types that have a size, with at most three dimensions of at least one element, less than 2^32 bytes. False: unknown types are accepted with no room, no elements get the room of one, sizes wrap, a fourth dimension is not seen, and a structure that is declared again leaves the structures that contain it with the old size. RegisterStructuredDataI and the release of memory are not modelled."
  },
  {
   "property": "C85",
   "status": "partial",
   "theorems": [
    "Verif.Web.c85_denied",
    "Verif.Web.c85_cases",
    "Verif.Web.c85_object_partial",
    "Verif.Web.c85_not_found_partial",
    "Verif.Web.c85_nested_partial",
    "Verif.Web.c85_inner_realm_partial",
    "Verif.Web.c85_page",
    "Verif.Web.c85_confined",
    "Verif.Web.c85_inner_realm_fails",
    "Verif.Web.c85_dot_fails"
   ],
   "note": "Proved for every tree: termination, confinement and the realm of the outer browser; the answer for trees with clear names. Refuted: the realm of an inner browser does not protect the objects inside it, which are found by the search of the outer one; a missing name after a dot is the page of the browser instead of 404."
  },
  {
   "property": "C86",
   "status": "partial",
   "theorems": [
    "Verif.HttpDir.c86_type",
    "Verif.HttpDir.c86_served",
    "Verif.HttpDir.c86_inside_partial",
    "Verif.HttpDir.c86_page",
    "Verif.HttpDir.c86_missing_partial",
    "Verif.HttpDir.c86_outside_fails",
    "Verif.HttpDir.c86_silent_fails"
   ],
   "note": "Content types and the choice of the file proved for all names. Refuted: paths with .. reach every file of the machine; once the page of the browser was requested, a missing file of the directory is not answered at all."
  },
  {
   "property": "C87",
   "status": "partial",
   "theorems": [
    "Verif.SendMsg.c87_request_partial",
    "Verif.SendMsg.c87_reply",
    "Verif.SendMsg.c87_refused",
    "Verif.SendMsg.c87_back_partial",
    "Verif.SendMsg.c87_mode",
    "Verif.SendMsg.c87_again_fails",
    "Verif.SendMsg.c87_sender_fails"
   ],
   "note": "Proved for registries with clear names (C07). Refuted: a message of which the reply has come cannot be sent again, it is refused or delivered to its first sender; the reply destroys a sender to which there are no references, and uses the memory of a sender that was destroyed."
  },
  {
   "property": "C88",
   "status": "partial",
   "theorems": [
    "Verif.ConfigDb.c88_copy_partial",
    "Verif.ConfigDb.c88_clash",
    "Verif.ConfigDb.c88_clone",
    "Verif.ConfigDb.c88_lost_place_fails"
   ],
   "note": "Between two configuration databases, for all histories of C36; values are handed over as they are. Refuted: a copy that fails leaves the current node of the destination one level higher."
  },
  {
   "property": "C89",
   "status": "partial",
   "theorems": [
    "Verif.BareSched.c89_forever",
    "Verif.BareSched.c89_one_more_fails",
    "Verif.BareSched.c89_stop_partial",
    "Verif.BareSched.c89_stop_lost_fails",
    "Verif.BareSched.c89_early_stop_fails",
    "Verif.BareSched.c89_prepare_fails"
   ],
   "note": "Proved for all interleavings without a limit. Refuted: with MaxCycles = n there are n + 1 cycles; the loop overwrites the flag, so a stop at the end of a cycle is lost when there is a limit, and a stop before the first cycle always; PrepareNextState starts the count of the running state again. The accesses to the flag are taken to be those of the source."
  },
  {
   "property": "C90",
   "status": "partial",
   "theorems": [
    "Verif.ThreadConf.c90_gams_partial",
    "Verif.ThreadConf.c90_missing",
    "Verif.ThreadConf.c90_homeless",
    "Verif.ThreadConf.c90_again_fails"
   ],
   "note": "The names of the objects must say where they are. Disagreement: a thread whose configuration was refused is accepted the second time, with only the functions before the missing one."
  },
  {
   "property": "C91",
   "status": "partial",
   "theorems": [
    "Verif.Heaps.c91_database",
    "Verif.Heaps.c91_find_address",
    "Verif.Heaps.c91_find_name",
    "Verif.Heaps.c91_back",
    "Verif.Heaps.c91_standard",
    "Verif.Heaps.c91_alone",
    "Verif.Heaps.c91_null_fails",
    "Verif.Heaps.c91_leak_fails",
    "Verif.Heaps.c91_end_fails",
    "Verif.Heaps.c91_race_fails"
   ],
   "note": "Proved with MULTIHEAP_SUPPORT for all histories and ranges when requests to the standard heap are one after the other. Refuted: with two threads the range of the standard heap can lose a block, which is then never freed; RemoveHeap(NULL) is accepted; a failed Realloc loses the block; the last address is one too far."
  },
  {
   "property": "C92",
   "status": "partial",
   "theorems": [
    "Verif.ConfigDb.c92_write",
    "Verif.ConfigDb.c92_read",
    "Verif.ConfigDb.c92_round_partial",
    "Verif.ConfigDb.c92_used",
    "Verif.ConfigDb.c92_absent",
    "Verif.ConfigDb.c92_flat_named",
    "Verif.ConfigDb.c92_flat_position",
    "Verif.ConfigDb.c92_class_fails",
    "Verif.ConfigDb.c92_position_fails",
    "Verif.ConfigDb.c92_outside_fails"
   ],
   "note": "Proved for every structure, depth, dimensions and history with the paths of C36. Not covered: what the conversion of one value does (C41, C65-C68, C78, C79 do that for the types they name; here it is a parameter), what is left in the destination by reads that fail half way, when structures with members that are structures are refused (c92_flat_named and c92_flat_position say it for structures of values), members declared with an empty vector of structures. c92_position_fails and c92_outside_fails are witnesses of behaviour a user would not expect: exchanged members without the class name, and an access outside the array of members when the class named in the configuration has fewer members."
  },
  {
   "property": "C93",
   "status": "partial",
   "theorems": [
    "Verif.Props.TextConvert.c93_array_partial",
    "Verif.Props.TextConvert.c93_one_fails",
    "Verif.Props.TextConvert.c93_bool_partial",
    "Verif.Props.TextConvert.c93_garbage_fails",
    "Verif.Props.TextConvert.c93_bool_round",
    "Verif.Props.TextConvert.c93_bool_short_fails",
    "Verif.Props.TextConvert.c93_stream_partial",
    "Verif.Props.TextConvert.c93_append_fails",
    "Verif.Props.TextConvert.c93_over_fails",
    "Verif.Props.TextConvert.c93_copy",
    "Verif.Props.TextConvert.c93_array_copy_partial",
    "Verif.Props.TextConvert.c93_overflow_fails"
   ],
   "note": "Proved for all texts and sizes with the C library version of StringHelper. Refuted: arrays of one character get no end; every text that is no boolean is read as false with success; a text is added to what the StreamString has; an array of characters copied to a shorter one, and a text to a char *, write outside."
  },
  {
   "property": "C94",
   "status": "partial",
   "theorems": [
    "Verif.RefC.c94_delete",
    "Verif.RefC.c94_purge_partial",
    "Verif.RefC.c94_purge_all",
    "Verif.RefC.c94_load_root",
    "Verif.RefC.c94_load_partial",
    "Verif.RefC.c94_unknown",
    "Verif.RefC.c94_twice_fails",
    "Verif.RefC.c94_wrong_fails"
   ],
   "note": "Proved for all trees of named objects where no object is in two places, for paths of any length. Refuted: names are not compared, so a second object of the same name is loaded and never found; with names that repeat along the path purge destroys an object that is elsewhere (the search of C07). What Initialise builds (C62) is a parameter here."
  },
  {
   "property": "C95",
   "status": "partial",
   "theorems": [
    "Verif.DataSrc.c95_initialise_partial",
    "Verif.DataSrc.c95_option",
    "Verif.DataSrc.c95_initialise_fails",
    "Verif.DataSrc.c95_index_partial",
    "Verif.DataSrc.c95_nameless",
    "Verif.DataSrc.c95_again_fails",
    "Verif.DataSrc.c95_samples_partial",
    "Verif.DataSrc.c95_samples_fails",
    "Verif.DataSrc.c95_function",
    "Verif.DataSrc.c95_inputs_partial",
    "Verif.DataSrc.c95_outputs_partial",
    "Verif.DataSrc.c95_order_fails",
    "Verif.DataSrc.c95_broken",
    "Verif.DataSrc.c95_count",
    "Verif.DataSrc.c95_samples_empty",
    "Verif.DataSrc.c95_no_broker"
   ],
   "note": "The database is given by its records (its moves and reads are C36). Refuted: with a node Signals every DefaultBrokerOptim (and contents that could not be built) is accepted; the names of an earlier configuration keep their indices; the number of samples is taken from a signal of a function that only has the same name in the function; only the first signal of a class of brokers decides where the broker is."
  },
  {
   "property": "C96",
   "status": "partial",
   "theorems": [
    "Verif.Props.GamSignals.c96_memory_partial",
    "Verif.Props.GamSignals.c96_apart_partial",
    "Verif.Props.GamSignals.c96_refused",
    "Verif.Props.GamSignals.c96_unwritten_fails",
    "Verif.Props.GamSignals.c96_wrap_fails",
    "Verif.Props.GamSignals.c96_count_partial",
    "Verif.Props.GamSignals.c96_count_fails",
    "Verif.Props.GamSignals.c96_samples_partial",
    "Verif.Props.GamSignals.c96_samples_none",
    "Verif.Props.GamSignals.c96_samples_fails",
    "Verif.Props.GamSignals.c96_initialise_partial",
    "Verif.Props.GamSignals.c96_initialise_fails",
    "Verif.Props.GamSignals.c96_initialise_copy",
    "Verif.Props.GamSignals.c96_brokers",
    "Verif.Props.GamSignals.c96_brokers_refused",
    "Verif.Props.GamSignals.c96_no_memory",
    "Verif.Props.GamSignals.c96_samples_unknown"
   ],
   "note": "The order of the brokers is proved in full (a stable sort by the first signal of the data source). The memory is proved when the sizes and samples are known and their sum, which the node must give, fits in 32 bits. Refuted: with more than 32 bits signals share memory and are outside it; when a size is missing, pointers that were never written are given out; a node with no children counts as 4294967295 signals; with no node for the data source the number of samples is answered with success though it was not read; with input signals a failed initialisation of the container is forgotten."
  },
  {
   "property": "C97",
   "status": "partial",
   "theorems": [
    "Verif.Props.Endian.c97_to_big",
    "Verif.Props.Endian.c97_to_little",
    "Verif.Props.Endian.c97_from_little",
    "Verif.Props.Endian.c97_from_big_partial",
    "Verif.Props.Endian.c97_from_big_fails",
    "Verif.Props.Endian.c97_round_partial",
    "Verif.Props.Endian.c97_copy_big",
    "Verif.Props.Endian.c97_copy_little",
    "Verif.Props.Endian.c97_overlap_fails",
    "Verif.Props.Endian.c97_type"
   ],
   "note": "Proved for all types, values, arrays and the three processors, but FromBigEndian on ppc, which swaps the bytes of every type except int16 although ppc is big endian: proved wrong for all seven. Compiler and assembler are trusted: the missing memory clobber of the inline assembly of x86 is not modelled."
  },
  {
   "property": "C98",
   "status": "partial",
   "theorems": [
    "Verif.Props.SdHelper.c98_stuck",
    "Verif.Props.SdHelper.c98_run",
    "Verif.Props.SdHelper.c98_once",
    "Verif.Props.SdHelper.c98_owner",
    "Verif.Props.SdHelper.c98_value",
    "Verif.Props.SdHelper.c98_default",
    "Verif.Props.SdHelper.c98_wrong_fails",
    "Verif.Props.SdHelper.c98_refused_written_fails"
   ],
   "note": "Proved for every sequence of calls, configuration and conversion. ReadArray and ReadMatrix are not modelled. Refuted: a value that is there and cannot be converted is replaced by the default, with success; a value refused by its validation has been written to the destination."
  },
  {
   "property": "C99",
   "status": "partial",
   "theorems": [
    "Verif.Json.c99_round_trip",
    "Verif.Json.c99_lists_partial",
    "Verif.Json.c99_between_fails",
    "Verif.Json.c99_gap_fails",
    "Verif.Json.c99_order_fails",
    "Verif.Json.c99_forgotten_fails",
    "Verif.Json.c99_value_fails",
    "Verif.Json.c99_bracket_fails",
    "Verif.Json.c99_quotes_fails",
    "Verif.Json.c99_empty_fails",
    "Verif.Json.c99_standard_fails"
   ],
   "note": "The round trip is proved for every tree with writable names and values, without empty nodes and up to 248 levels; with collapsed arrays when the blocks of each list are numbered from 0, in order and next to each other. Refuted otherwise: a node between the blocks is taken into the list and others are lost or printed twice, with the answer yes; with a missing number the list is not closed; an error in the middle is forgotten at the next separator; quotes and backslashes are not escaped; empty nodes are printed and refused by the parser."
  },
  {
   "property": "C100",
   "status": "partial",
   "theorems": [
    "Verif.Xml.c100_parse",
    "Verif.Xml.c100_tree",
    "Verif.Xml.c100_written",
    "Verif.Xml.c100_added",
    "Verif.Xml.c100_bad_value",
    "Verif.Xml.c100_text",
    "Verif.Xml.c100_text_to_tree",
    "Verif.Xml.c100_text_written",
    "Verif.Xml.c100_print",
    "Verif.Xml.c100_round_trip_partial",
    "Verif.Xml.c100_closing_fails",
    "Verif.Xml.c100_comment_fails",
    "Verif.Xml.c100_depth_fails",
    "Verif.Xml.c100_usual_fails",
    "Verif.Xml.c100_printed_fails"
   ],
   "note": "Proved for documents of up to 99 levels, from tokens and from the characters of any layout with comments (any history, any closing names), and for printing and reading again of trees of single strings and numbers. False in the code: closing names are not compared, 100 levels are refused, a comment right after the opening sign is not one, what XMLPrinter writes for vectors is refused by XMLParser. Missing: refusal of token sequences that are no document."
  },
  {
   "property": "C101",
   "status": "partial",
   "theorems": [
    "Verif.StreamData.c101_tree",
    "Verif.StreamData.c101_nested",
    "Verif.StreamData.c101_read_again",
    "Verif.StreamData.c101_separators_partial",
    "Verif.StreamData.c101_separators_fails",
    "Verif.StreamData.c101_comma_fails",
    "Verif.StreamData.c101_sibling_fails",
    "Verif.StreamData.c101_refused",
    "Verif.StreamData.c101_again_fails",
    "Verif.StreamData.c101_root_fails"
   ],
   "note": "Tree, nesting and reading again are proved for all trees, printers and call sequences. The separators are right exactly when no node has a block, later a value and right after it another block: otherwise one separator too many for each such block. Refuted: a path from the root to another top-level node closes the blocks and answers no; a closed block is opened again when something new is created in it (the documentation says it is not allowed). Not modelled: AddToCurrentNode, MoveToChild, streams that fail."
  },
  {
   "property": "C102",
   "status": "partial",
   "theorems": [
    "Verif.LogLine.c102_accepted",
    "Verif.LogLine.c102_line",
    "Verif.LogLine.c102_code",
    "Verif.LogLine.c102_distinct",
    "Verif.LogLine.c102_codes_fails",
    "Verif.LogLine.c102_unnamed_fails",
    "Verif.LogLine.c102_thread_fails",
    "Verif.LogLine.c102_example_fails",
    "Verif.LogLine.c102_number_fails",
    "Verif.LogLine.c102_bar_fails"
   ],
   "note": "proved: the accepted formats, the printed line for every accepted format and every message, and that it can be taken apart; of codes with several errors only the first name is printed, codes of overflows and values out of range are printed as NoError, threads are never printed, the example format of the documentation is refused, numbers of lines over 32767 are printed wrong"
  },
  {
   "property": "C103",
   "status": "partial",
   "theorems": [
    "Verif.PlainLogger.c103_sequential_partial",
    "Verif.PlainLogger.c103_settled_partial",
    "Verif.PlainLogger.c103_delivered",
    "Verif.PlainLogger.c103_race_fails",
    "Verif.PlainLogger.c103_lost_fails",
    "Verif.PlainLogger.c103_stale_fails",
    "Verif.PlainLogger.c103_twice_fails",
    "Verif.PlainLogger.c103_destroyed_fails",
    "Verif.PlainLogger.c103_noisy_fails"
   ],
   "note": "proved: every history of one thread, every schedule in which no logger is initialised while another is being removed and nobody else sets the routine, and who gets a message in every state; outside of these the property fails, with schedules as witnesses (initialisation during a removal, messages during a removal, a routine set in between, a logger initialised twice or destroyed without a purge, consumers that report errors). Missing: memory of the copied message"
  },
  {
   "property": "C104",
   "status": "partial",
   "theorems": [
    "Verif.MethodCall.c104_message",
    "Verif.MethodCall.c104_error",
    "Verif.MethodCall.c104_missing",
    "Verif.MethodCall.c104_unwritten",
    "Verif.MethodCall.c104_refused",
    "Verif.MethodCall.c104_direct",
    "Verif.MethodCall.c104_void",
    "Verif.MethodCall.c104_data",
    "Verif.MethodCall.c104_container",
    "Verif.MethodCall.c104_no_data",
    "Verif.MethodCall.c104_direct_data",
    "Verif.MethodCall.c104_direct_stream",
    "Verif.MethodCall.c104_wrapped",
    "Verif.MethodCall.c104_wrong_kind",
    "Verif.MethodCall.c104_unknown",
    "Verif.MethodCall.c104_one_fails",
    "Verif.MethodCall.c104_stream_fails",
    "Verif.MethodCall.c104_stack_fails"
   ],
   "note": "proved for methods of all the forms, with two to four parameters or one that is not written back; for a method with one parameter T & the answer is a fatal error exactly when the parameter was written back, a method that takes a stream uses a null pointer if the message has none, and a structured data on the stack is deleted by the call of a method that takes a container"
  },
  {
   "property": "C105",
   "status": "partial",
   "theorems": [
    "Verif.HashFn.c105_djb",
    "Verif.HashFn.c105_fnv",
    "Verif.HashFn.c105_null",
    "Verif.HashFn.c105_outside",
    "Verif.HashFn.c105_one_byte",
    "Verif.HashFn.c105_empty_fails"
   ],
   "note": "proved: all four functions are the published ones on every list of bytes that is not empty and on every text, and changing one byte changes each hash; missing: data of no bytes, which is taken for a text and read up to a zero, after its end if need be"
  },
  {
   "property": "C106",
   "status": "partial",
   "theorems": [
    "Verif.Loader.c106_applied",
    "Verif.Loader.c106_rolled_back",
    "Verif.Loader.c106_failed",
    "Verif.Loader.c106_history",
    "Verif.Loader.c106_first",
    "Verif.Loader.c106_text",
    "Verif.Loader.c106_configure",
    "Verif.Loader.c106_apps",
    "Verif.Loader.c106_stop",
    "Verif.Loader.c106_tcp_partial",
    "Verif.Loader.c106_before_fails",
    "Verif.Loader.c106_emptied_fails",
    "Verif.Loader.c106_after_fails",
    "Verif.Loader.c106_kept_fails",
    "Verif.Loader.c106_apps_fails",
    "Verif.Loader.c106_tcp_fails",
    "Verif.Loader.c106_tcp_waits_fails"
   ],
   "note": "proved: what every call leaves, for all outcomes of building, post-configuring and messages, and for every history; kept containers lose their contents, kept objects are registered twice after a message before that fails, a failing message after hides that the configuration was loaded, kept objects must be written +name at the root, the real-time loader keeps the applications of earlier configurations, and a text that the network cuts is not received whole"
  },
  {
   "property": "C107",
   "status": "partial",
   "theorems": [
    "Verif.ConfigExpr.c107_expressions_partial",
    "Verif.ConfigExpr.c107_later",
    "Verif.ConfigExpr.c107_root_fails"
   ],
   "note": "proved for all lists of expressions in which the variables without a path come before those with one; a variable of the root after one with a path is looked for in the node of the latter. The parser and the evaluator of expressions are parameters (see C33, C34 and the evaluator)"
  },
  {
   "property": "C108",
   "status": "partial",
   "theorems": [
    "Verif.FloatPrint.c108_width",
    "Verif.FloatPrint.c108_special",
    "Verif.FloatPrint.c108_rounded_partial",
    "Verif.FloatPrint.c108_digits_partial",
    "Verif.FloatPrint.c108_fixed_partial",
    "Verif.FloatPrint.c108_no_space_partial",
    "Verif.FloatPrint.c108_digits_fails"
   ],
   "note": "width and special values for any arithmetic; rounding, number of digits, %f decimals and the marks ? and 0 proved for exact arithmetic; with the float32 arithmetic of the machine the digits are wrong (witnesses 283, 160 with %f)"
  },
  {
   "property": "C109",
   "status": "partial",
   "theorems": [
    "Verif.OsMutex.c109_exclusive_partial",
    "Verif.OsMutex.c109_progress_partial",
    "Verif.OsMutex.c109_closed",
    "Verif.OsMutex.c109_shared",
    "Verif.OsMutex.c109_create_fails",
    "Verif.OsMutex.c109_twice_fails",
    "Verif.OsMutex.c109_close_race",
    "Verif.OsMutex.c109_stranger_fails",
    "Verif.OsMutex.c109_self",
    "Verif.OsMutex.c109_cancel_fails",
    "Verif.OsMutex.c109_deadline_partial",
    "Verif.OsMutex.c109_deadline_fails"
   ],
   "note": "proved for every schedule that creates a closed semaphore, closes an idle one and unlocks what it holds; a failed or repeated Create and a Close during a call use a mutex that does not exist; the deadline is undefined from 2038 and may be early with float64"
  },
  {
   "property": "C110",
   "status": "partial",
   "theorems": [
    "Verif.PollEvent.c110_passes",
    "Verif.PollEvent.c110_up_passes",
    "Verif.PollEvent.c110_ends",
    "Verif.PollEvent.c110_infinite",
    "Verif.PollEvent.c110_constructor_fails",
    "Verif.PollEvent.c110_pulse_fails",
    "Verif.PollEvent.c110_wrap_fails"
   ],
   "note": "proved for every schedule; the constructor leaves the barrier lowered although it is said to be unlocked, a pulse between two polls is not seen, a timeout beyond the 64 bit counter expires at once"
  },
  {
   "property": "C111",
   "status": "partial",
   "theorems": [
    "Verif.Props.MemStream.c111_writable_partial",
    "Verif.Props.MemStream.c111_constant_partial",
    "Verif.Props.MemStream.c111_write_read",
    "Verif.Props.MemStream.c111_shrink_fails",
    "Verif.Props.MemStream.c111_back_fails",
    "Verif.Props.MemStream.c111_large_size_fails"
   ],
   "note": "Every history of calls without moves back from a position that is not the beginning and without sizes below the position, with sizes below 2^32, gives the results of the ideal file, leaves its memory and uses no other memory. Refuted for the rest: a size below the position makes the next read take bytes beyond the content and beyond the memory; a move back moves twice; a size of 2^32 is zero. The inherited formatted printing and tokens (C56, C57) and the constructor without memory are not modelled here."
  },
  {
   "property": "C112",
   "status": "partial",
   "theorems": [
    "Verif.LoaderHash.c112_hash",
    "Verif.LoaderHash.c112_accepted_iff",
    "Verif.LoaderHash.c112_changed",
    "Verif.LoaderHash.c112_fresh",
    "Verif.LoaderHash.c112_forgery_fails",
    "Verif.LoaderHash.c112_disclosed_fails",
    "Verif.LoaderHash.c112_replay_fails",
    "Verif.LoaderHash.c112_zero_key_fails",
    "Verif.LoaderHash.c112_large_fails"
   ],
   "note": "Proved for texts below 2 GB: the hash is the remainder by the key of the seed and the text; an offer goes on if and only if it is that; with an odd key changes of up to four consecutive bytes and hashes for other seeds are refused. Refuted: the remainder is linear, so two texts with their hashes for one seed and one for another give the fourth hash without the key; a refusal tells the right hash; a hash can be used until another seed is asked for; the key zero gives the hash zero to all texts; a text of 2 GB or more has the hash zero. What is done once it goes on is C106; ConfigurationLoaderTCP never checks the hash (ConfigurationLoaderTCP.cpp:166), not modelled."
  },
  {
   "property": "C113",
   "status": "partial",
   "theorems": [
    "Verif.StructReg.c113_types_partial",
    "Verif.StructReg.c113_order",
    "Verif.StructReg.c113_dropped_fails",
    "Verif.StructReg.c113_twice_fails"
   ],
   "note": "Proved for data where no member follows a structure or an array of structures, with names without brackets different from each other in each structure: the types are exactly those of the data, the registration is refused if and only if two types have the same name, and each type is declared after those of its members. Refuted for the rest: the member that follows a structure is not registered; two structures of the same type are refused. The declaration of each type in the global database is C84."
  },
  {
   "property": "C114",
   "status": "partial",
   "theorems": [
    "Verif.AppStates.c114_accepted_iff_partial",
    "Verif.AppStates.c114_threads",
    "Verif.AppStates.c114_no_other",
    "Verif.AppStates.c114_no_threads_fails",
    "Verif.AppStates.c114_position_fails"
   ],
   "note": "Proved for all trees of functions with different names in each container, all threads and states with different names, where each state has one container Threads with only threads at a position below the number of objects of the application. Refuted: a state without Threads is not refused but a null pointer is used; a state with as many objects before its threads as the application has is refused. The cycle time signals, the objects with state and ResolveStatesFromConfiguration are not modelled."
  },
  {
   "property": "C115",
   "status": "partial",
   "theorems": [
    "Verif.TimingSignals.c115_cycle_times",
    "Verif.TimingSignals.c115_function_times",
    "Verif.TimingSignals.c115_others",
    "Verif.TimingSignals.c115_accepted_iff",
    "Verif.TimingSignals.c115_current_fails"
   ],
   "note": "Proved for all threads, functions and declared signals with different names (acceptance for those without a full type). Refuted for CurrentState: one that was declared as something else is accepted and a second signal with the same name is added. The signals that ResolveDataSources adds between the two steps are arbitrary here."
  },
  {
   "property": "C116",
   "status": "partial",
   "theorems": [
    "Verif.FlattenSignal.c116_numbers",
    "Verif.FlattenSignal.c116_order",
    "Verif.FlattenSignal.c116_namespace",
    "Verif.FlattenSignal.c116_signals_partial",
    "Verif.FlattenSignal.c116_accepted_partial",
    "Verif.FlattenSignal.c116_unique",
    "Verif.FlattenSignal.c116_sync_array_fails",
    "Verif.FlattenSignal.c116_sync_fails",
    "Verif.FlattenSignal.c116_cursor_fails",
    "Verif.FlattenSignal.c116_locked_fails",
    "Verif.FlattenSignal.c116_alias_fails"
   ],
   "note": "the flat signals are exactly those of the tree, in order and with different names, and what is accepted is characterised exactly; partial: a namespace must not contain Defaults or MemberAliases (the cursor stays inside), no signal may be called Locked, no key of MemberAliases may be a name cut short, and a structured signal with a frequency but no SyncSignal (or the reverse) is accepted instead of refused; sizes and FullType not modelled"
  },
  {
   "property": "C117",
   "status": "partial",
   "theorems": [
    "Verif.SortBrokers.c117_sorted",
    "Verif.SortBrokers.c117_refused",
    "Verif.SortBrokers.c117_application_partial",
    "Verif.SortBrokers.c117_nested_partial",
    "Verif.SortBrokers.c117_nested_fails"
   ],
   "note": "the sort is proved to be a stable sort by first signal, and every function gets exactly its brokers; partial because only the functions directly in Functions are sorted"
  },
  {
   "property": "C118",
   "status": "partial",
   "theorems": [
    "Verif.AnyObject.c118_copy_partial",
    "Verif.AnyObject.c118_clean_partial",
    "Verif.AnyObject.c118_history_partial",
    "Verif.AnyObject.c118_strings_fails",
    "Verif.AnyObject.c118_pointers_fails",
    "Verif.AnyObject.c118_self_fails",
    "Verif.AnyObject.c118_size_fails",
    "Verif.AnyObject.c118_empty_fails"
   ],
   "note": "Proved for non-empty values below 4 GB of numbers, C strings, StreamStrings and addresses, of zero to two dimensions (three if static and not strings): same contents and shape, independent of the original, and dropping the object frees exactly the blocks that were taken, also after any sequence of values. Refuted: an array of strings with a NULL is refused and then an address that was never written is freed; arrays of addresses are never freed; an object given its own value reads freed memory; a vector of 4 GB or more is cut and it succeeds; an empty vector of numbers is refused. Not modelled: character arrays that are not static and have fewer than two dimensions, failures of malloc, strings in three dimensions (refused by the code)."
  },
  {
   "property": "C119",
   "status": "partial",
   "theorems": [
    "Verif.Shift.c119_logical_right",
    "Verif.Shift.c119_left",
    "Verif.Shift.c119_math_right_partial",
    "Verif.Shift.c119_math_right_fails",
    "Verif.Shift.c119_double_right_partial",
    "Verif.Shift.c119_double_right_fails"
   ],
   "note": "Logical right and left shifts are exact for every width, number and amount. The mathematic right shift is exact except for negative numbers shifted by the size of the type or more (zero instead of minus one). The logical right shift of an integer of two signed halves is exact only if no half is negative; the counterexamples are proved."
  },
  {
   "property": "C120",
   "status": "partial",
   "theorems": [
    "Verif.FnMemory.c120_told_partial",
    "Verif.FnMemory.c120_late_partial",
    "Verif.FnMemory.c120_idle_fails",
    "Verif.FnMemory.c120_alias_fails",
    "Verif.FnMemory.c120_names_fails"
   ],
   "note": "Proved as an equivalence (accepted if and only if, and with exactly which outcome) for functions with distinct names, no empty alias and sizes that fit in 32 bits. A function without signals makes the configuration fail; an empty alias reaches the data source; two functions with the same name share the cache and a signal is told to the wrong data source (counterexamples proved)."
  },
  {
   "property": "C121",
   "status": "partial",
   "theorems": [
    "Verif.MemoryArea.c121_history_partial",
    "Verif.MemoryArea.c121_refused_fails",
    "Verif.MemoryArea.c121_wrap_fails",
    "Verif.MemoryArea.c121_initial_fails"
   ],
   "note": "Refinement to the list of the bytes that were added, for histories where no addition is empty, the area stays below 4 GB and the heap refuses memory only while the area is empty. Otherwise: a refused growth forgets the block but keeps the size, so that addresses counted from NULL are given; beyond 4 GB the block shrinks and bytes are written out of it; an initial block of size zero is lost (proved for all states)."
  },
  {
   "property": "C122",
   "status": "partial",
   "theorems": [
    "Verif.AnyIndex.c122_vector",
    "Verif.AnyIndex.c122_nothing",
    "Verif.AnyIndex.c122_matrix_partial",
    "Verif.AnyIndex.c122_matrix_fails",
    "Verif.AnyIndex.c122_introspection_fails",
    "Verif.AnyIndex.c122_size_partial"
   ],
   "note": "Vectors: exact for every position (sizes below 4 GB). Matrices: exact for columns below the number of rows, hence for square matrices; for every other matrix it is proved that columns are refused or that an element beyond the end is given. Objects of classes without introspection dereference NULL."
  },
  {
   "property": "C123",
   "status": "partial",
   "theorems": [
    "Verif.Console.c123_shown",
    "Verif.Console.c123_pieces",
    "Verif.Console.c123_lines_partial",
    "Verif.Console.c123_first_fails",
    "Verif.Console.c123_unset_fails",
    "Verif.Console.c123_full_fails"
   ],
   "note": "The content, the size and the independence of pieces hold for every text; the line length holds after the first line; the first line of a console has one character more than the columns, and a console whose size was never set adds a line break after the first character and after every line break. Failing writes and paging are not modelled."
  },
  {
   "property": "C124",
   "status": "partial",
   "theorems": [
    "Verif.PostBody.c124_body_partial",
    "Verif.PostBody.c124_accepted",
    "Verif.PostBody.c124_short",
    "Verif.PostBody.c124_next_fails"
   ],
   "note": "Exact when the client sends nothing more before the body is read; otherwise the bytes that follow, up to the size of the buffer, become part of the body (c124_next_fails)."
  },
  {
   "property": "C125",
   "status": "partial",
   "theorems": [
    "Verif.StreamCopy.c125_copy_partial",
    "Verif.StreamCopy.c125_ends",
    "Verif.StreamCopy.c125_unreadable_fails",
    "Verif.StreamCopy.c125_room_fails"
   ],
   "note": "Holds for a source that can be read and a destination that takes what it is given; a source that cannot be read puts 256 unset bytes in the destination, and a destination that takes a part and answers true loses bytes unnoticed."
  },
  {
   "property": "C126",
   "status": "partial",
   "theorems": [
    "Verif.ObjConvert.c126_convert_partial",
    "Verif.ObjConvert.c126_refused_fails",
    "Verif.ObjConvert.c126_atomic_fails"
   ],
   "note": "Members that are integers, pointers taken as integers or structures; texts, floating point numbers, arrays and constant members are not modelled. A conversion that is refused leaves the members before, and the refused value itself, in the destination."
  },
  {
   "property": "C127",
   "status": "partial",
   "theorems": [
    "Verif.HttpClients.c127_safe",
    "Verif.HttpClients.c127_ends",
    "Verif.HttpClients.c127_closed_partial",
    "Verif.HttpClients.c127_stop_fails",
    "Verif.HttpClients.c127_blocking_fails"
   ],
   "note": "Safety holds in every history. A connection is left open and its stream is not freed when the service is stopped while it is served, when the stream cannot be made blocking or waited on, or when its buffer cannot be had."
  },
  {
   "property": "C128",
   "status": "partial",
   "theorems": [
    "Verif.TypeDesc.c128_fields_partial",
    "Verif.TypeDesc.c128_class_partial",
    "Verif.TypeDesc.c128_equal_partial",
    "Verif.TypeDesc.c128_numeric",
    "Verif.TypeDesc.c128_from_name",
    "Verif.TypeDesc.c128_to_name",
    "Verif.TypeDesc.c128_range_fails",
    "Verif.TypeDesc.c128_invalid"
   ],
   "note": "Proved for every previous content of the memory, kind, size below 1024 bits, class identifier below 16384 and name. False beyond: the fields keep the largest value they can hold, so all classes from 16383 on have equal descriptors."
  },
  {
   "property": "C129",
   "status": "partial",
   "theorems": [
    "Verif.Select.c129_history_partial",
    "Verif.Select.c129_answers",
    "Verif.Select.c129_wait_partial",
    "Verif.Select.c129_no_wait",
    "Verif.Select.c129_again_fails",
    "Verif.Select.c129_remove_fails",
    "Verif.Select.c129_large_fails",
    "Verif.Select.c129_refused_fails",
    "Verif.Select.c129_large_remove_fails",
    "Verif.Select.c129_long_fails"
   ],
   "note": "Proved for every history with descriptors below 1024 and timeouts below 2^31 seconds, except that a wait drops the descriptors that were not ready, so that a second wait does not watch them. The call select of the operating system is given."
  },
  {
   "property": "C130",
   "status": "partial",
   "theorems": [
    "Verif.TcpSocket.c130_bytes",
    "Verif.TcpSocket.c130_connected",
    "Verif.TcpSocket.c130_accepted",
    "Verif.TcpSocket.c130_asked",
    "Verif.TcpSocket.c130_answer",
    "Verif.TcpSocket.c130_mode_partial",
    "Verif.TcpSocket.c130_limit_partial",
    "Verif.TcpSocket.c130_connect_mode_partial",
    "Verif.TcpSocket.c130_connect_limit_partial",
    "Verif.TcpSocket.c130_nowait_fails",
    "Verif.TcpSocket.c130_accept_fails",
    "Verif.TcpSocket.c130_open_fails",
    "Verif.TcpSocket.c130_opened"
   ],
   "note": "The bytes are proved without condition. The timeout is obeyed from one millisecond on; below it, and for the timeout of zero, a read or write of a blocking socket waits for ever. A wait for a connection that goes away can last twice the timeout. A socket that is opened again tells the mode of the old one. The calls of the operating system are given."
  },
  {
   "property": "C131",
   "status": "partial",
   "theorems": [
    "Verif.DirScan.c131_scan_partial",
    "Verif.DirScan.c131_refused",
    "Verif.DirScan.c131_root",
    "Verif.DirScan.c131_long_fails",
    "Verif.DirScan.c131_threads_fails"
   ],
   "note": "Proved without a sorter, for paths of at most 511 characters and one thread at a time; false otherwise. The listing and the sizes of the operating system are given."
  },
  {
   "property": "C132",
   "status": "partial",
   "theorems": [
    "Verif.StateTold.c132_added",
    "Verif.StateTold.c132_not_told",
    "Verif.StateTold.c132_told",
    "Verif.StateTold.c132_unknown",
    "Verif.StateTold.c132_current_partial",
    "Verif.StateTold.c132_unknown_fails",
    "Verif.StateTold.c132_refused_fails"
   ],
   "note": "Proved for histories where every start comes after a preparation. False: the data sources are told of a change to a state that does not exist, and after a refused preparation a start makes the refused state the current one."
  },
  {
   "property": "C133",
   "status": "partial",
   "theorems": [
    "Verif.UdpSocket.c133_received_partial",
    "Verif.UdpSocket.c133_sent_partial",
    "Verif.UdpSocket.c133_answers",
    "Verif.UdpSocket.c133_limit_partial",
    "Verif.UdpSocket.c133_nowait_fails",
    "Verif.UdpSocket.c133_cut_fails",
    "Verif.UdpSocket.c133_empty_fails",
    "Verif.UdpSocket.c133_refused_fails",
    "Verif.UdpSocket.c133_closed",
    "Verif.UdpSocket.c133_done"
   ],
   "note": "Proved for every history without empty datagrams and refused connections, and for timeouts of at least a microsecond. A datagram that is longer than the read is cut and the rest lost, an empty one cannot be told from an error, a refused Connect changes the destination, and a timeout of zero waits forever: each is proved as the negation."
  },
  {
   "property": "C134",
   "status": "partial",
   "theorems": [
    "Verif.LocalHost.c134_answers_partial",
    "Verif.LocalHost.c134_number",
    "Verif.LocalHost.c134_interface_partial",
    "Verif.LocalHost.c134_unknown_fails",
    "Verif.LocalHost.c134_interface_fails",
    "Verif.LocalHost.c134_open_fails"
   ],
   "note": "Proved for hosts that are known at the first question. Otherwise the first question never returns, because the lock is not released on the paths that fail; names of interfaces shorter than fourteen bytes are read beyond their end; each GetMACAddress leaves a descriptor open: each is proved as the negation."
  },
  {
   "property": "C135",
   "status": "partial",
   "theorems": [
    "Verif.Uart.c135_speed_partial",
    "Verif.Uart.c135_wait_partial",
    "Verif.Uart.c135_open_partial",
    "Verif.Uart.c135_read",
    "Verif.Uart.c135_time_partial",
    "Verif.Uart.c135_plain",
    "Verif.Uart.c135_speed_fails",
    "Verif.Uart.c135_again_fails",
    "Verif.Uart.c135_open_fails",
    "Verif.Uart.c135_time_fails",
    "Verif.Uart.c135_size_fails"
   ],
   "note": "The bytes are exact in every case. Waiting is proved for histories in which every opening gives the same descriptor. Proved as negations: a refused speed changes the speed, a port that is opened again with a higher descriptor never seems ready, a port that does not exist writes outside of the sets, the timeout is that of each part of a read, and a read that fails tells a size of 4294967295."
  },
  {
   "property": "C136",
   "status": "partial",
   "theorems": [
    "Verif.HttpAsk.c136_target",
    "Verif.HttpAsk.c136_authorised",
    "Verif.HttpAsk.c136_ends_partial",
    "Verif.HttpAsk.c136_answer_partial",
    "Verif.HttpAsk.c136_answered",
    "Verif.HttpAsk.c136_command",
    "Verif.HttpAsk.c136_key_partial",
    "Verif.HttpAsk.c136_endless_fails",
    "Verif.HttpAsk.c136_closed_fails",
    "Verif.HttpAsk.c136_taken_back_fails",
    "Verif.HttpAsk.c136_renewed_fails",
    "Verif.HttpAsk.c136_key_fails",
    "Verif.HttpAsk.c136_quote_fails",
    "Verif.HttpAsk.c136_key_refused"
   ],
   "note": "The target of the requests is proved for all histories. The end of an exchange is proved when some reply is not a refusal, and the meaning of its answer when the server keeps the connection. The code sends the request again without end to a server that keeps refusing, answers true after a refusal that closes the connection, sends an authorisation that was taken back, and reads beyond a challenge without a closing quote. The digest itself is not modelled: its key comes from outside."
  },
  {
   "property": "C137",
   "status": "partial",
   "theorems": [
    "Verif.ThreadSettings.c137_told",
    "Verif.ThreadSettings.c137_started_partial",
    "Verif.ThreadSettings.c137_accepted",
    "Verif.ThreadSettings.c137_long_fails",
    "Verif.ThreadSettings.c137_refused_fails",
    "Verif.ThreadSettings.c137_running_fails"
   ],
   "note": "The settings that are told are proved for all histories, and those of the threads that are begun for timeouts below 2^31 ticks. A longer timeout becomes 2^31-1 ticks in the thread. A refused configuration is in force in part, and a running service accepts a configuration that it ignores."
  },
  {
   "property": "C138",
   "status": "partial",
   "theorems": [
    "Verif.GlobalObjects.c138_order_partial",
    "Verif.GlobalObjects.c138_all_partial",
    "Verif.GlobalObjects.c138_peek",
    "Verif.GlobalObjects.c138_full_fails",
    "Verif.GlobalObjects.c138_high_fails"
   ],
   "note": "Proved for every table size when no more objects are registered than there are places and their orders are below the number of places. An object that comes when the table is full, or with a higher order, is never destroyed, and nothing tells it."
  },
  {
   "property": "C139",
   "status": "partial",
   "theorems": [
    "Verif.ErrorSet.c139_set",
    "Verif.ErrorSet.c139_told",
    "Verif.ErrorSet.c139_made",
    "Verif.ErrorSet.c139_assigned_fails"
   ],
   "note": "Proved for all histories and values, but for booleans: an error that is made of a boolean tells it, and one to which it is assigned tells the opposite."
  },
  {
   "property": "C140",
   "status": "partial",
   "theorems": [
    "Verif.VectorMem.c140_values_partial",
    "Verif.VectorMem.c140_freed_partial",
    "Verif.VectorMem.c140_view_fails",
    "Verif.VectorMem.c140_copy_fails"
   ],
   "note": "Proved for all histories without vectors that are made on the memory of another vector. A copy of a vector on an array of the program shows the same array; assigning to a vector another one that was made on its memory leaves a pointer to freed memory."
  },
  {
   "property": "C141",
   "status": "partial",
   "theorems": [
    "Verif.GamLookup.c141_index",
    "Verif.GamLookup.c141_index_name",
    "Verif.GamLookup.c141_range",
    "Verif.GamLookup.c141_offset",
    "Verif.GamLookup.c141_frequency_partial",
    "Verif.GamLookup.c141_frequency_refused",
    "Verif.GamLookup.c141_frequency_same",
    "Verif.GamLookup.c141_name",
    "Verif.GamLookup.c141_number",
    "Verif.GamLookup.c141_refused_index_fails",
    "Verif.GamLookup.c141_frequency_fails"
   ],
   "note": "Proved for all lists of signals, but for two answers: a name that is refused changes the variable of the caller, and the frequency of a signal whose data source is not in the memory of the function is answered with success and no value."
  }
 ]
}