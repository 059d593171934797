{
 "claims": [
  {
   "property": "C01",
   "status": "proved",
   "theorems": [
    "Ipt.Props.C01_pkt_next_memory_safe"
   ],
   "note": ""
  },
  {
   "property": "C02",
   "status": "partial",
   "theorems": [
    "Ipt.Props.C02_pkt_next_position_partial",
    "Ipt.Props.C02_pkt_next_position_errata_partial",
    "Ipt.Props.C02_skz84_position_behind_end",
    "Ipt.Props.C02_skd007_position_not_size"
   ],
   "note": "Proved exactly when the SKD007 and SKZ84 work-arounds are off; with them the claim is false of the code (two counterexample theorems) and the exact weaker claim is proved for every configuration."
  },
  {
   "property": "C03",
   "status": "proved",
   "theorems": [
    "Ipt.Props.C03_roundtrip",
    "Ipt.Props.C03_cyc_too_big_is_encoded"
   ],
   "note": ""
  },
  {
   "property": "C04",
   "status": "proved",
   "theorems": [
    "Ipt.Props.C04_encoder_safe_and_atomic",
    "Ipt.Props.C04_encoder_eos_iff_no_room",
    "Ipt.Props.C04_encoder_sync_set",
    "Ipt.Props.C04_encoder_refuses_reserved_ipc"
   ],
   "note": ""
  },
  {
   "property": "C05",
   "status": "proved",
   "theorems": [
    "Ipt.Props.C05_stream_roundtrip"
   ],
   "note": ""
  },
  {
   "property": "C06",
   "status": "proved",
   "theorems": [
    "Ipt.Props.C06_decode_is_local",
    "Ipt.Props.C06_truncation_gives_eos"
   ],
   "note": ""
  },
  {
   "property": "C07",
   "status": "proved",
   "theorems": [
    "Ipt.Props.C07_bounded_number_of_packets",
    "Ipt.Props.C07_decode_terminates",
    "Ipt.Props.C07_zero_size_callback_loops"
   ],
   "note": ""
  },
  {
   "property": "C08",
   "status": "proved",
   "theorems": [
    "Ipt.Props.C08_sync_forward_safe",
    "Ipt.Props.C08_sync_forward_sound",
    "Ipt.Props.C08_sync_forward_complete",
    "Ipt.Props.C08_pkt_sync_forward",
    "Ipt.Props.C08_sync_forward_at_end_is_internal",
    "Ipt.Props.C08_sync_set",
    "Ipt.Props.C08_offsets"
   ],
   "note": ""
  },
  {
   "property": "C09",
   "status": "proved",
   "theorems": [
    "Ipt.Props.C09_sync_backward_safe",
    "Ipt.Props.C09_sync_backward_sound",
    "Ipt.Props.C09_sync_backward_complete",
    "Ipt.Props.C09_pkt_sync_backward"
   ],
   "note": ""
  },
  {
   "property": "C10",
   "status": "proved",
   "theorems": [
    "Ipt.Props.C10_sync_forward_progress",
    "Ipt.Props.C10_sync_forward_terminates",
    "Ipt.Props.C10_sync_forward_enumerates"
   ],
   "note": ""
  },
  {
   "property": "C11",
   "status": "partial",
   "theorems": [
    "Ipt.Props.C11_sync_backward_progress_partial",
    "Ipt.Props.C11_sync_backward_stuck",
    "Ipt.Props.C11_evt_sync_backward_hangs"
   ],
   "note": "Holds for buffers in which no PSB is directly followed by more PSB pattern; false of the code otherwise (counterexample theorem: pt_pkt_sync_backward returns the same PSB forever, and pt_evt_sync_backward does not terminate). Termination of pt_evt_sync_backward otherwise is part of C32_event_decoder_total_partial."
  },
  {
   "property": "C12",
   "status": "proved",
   "theorems": [
    "Ipt.Props.C12_update_effect",
    "Ipt.Props.C12_decompress_inverse",
    "Ipt.Props.C12_ip_history"
   ],
   "note": ""
  },
  {
   "property": "C13",
   "status": "proved",
   "theorems": [
    "Ipt.Props.C13_tnt_cache_is_fifo",
    "Ipt.Props.C13_tnt_add_defined"
   ],
   "note": ""
  },
  {
   "property": "C14",
   "status": "proved",
   "theorems": [
    "Ipt.Props.C14_retstack_is_bounded_lifo"
   ],
   "note": ""
  },
  {
   "property": "C15",
   "status": "proved",
   "theorems": [
    "Ipt.Props.C15_event_queue_refines_list"
   ],
   "note": ""
  },
  {
   "property": "C16",
   "status": "proved",
   "theorems": [
    "Ipt.Props.C16_asid_match",
    "Ipt.Props.C16_asid_match_refl_symm",
    "Ipt.Props.C16_asid_import",
    "Ipt.Props.C16_asid_export"
   ],
   "note": ""
  },
  {
   "property": "C17",
   "status": "proved",
   "theorems": [
    "Ipt.Props.C17_config_import"
   ],
   "note": ""
  },
  {
   "property": "C18",
   "status": "proved",
   "theorems": [
    "Ipt.Props.C18_addr_filter",
    "Ipt.Props.C18_addr_filter_documented_ranges"
   ],
   "note": "The code treats the reserved words of the filter configuration as four more ranges; stated as such."
  },
  {
   "property": "C19",
   "status": "proved",
   "theorems": [
    "Ipt.Props.C19_tsc_sets_time",
    "Ipt.Props.C19_psb_tsc_sets_time",
    "Ipt.Props.C19_no_tsc_no_time"
   ],
   "note": ""
  },
  {
   "property": "C20",
   "status": "partial",
   "theorems": [
    "Ipt.Props.C20_mtc_run",
    "Ipt.Props.C20_mtc_monotone",
    "Ipt.Props.C20_mtc_after_cyc_moves_back",
    "Ipt.Props.C20_no_ratio_not_counted"
   ],
   "note": "The advance and monotonicity clauses are proved. The clause that losses are counted when the configuration cannot convert is false of the code (C20_no_ratio_not_counted), and an overshooting CYC estimate lets the next MTC move time backwards (C20_mtc_after_cyc_moves_back)."
  },
  {
   "property": "C21",
   "status": "proved",
   "theorems": [
    "Ipt.Props.C21_timing_defined",
    "Ipt.Props.C21_mtc_freq_not_validated"
   ],
   "note": "Valid configuration: mtc_freq < 24 (the hardware field has 4 bits); the library does not validate it, see C21_mtc_freq_not_validated."
  },
  {
   "property": "C45",
   "status": "partial",
   "theorems": [
    "Ipt.Props.C45_cpu_parse",
    "Ipt.Props.C45_cpu_parse_accepts",
    "Ipt.Props.C45_cpu_parse_too_lenient",
    "Ipt.Props.C45_cpu_errata",
    "Ipt.Props.C45_errata_by_processor"
   ],
   "note": "Exact characterization proved; the literal claim fails because white space, signs and a dangling separator are accepted (C45_cpu_parse_too_lenient)."
  },
  {
   "property": "C22",
   "status": "proved",
   "theorems": [
    "Ipt.Props.C22_image_refines",
    "Ipt.Props.C22_shared_section_hidden_everywhere",
    "Ipt.Props.C22_unknown_space_depends_on_order",
    "Ipt.Props.C22_remove_one"
   ],
   "note": "Lookups in a concrete address space refine an abstract map for every history. C22_shared_section_hidden_everywhere shows that an add in one address space also hides a shared section for all others; C22_unknown_space_depends_on_order that lookups with unknown cr3 depend on the list order."
  },
  {
   "property": "C23",
   "status": "proved",
   "theorems": [
    "Ipt.Props.C23_sections_disjoint"
   ],
   "note": ""
  },
  {
   "property": "C24",
   "status": "proved",
   "theorems": [
    "Ipt.Props.C24_failed_add_unchanged",
    "Ipt.Props.C24_failed_add_lookup"
   ],
   "note": ""
  },
  {
   "property": "C25",
   "status": "proved",
   "theorems": [
    "Ipt.Props.C25_image_read",
    "Ipt.Props.C25_map_error"
   ],
   "note": ""
  },
  {
   "property": "C26",
   "status": "partial",
   "theorems": [
    "Ipt.Props.C26_copy_unsplit_partial",
    "Ipt.Props.C26_copy_split_wrong"
   ],
   "note": "Proved for images none of whose sections was split or shrunk; false of the code for split sections (C26_copy_split_wrong): pt_image_copy re-adds the full file section at the split section's address."
  },
  {
   "property": "C27",
   "status": "proved",
   "theorems": [
    "Ipt.Props.C27_section_counts",
    "Ipt.Props.C27_section_refusals",
    "Ipt.Props.C27_attached_to_one_cache",
    "Ipt.Props.C27_not_freed_while_attached",
    "Ipt.Props.C27_undisciplined_put_frees_attached",
    "Ipt.Props.C27_image_references"
   ],
   "note": "Counts and refusals for every operation sequence. Not freed while attached is proved for callers that keep a reference per attachment (which the section cache does, C29_references); the library itself does not check it (C27_undisciplined_put_frees_attached)."
  },
  {
   "property": "C28",
   "status": "proved",
   "theorems": [
    "Ipt.Props.C28_mk_section",
    "Ipt.Props.C28_section_read",
    "Ipt.Props.C28_map_defined",
    "Ipt.Props.C28_file_map_within"
   ],
   "note": ""
  },
  {
   "property": "C29",
   "status": "proved",
   "theorems": [
    "Ipt.Props.C29_isids_stable",
    "Ipt.Props.C29_lookup",
    "Ipt.Props.C29_find",
    "Ipt.Props.C29_add_file",
    "Ipt.Props.C29_add_file_again",
    "Ipt.Props.C29_references"
   ],
   "note": "Stability, lookup and find over every interleaving of the cache's critical sections; add_file over every sequence of operations."
  },
  {
   "property": "C30",
   "status": "proved",
   "theorems": [
    "Ipt.Props.C30_limit",
    "Ipt.Props.C30_evicted_unmapped",
    "Ipt.Props.C30_no_mapping_lost",
    "Ipt.Props.C30_remove_breaks_accounting"
   ],
   "note": "Sizes are real memory, i.e. their sum stays below 2^64. Replacing a section while adding (only possible when racing with other threads) breaks the accounting: C30_remove_breaks_accounting."
  },
  {
   "property": "C46",
   "status": "proved",
   "theorems": [
    "Ipt.Props.C46_address_space",
    "Ipt.Props.C46_cached_lookup",
    "Ipt.Props.C46_cached_bytes",
    "Ipt.Props.C46_cached_instruction",
    "Ipt.Props.C46_cache_references"
   ],
   "note": ""
  },
  {
   "property": "C47",
   "status": "proved",
   "theorems": [
    "Ipt.Props.C47_decode_exact",
    "Ipt.Props.C47_unambiguous",
    "Ipt.Props.C47_delivered_in_range"
   ],
   "note": ""
  },
  {
   "property": "C32",
   "status": "partial",
   "theorems": [
    "Ipt.Props.C32_event_decoder_total_partial",
    "Ipt.Props.C32_zero_size_callback_hangs",
    "Ipt.Props.C11_evt_sync_backward_hangs"
   ],
   "note": "Proved for every buffer below 2 GB, every call sequence and also after errors, for MTC frequencies below 24 and callbacks that do not return zero; without these the claim is false (witnesses)."
  },
  {
   "property": "C33",
   "status": "proved",
   "theorems": [
    "Ipt.Props.C33_no_tick"
   ],
   "note": ""
  },
  {
   "property": "C34",
   "status": "partial",
   "theorems": [
    "Ipt.Props.C34_no_internal_error_partial",
    "Ipt.Props.C34_internal_error_at_tip",
    "Ipt.Props.C34_internal_error_at_cfe",
    "Ipt.Props.C34_internal_error_apl12"
   ],
   "note": "False of the code: three counterexample theorems. Proved: after a successful synchronization and before the first error an internal error can only occur at a TIP packet or a CFE packet of a reserved type, if the APL12 work-around is off."
  },
  {
   "property": "C36",
   "status": "proved",
   "theorems": [
    "Ipt.Props.C36_status_after_sync",
    "Ipt.Props.C36_status_at_psb"
   ],
   "note": "Exact events (type, fields, IP, time, order) for every header; with the BDM70 work-around off."
  },
  {
   "property": "C35",
   "status": "proved",
   "theorems": [
    "Ipt.Props.C35_branches_need_tracing",
    "Ipt.Props.C35_outcomes_rejected",
    "Ipt.Props.C35_not_after_errors"
   ],
   "note": "C35_not_after_errors shows that the restriction to calls before the first error is necessary."
  },
  {
   "property": "C48",
   "status": "partial",
   "theorems": [
    "Ipt.Props.C48_overflow_without_ip_disables_partial",
    "Ipt.Props.C48_suppressed_overflow_enables",
    "Ipt.Props.C48_suppressed_overflow_enables_skd010"
   ],
   "note": "False of the code for OVF followed by a FUP with suppressed IP and, with the SKD010 work-around, by a TIP with suppressed IP (counterexample theorems). Proved for traces without such packets."
  },
  {
   "property": "C37",
   "status": "partial",
   "theorems": [
    "Ipt.Props.C37_synchronized",
    "Ipt.Props.C37_synchronized_own",
    "Ipt.Props.C37_nothing_lost",
    "Ipt.Props.C37_events_wait",
    "Ipt.Props.C37_in_order_partial",
    "Ipt.Props.C37_granted",
    "Ipt.Props.C37_refused",
    "Ipt.Props.C37_indirect_reorders"
   ],
   "note": "Nothing is lost, duplicated or invented for every sequence of queries; events wait for everything before them. Order between outcomes and targets is false of the code when an indirect branch query is made while outcomes are cached (counterexample theorem); proved for query sequences without that."
  },
  {
   "property": "C38",
   "status": "partial",
   "theorems": [
    "Ipt.Props.C38_reported_and_sticky",
    "Ipt.Props.C38_deferred_partial",
    "Ipt.Props.C38_deferred_orderly",
    "Ipt.Props.C38_indirect_reports_early"
   ],
   "note": "Reported, sticky: for every sequence of queries. Deferred: false of the code for indirect branch queries made while outcomes are cached (counterexample theorem)."
  },
  {
   "property": "C44",
   "status": "partial",
   "theorems": [
    "Ipt.Props.C44_refused_changes_nothing_partial",
    "Ipt.Props.C44_indirect_changes",
    "Ipt.Props.C44_cond_changes_time"
   ],
   "note": "A refused query changes no later answer except as shown by the two counterexample theorems."
  },
  {
   "property": "C49",
   "status": "partial",
   "theorems": [
    "Ipt.Props.C49_start_ip_is_enabled",
    "Ipt.Props.C49_no_start_ip",
    "Ipt.Props.C49_start_ip_partial",
    "Ipt.Props.C49_wrong_start_ip",
    "Ipt.Props.C49_sync_reports_later_error",
    "Ipt.Props.C49_backward_no_flags",
    "Ipt.Props.C49_backward_moves_back"
   ],
   "note": "Proved for headers that enable tracing (with the BDM70 work-around off) and for headers followed by something other than a status update. False of the code for a disabled header directly followed by another header (counterexample theorem)."
  },
  {
   "property": "C50",
   "status": "partial",
   "theorems": [
    "Ipt.Props.C50_query_decoder_total_partial",
    "Ipt.Props.C50_nosync",
    "Ipt.Props.C50_qry_sync_backward_hangs"
   ],
   "note": "Under the requirements of C32. False of the code for adjacent PSBs: pt_qry_sync_backward hangs (counterexample theorem)."
  },
  {
   "property": "C51",
   "status": "partial",
   "theorems": [
    "Ipt.Props.C51_status_flags",
    "Ipt.Props.C51_sync_flags_partial",
    "Ipt.Props.C49_backward_no_flags"
   ],
   "note": "Proved for all queries and for forward synchronization and synchronization to an offset. False of the code for pt_qry_sync_backward, which returns no flags (counterexample theorem)."
  },
  {
   "property": "C31",
   "status": "proved",
   "theorems": [
    "Ipt.Props.C31_no_deadlock",
    "Ipt.Props.C31_can_always_finish",
    "Ipt.Props.C31_unlocks_paired"
   ],
   "note": "Over locking skeletons of all functions that lock: branches and loops are non-deterministic, any number of threads, any calls, any interleaving. Mutexes do not fail."
  },
  {
   "property": "C52",
   "status": "partial",
   "theorems": [
    "Ipt.Props.C52_race_free_partial",
    "Ipt.Props.C52_link_writes_exclusive",
    "Ipt.Props.C52_iscache_pointer_race"
   ],
   "note": "Proved for all counters, the cache contents and file positions. False of the code for the iscache pointer, which pt_section_on_map reads without lock (counterexample theorem). For the reads of the mapping and block cache pointers, which are not protected by a lock but by the map count, see C69."
  },
  {
   "property": "C39",
   "status": "partial",
   "theorems": [
    "Ipt.Props.C39_size",
    "Ipt.Props.C39_depends_on_instruction_only",
    "Ipt.Props.C39_error",
    "Ipt.Props.C39_reads_inside_partial",
    "Ipt.Props.C39_bytes_behind",
    "Ipt.Props.C39_incomplete",
    "Ipt.Props.C39_overread"
   ],
   "note": "Size, locality and errors: proved for all byte strings and modes. Memory safety: false of the code in one case (counterexample theorem): a REX2 prefix in the last but one of 15 bytes makes the decoder read the byte behind the array; proved otherwise."
  },
  {
   "property": "C40",
   "status": "proved",
   "theorems": [
    "Ipt.Props.C40_direct_sound",
    "Ipt.Props.C40_direct_complete",
    "Ipt.Props.C40_jmpabs",
    "Ipt.Props.C40_next_ip"
   ],
   "note": ""
  },
  {
   "property": "C41",
   "status": "partial",
   "theorems": [
    "Ipt.Props.C41_fetch_sound_partial",
    "Ipt.Props.C41_fetch_split",
    "Ipt.Props.C41_fetch_image",
    "Ipt.Props.C39_overread"
   ],
   "note": "Proved but for the over-read of C39, which is reachable from here: fifteen readable bytes of which the last but one is 0xd5."
  },
  {
   "property": "C42",
   "status": "proved",
   "theorems": [
    "Ipt.Props.C42_follows_program",
    "Ipt.Props.C42_successive",
    "Ipt.Props.C42_trace",
    "Ipt.Props.C42_skips_outcomes"
   ],
   "note": "What a user sees is a run of the machine in Spec/Flow.lean, for all traces, images and numbers of calls, including events and image changes. C42_trace relates the run to the events of the event decoder. C42_skips_outcomes: a trace that does not fit the image is not always detected."
  },
  {
   "property": "C43",
   "status": "partial",
   "theorems": [
    "Ipt.Props.C43_entries",
    "Ipt.Props.C43_block",
    "Ipt.Props.C43_whole_sections",
    "Ipt.Props.C43_stale_mode_fails",
    "Ipt.Props.C43_end_on_jump_fails",
    "Ipt.Props.C43_cut_branch_fails"
   ],
   "note": "C43_entries: every sequence of calls on a block decoder keeps all entries correct. C43_block: with correct entries, proceeding gives the instructions of the machine in Spec/Flow.lean, in the same section and with the same count. Needs that the entries in use are for the current mode; the *_fails theorems show where the code violates the property. C65 relates blocks to the machine for whole calls."
  },
  {
   "property": "C54",
   "status": "partial",
   "theorems": [
    "Ipt.Props.C54_forward_set",
    "Ipt.Props.C54_backward_differs"
   ],
   "note": "Forward synchronization and synchronization by offset: proved. Backward synchronization: false of the code (counterexample theorem). Independence of the decoder's history: see C68."
  },
  {
   "property": "C55",
   "status": "partial",
   "theorems": [
    "Ipt.Props.C55_read_safe",
    "Ipt.Props.C55_read_sound",
    "Ipt.Props.C55_read_complete",
    "Ipt.Props.C55_write_safe",
    "Ipt.Props.C55_write_sound",
    "Ipt.Props.C55_write_complete",
    "Ipt.Props.C55_roundtrip",
    "Ipt.Props.C55_roundtrip_fails"
   ],
   "note": "Reading and writing: proved, for time shifts less than 64. Reading back what was written: proved for events with an identifier and for configurations with one sample type; false of the code otherwise (counterexample theorem): the last eight bytes of a record are taken for its identifier."
  },
  {
   "property": "C56",
   "status": "proved",
   "theorems": [
    "Ipt.Props.C56_to_tsc",
    "Ipt.Props.C56_from_tsc",
    "Ipt.Props.C56_to_tsc_mono",
    "Ipt.Props.C56_from_tsc_mono",
    "Ipt.Props.C56_tsc_time_tsc",
    "Ipt.Props.C56_time_tsc_time",
    "Ipt.Props.C56_no_config",
    "Ipt.Props.C56_large_shift_fails"
   ],
   "note": "For shifts up to 32, which is what the kernel gives. C56_large_shift_fails: larger shifts are not refused."
  },
  {
   "property": "C53",
   "status": "partial",
   "theorems": [
    "Ipt.Props.C53_x86",
    "Ipt.Props.C53_instruction_partial",
    "Ipt.Props.C53_vmclear_fails"
   ],
   "note": "Size, class and branch displacement: proved for every instruction of Spec/X86.lean, which is written after the instruction format chapters of the architecture manual. The identity of the specially treated instructions: proved but for VMCLEAR and VMXON, which the code takes for VMPTRLD because it does not look at the mandatory prefix (counterexample theorem)."
  },
  {
   "property": "C57",
   "status": "proved",
   "theorems": [
    "Ipt.Props.C57_order",
    "Ipt.Props.C57_sorted",
    "Ipt.Props.C57_event",
    "Ipt.Props.C57_dump",
    "Ipt.Props.C57_init"
   ],
   "note": "For arbitrary callbacks. The calls of callbacks are recorded in a log, which is part of the model; Spec/Sideband.lean says what a log must look like. The results are for calls that return: an endless channel can keep pt_sb_event busy."
  },
  {
   "property": "C58",
   "status": "proved",
   "theorems": [
    "Ipt.Props.C58_alive",
    "Ipt.Props.C58_unique",
    "Ipt.Props.C58_image",
    "Ipt.Props.C58_calls",
    "Ipt.Props.C58_free"
   ],
   "note": "PevSessions are the sessions that can be reached. malloc succeeds in the model; the caller gives the same image pointer to each call; contexts passed by the user are those the user may use. C58_calls: with enough fuel, no call is undefined."
  },
  {
   "property": "C59",
   "status": "proved",
   "theorems": [
    "Ipt.Props.C59_table",
    "Ipt.Props.C59_reported"
   ],
   "note": "Images, the file system and the section cache are parameters. Spec/SbPevent.lean says what records mean. File names that do not fit into 4096 characters are cut without notice, see DESIGN.md."
  },
  {
   "property": "C60",
   "status": "proved",
   "theorems": [
    "Ipt.Props.C60_records",
    "Ipt.Props.C60_events",
    "Ipt.Props.C60_errors",
    "Ipt.Props.C60_secondary",
    "Ipt.Props.C60_event_secondary"
   ],
   "note": "The location is unknown after events without an address, and a pending switch is then done as in the kernel."
  },
  {
   "property": "C61",
   "status": "partial",
   "theorems": [
    "Ipt.Props.C61_record",
    "Ipt.Props.C61_next",
    "Ipt.Props.C61_time_partial",
    "Ipt.Props.C61_time_wraps"
   ],
   "note": "C61_time_wraps: a negative offset does wrap around, contrary to the comment in the code."
  },
  {
   "property": "C62",
   "status": "partial",
   "theorems": [
    "Ipt.Props.C62_alloc_partial",
    "Ipt.Props.C62_alloc_double_free"
   ],
   "note": "C62_alloc_double_free: memory is freed twice if, and only if, a path is too long."
  },
  {
   "property": "C63",
   "status": "partial",
   "theorems": [
    "Ipt.Props.C63_insn_decoder_total_partial",
    "Ipt.Props.C63_overread",
    "Ipt.Props.C63_hangs",
    "Ipt.Props.C63_backward_stuck"
   ],
   "note": "For all sequences of calls, all traces, programs and configurations. Two counterexamples, both excluded by hypotheses: instruction bytes that make the instruction decoder read a 16th byte, and backward synchronization with adjacent PSBs. C63_backward_stuck: after backward synchronization the decoder cannot get beyond the first branch."
  },
  {
   "property": "C64",
   "status": "partial",
   "theorems": [
    "Ipt.Props.C64_block_decoder_total_partial",
    "Ipt.Props.C64_overread",
    "Ipt.Props.C64_hangs",
    "Ipt.Props.C64_uninitialized",
    "Ipt.Props.C64_end_of_trace"
   ],
   "note": "For all sequences of calls, all traces, programs, configurations, block cache contents and writes of other decoders. Three counterexamples, all excluded by hypotheses: instruction bytes that make the instruction decoder read a 16th byte, backward synchronization with adjacent PSBs, and a read memory callback that fails with -pte_bad_query. C64_end_of_trace: at the end of the trace, pt_blk_next returns -pte_bad_query where pt_insn_next returns -pte_eos."
  },
  {
   "property": "C65",
   "status": "partial",
   "theorems": [
    "Ipt.Props.C65_follows_program_partial",
    "Ipt.Props.C65_suppressed_target",
    "Ipt.Props.C65_backward_flags",
    "Ipt.Props.C65_skl014_end_on_jump"
   ],
   "note": "For all traces, images, configurations, block cache contents and sequences of calls, including events and image changes. Excluded: backward synchronization, which does not return the flags the user relies on (C65_backward_flags); erratum SKL014 together with address filtering and ending blocks at calls or jumps, where instructions are missing (C65_skl014_end_on_jump); code executed in another mode than it was cached for (C43_stale_mode_fails). C65_suppressed_target: the decoder may go to address zero if the target of a branch is suppressed."
  },
  {
   "property": "C66",
   "status": "proved",
   "theorems": [
    "Ipt.Props.C66_events_follow_packets",
    "Ipt.Props.C66_events_from_offset",
    "Ipt.Props.C66_queries_follow_packets",
    "Ipt.Props.C66_encoded_packets",
    "Ipt.Props.C66_instructions_follow_packets",
    "Ipt.Props.C66_invalid_after_overflow"
   ],
   "note": "For all traces and synchronizations. The specification (Spec/Events.lean) says for each packet which events it stands for, which ones wait, and which packets must not occur. It includes what the decoder rejects, such as TIP with an asynchronous branch that started after MWAIT (see C34_internal_error_at_tip), or more than 14 waiting events. For all configurations, also with the errata BDM70, SKD010, APL11, APL12, SKZ84, for which the specification says how they change the meaning of packets (SKD007 is in the packet layer, SKL168 in the time model). C66_invalid_after_overflow shows a case where the decoder, and therefore the specification, rejects a packet that it should ignore."
  },
  {
   "property": "C67",
   "status": "proved",
   "theorems": [
    "Ipt.Props.C67_event_decoder_forgets",
    "Ipt.Props.C67_query_decoder_forgets"
   ],
   "note": "For arbitrary states of the decoders, reachable or not. pt_evt_reset keeps the execution mode bits; they are not used before they are set again. Memory in which the user's callback for unknown packets keeps its own state is not modelled."
  },
  {
   "property": "C68",
   "status": "partial",
   "theorems": [
    "Ipt.Props.C68_insn_decoder_forgets_partial",
    "Ipt.Props.C68_ambiguous_image_fails"
   ],
   "note": "For arbitrary states of the decoders, for images in which no address is covered by two sections, whatever their address spaces. Otherwise false of the code (counterexample theorem): after synchronization the address space may not be known, and the section that was used last is taken. Also assumed: sections can be mapped and have room for another reference, and, for synchronizing backward, there are no adjacent PSBs (C41)."
  },
  {
   "property": "C69",
   "status": "proved",
   "theorems": [
    "Ipt.Props.C69_stays_mapped",
    "Ipt.Props.C69_counts",
    "Ipt.Props.C69_nothing_left"
   ],
   "note": "Accesses are atomic and in program order. That section objects are not freed while they are in use is C70. The block cache pointer, unlike the mapping pointer, may be read by one thread while another one that also has the section mapped sets it."
  },
  {
   "property": "C70",
   "status": "proved",
   "theorems": [
    "Ipt.Props.C70_not_freed",
    "Ipt.Props.C70_counts",
    "Ipt.Props.C70_free_cache_fails"
   ],
   "note": "Each critical section is one step (C52 shows that the counts are only accessed with the lock held); freeing is a separate step. pt_iscache_free is excluded: while another thread has trimmed the cache but not yet unmapped what it removed, it fails in the middle (counterexample theorem)."
  },
  {
   "property": "C71",
   "status": "partial",
   "theorems": [
    "Ipt.Props.C71_nothing_left_partial",
    "Ipt.Props.C71_bad_asid_leaks"
   ],
   "note": "Proved for calls whose address space identifier can be read and that do not free a cache. False of the code otherwise: pt_image_add_cached forgets the reference it got from the cache if the address space identifier is bad (counterexample theorem)."
  },
  {
   "property": "C72",
   "status": "partial",
   "theorems": [
    "Ipt.Props.C72_loaded_partial",
    "Ipt.Props.C72_result_partial",
    "Ipt.Props.C72_partly_loaded_fails",
    "Ipt.Props.C72_entry_size_fails"
   ],
   "note": "Proved for little-endian files whose program headers have the usual size; section objects are right (C28, C29). False of the code otherwise: the size of program headers in the ELF header is ignored, and without load address segments are loaded before a later program header turns out to be missing (counterexample theorems)."
  },
  {
   "property": "C73",
   "status": "partial",
   "theorems": [
    "Ipt.Props.C73_segment_partial",
    "Ipt.Props.C73_at_psb_fails",
    "Ipt.Props.C73_at_end_fails"
   ],
   "note": "Proved for offsets that are not inside a PSB. False of the code at a PSB, where the segment that ends there is printed, and at the end of a trace without PSB, where an internal error is reported (counterexample theorems)."
  },
  {
   "property": "C74",
   "status": "partial",
   "theorems": [
    "Ipt.Props.C74_tools_partial",
    "Ipt.Props.C74_offset_fails",
    "Ipt.Props.C74_sideband"
   ],
   "note": "Proved for everything but offsets of 2^63 or more without end in the tools; there, a signed subtraction may overflow (counterexample theorem). Allocations of up to the size of the file succeed, and in the sideband library those of 2^63 bytes or more fail."
  },
  {
   "property": "C75",
   "status": "partial",
   "theorems": [
    "Ipt.Props.C75_traced_program_is_shown_partial",
    "Ipt.Props.C75_encoded_program_is_shown_partial",
    "Ipt.Props.C75_long_silence_fails"
   ],
   "note": "Proved for forward synchronization and setting the position, without TRIG events that are counted from address zero, and without transaction aborts on processors with erratum BDM64 (the work-around for it guesses). The work-arounds for SKD022 and SKL014 are covered. False of the code if there are 2^32 or more instructions about which the trace tells nothing (counterexample theorem): the instruction counter overflows."
  },
  {
   "property": "C76",
   "status": "partial",
   "theorems": [
    "Ipt.Props.C76_packet",
    "Ipt.Props.C76_event",
    "Ipt.Props.C76_query_event_partial",
    "Ipt.Props.C76_query_event_small",
    "Ipt.Props.C76_instruction",
    "Ipt.Props.C76_instruction_event_partial",
    "Ipt.Props.C76_block",
    "Ipt.Props.C76_block_event_partial",
    "Ipt.Props.C76_unknown_bytes_fail"
   ],
   "note": "Proved for all sizes and layouts. Unknown bytes: proved for packets, instructions, blocks and the events of an event decoder; false of the code for the events of the other decoders, which leave them as they are (counterexample theorem)."
  },
  {
   "property": "C77",
   "status": "proved",
   "theorems": [
    "Ipt.Props.C77_event_decoder",
    "Ipt.Props.C77_query_decoder",
    "Ipt.Props.C77_instruction_flow_decoder",
    "Ipt.Props.C77_block_decoder",
    "Ipt.Props.C77_event_decoder_memory",
    "Ipt.Props.C77_query_decoder_memory",
    "Ipt.Props.C77_alloc",
    "Ipt.Props.C77_errata_fields"
   ],
   "note": "Offsets and sizes are those of a 64-bit target. What the pointers of the configuration point to is a parameter. That the uninitialized memory of an instruction flow decoder has no influence after synchronizing is C68; C77 gives the fields that are initialized."
  },
  {
   "property": "C78",
   "status": "partial",
   "theorems": [
    "Ipt.Props.C78_get_config_partial",
    "Ipt.Props.C78_get_config_flags_fail",
    "Ipt.Props.C78_block_time_fails"
   ],
   "note": "Proved for the configuration but for its flags, for all kinds of decoders. False of the code for the flags, which are always zero, and for the time and core:bus ratio of a block decoder, which gives zero instead of an error (counterexample theorems)."
  },
  {
   "property": "C79",
   "status": "proved",
   "theorems": [
    "Ipt.Props.C79_tick_events",
    "Ipt.Props.C79_no_change_missed",
    "Ipt.Props.C79_block_tick_events"
   ],
   "note": "Proved for all traces and images. For block decoders, the property does not say where tick events are."
  },
  {
   "property": "C80",
   "status": "partial",
   "theorems": [
    "Ipt.Props.C80_cycles_at_bus_ratio",
    "Ipt.Props.C80_cycles_after_psb",
    "Ipt.Props.C80_cycles_at_mtc_rate",
    "Ipt.Props.C80_never_fast",
    "Ipt.Props.C80_not_ahead_of_mtc",
    "Ipt.Props.C80_uncalibrated_lost",
    "Ipt.Props.C80_cycles_without_tma_partial",
    "Ipt.Props.C80_cycles_dropped_without_tma"
   ],
   "note": "Proved for TSC packets with a TMA packet, and without one if there were no TMA and MTC packets before. For a TSC packet without a TMA packet after MTC packets it is false of the code (C80_cycles_dropped_without_tma). The MTC clause is for a CBR packet with known ratio before the MTC packets, a TMA packet with a fast counter value and a CYC packet of at least 256 cycles between the MTC packets."
  },
  {
   "property": "C81",
   "status": "proved",
   "theorems": [
    "Ipt.Props.C81_last_ratio",
    "Ipt.Props.C81_zero_refused"
   ],
   "note": "Proved for every sequence of timing packets."
  },
  {
   "property": "C82",
   "status": "proved",
   "theorems": [
    "Ipt.Props.C82_event_instructions",
    "Ipt.Props.C82_disabled_without_ip",
    "Ipt.Props.C82_disabled_with_ip"
   ],
   "note": "Proved for the groups of instructions that the theorems on events (C42, C65) use. That events are only given there is C42 and C65."
  },
  {
   "property": "C83",
   "status": "proved",
   "theorems": [
    "Ipt.Props.C83_lines",
    "Ipt.Props.C83_lines_no_sync",
    "Ipt.Props.C83_text"
   ],
   "note": "Proved for all traces and options, without a callback for unknown packets, which ptdump does not have. Only offsets, packets, raw bytes and TNT outcomes are modelled as text. The tracking columns are C84."
  },
  {
   "property": "C84",
   "status": "partial",
   "theorems": [
    "Ipt.Props.C84_last_ip_partial",
    "Ipt.Props.C84_time_partial",
    "Ipt.Props.C84_pieces",
    "Ipt.Props.C84_ip_wrong_after_psb",
    "Ipt.Props.C84_time_differs_skl168",
    "Ipt.Props.C84_time_differs_ovf"
   ],
   "note": "Proved for IPs up to the first PSB or OVF after an IP packet, and for times without erratum SKL168 and without overflows inside PSB+. In the other cases it is false of the code (counterexample theorems): ptdump does not reset the last IP at PSB, it applies a work-around for SKL168 that decoders do not apply, and it continues to treat packets as part of PSB+ after an overflow."
  },
  {
   "property": "C85",
   "status": "proved",
   "theorems": [
    "Ipt.Props.C85_described",
    "Ipt.Props.C85_distinct",
    "Ipt.Props.C85_smallest_int"
   ],
   "note": "The smallest int is excluded by the statement: -status overflows there (C85_smallest_int)."
  },
  {
   "property": "C86",
   "status": "partial",
   "theorems": [
    "Ipt.Props.C86_offset_partial",
    "Ipt.Props.C86_wraps_around"
   ],
   "note": "Proved for every trace and every sequence of calls, except while the last synchronization is a failed pt_evt_sync_backward. There it is false of the code (C86_wraps_around): synchronizing backwards from the only PSB fails, and the offset is then reported as 2^64 - 2. The bound is one byte beyond the end because of the workaround for SKZ84."
  }
 ]
}