# Formal model of intel/libipt in Lean 4

## Method

* The C code in `/repo/libipt/src` is modelled function by function as total,
  computable Lean functions.  Each definition cites the file and lines it models.
* C outcomes are `Res α = ok a | err e | ub`.  `err e` is the library's negative
  error return.  `ub` stands for an operation the C standard leaves undefined (or
  that is plainly a bug): a read or write outside the object, a shift by at least
  the operand width, a division by zero, reading uninitialized memory, a loop that
  does not terminate.  "Memory safe" and "terminates" therefore mean "never `ub`",
  and they are theorems, not assumptions.
* Loops are recursive functions with fuel; running out of fuel is `ub`.  The theorems
  on totality show that this does not happen, or under which conditions it does.
* Trace memory is a list of bytes plus, where the code's behaviour depends on it
  (synchronization), the numeric address of the buffer.  Positions are offsets.
  64-bit integers are naturals with explicit `% 2^64`.
* Decoders are state monads that keep the state on errors, as the C code does; so
  theorems can say what happens to users that go on after an error.
* Where the code does not have a property a user would expect, the negation is
  proved with a concrete witness and the exact condition under which the property
  holds is proved as `..._partial`.
* Specifications that are independent of the model are in `lean/Verif/Spec`, the
  theorems claimed in `MANIFEST.json` in `lean/Verif/Props`, helper lemmas elsewhere.
* `seeded/LOG.jsonl` records the wrong programs the theorems were tested against.

## Plan per property

| id | model | proof |
|---|---|---|
| C01 C02 | packet reader: opcode dispatch, all `pt_pkt_read_*`, errata look-ahead | case analysis over opcodes; every read goes through a bounds-checked `rd` whose failure is `ub` |
| C03 C04 C05 | packet encoder, all packet types | `decode (encode p) = p` by cases on packet type; stream by induction |
| C06 C07 | same | reads characterised by the bytes in the returned range; measure = remaining bytes |
| C08-C11 | word search of pt_sync.c with base address | loop invariants by induction on the remaining words |
| C12 | pt_last_ip.c | arithmetic on `Nat` |
| C13 | pt_tnt_cache.c | refinement to a list of Booleans |
| C14 | pt_retstack.c | refinement to a bounded list |
| C15 | pt_event_queue.c | refinement to a list of (binding, event) |
| C16-C18, C45 | pt_asid.c, pt_config.c, pt_cpu.c | decision logic |
| C19-C21 | pt_time.c | arithmetic, invariants over packet runs |
| C22-C26 | pt_image.c | invariant + refinement to a function of (asid, address) |
| C27 C28 | pt_section*.c | state machine over operations, invariant |
| C29 C30 | pt_image_section_cache.c | state machine over operations, invariant |
| C31 C52 | locking skeletons of the above (`Locks.lean`) | small-step interleaving semantics of any number of threads, ordered-acquisition theorem, lock sets |
| C32-C36 C48 | pt_event_decoder.c | weakest preconditions for each function, invariants over all call sequences |
| C37 C38 C44 C49-C51 | pt_query_decoder.c over the event decoder | invariant that relates the decoder to the list of events delivered so far |
| C39 C40 | pt_ild.c with its tables | abstraction to the bytes read; case analysis over opcodes and modes |
| C41 | pt_insn.c, reading across sections | memory as a partial function (`Spec/Memory.lean`) |
| C42 | pt_insn_decoder.c | simulation by an abstract machine (`Spec/Flow.lean`) |
| C43 | pt_block_cache.c, pt_block_decoder.c | entries as facts about code (`Spec/Block.lean`): invariant of all calls; simulation by the machine of C42 |
| C46 | pt_msec_cache.c | invariant |
| C47 | packet formats (`Spec/Wire.lean`) | the decoder accepts exactly the formats of the specification |
| C53 | pt_ild.c against an independent instruction format specification | case analysis |
| C54 | synchronization of pt_insn_decoder.c | state equality |
| C55 | pevent.c: reading and writing records | encodings as byte strings (`Spec/Pevent.lean`); soundness, completeness and round trip |
| C57 | pt_sb_session.c: decoder lists and events | sessions over arbitrary callbacks with a log of calls; invariant relating the lists to the log |
| C58 | pt_sb_context.c, pt_sb_session.c, pt_sb_pevent.c | contexts on a heap, with use after free as undefined behaviour; ownership invariant over all sequences of calls |
| C59 | pt_sb_pevent.c: applying records | refinement: the table of processes after a record is a function of the record and the table before |
| C60 | pt_sb_pevent.c: context switches | case analysis of records and events over the same invariant |
| C61 | pt_sb_pevent.c: fetching records | invariant of channels: the current record starts at a record boundary; C55 for its content |
| C62 | pt_sb_pevent.c: pt_sb_alloc_pevent_decoder | case analysis; the double free is exhibited |
| C63 | pt_insn_decoder.c, pt_insn.c, pt_msec_cache.c, pt_retstack.c, pt_ild.c | invariant of the decoder over all sequences of calls; termination by bounding the retries and the fuel; the two exceptions are exhibited |
| C64 | pt_block_decoder.c, pt_block_cache.c and what C63 lists | invariant of the decoder over all sequences of calls and writes of other decoders; progress by counting the instructions in a block; the three exceptions are exhibited |
| C65 | pt_block_decoder.c, pt_block_cache.c | simulation by an abstract machine (`Spec/BlockFlow.lean`), whose steps show blocks; entries of the block cache as in C43 |
| C66 | pt_event_decoder.c, pt_event_queue.c | a specification by structural recursion over the packets (`Spec/Events.lean`); simulation: what the decoder is still going to deliver, in each state between packets, between events of one packet and in PSB+; one lemma per packet; the work-arounds for errata as functions of the packets behind the current one |
| C67 | synchronization in pt_event_decoder.c, pt_query_decoder.c | a relation between states that differ in unused fields only (`History.lean`); every function takes related states to related states, with the same result; synchronizing takes arbitrary states to related ones (`HistorySync.lean`) |
| C68 | pt_insn_decoder.c with everything below it | as for C67: states that differ in the stale event, the counter, the unused part of the return stack, the cached section and the order of the image's sections (`HistoryImage.lean`, `HistoryInsn.lean`); the stale event is not used before a new one is read because there is no branch before the first event |
| C69 | mapping, sharing, unmapping, block caches and their users in pt_section.c, pt_section_posix.c, pt_section_file.c, pt_image_section_cache.c, pt_msec_cache.c (`MapThreads.lean`) | small-step interleaving semantics of any number of threads with a heap; a weakest precondition for each function, and an invariant: the map count is the sum of the mappings the threads and the caches are responsible for |
| C70, C71 | reference, map and attach counts and their users in pt_section.c, pt_image.c, pt_image_section_cache.c, pt_msec_cache.c (`RefThreads.lean`) | small-step interleaving semantics of any number of threads; a weakest precondition for each function, and an invariant: each count is the sum of what the threads and the cache are responsible for, and a section that is not in the cache is used by one thread only. For C71, a second invariant: no reference is forgotten; counterexamples where the code does |
| C72 | ptxed/src/load_elf.c | ELF after the System V ABI (`Spec/Elf.lean`); induction over the table of program headers with C22's invariant of images; counterexamples where the code does not check |
| C73 | ptseg/src/ptseg.c | from the lemmas on searching for PSBs of C08 and C09; counterexamples at a PSB and at the end |
| C74 | load_file in the tools, pt_sb_file.c | case analysis with signed and unsigned 64-bit arithmetic; the overflow is exhibited |
| C75 | pt_insn_decoder.c, pt_query_decoder.c | runs of programs and their traces as an inductive predicate (`Spec/Traced.lean`); forward simulation by induction on it; with C05 and C66 from encoded packets on |
| C76 | `*_to_user` and their callers | the user's memory as bytes next to the decoder state; any layout of structures; relation to the functions of the decoders (`Spec/UserStruct.lean`) |
| C77, C78 | `*_decoder_init`, `*_alloc_decoder`, `*_get_config` | configurations as bytes, through all layers (`DecoderInit.lean`, `Spec/NewDecoder.lean`); invariant: all layers agree with the user's configuration but for the flags; with C17 and C67 |
| C79 | pt_insn_tick and its callers in pt_insn_decoder.c, pt_blk_tick and pt_blk_event | invariant over all calls of a user who follows the flags: the decoder's event is the one that was shown last, or a tick event that is about to be shown (`InsnTick.lean`, `BlockTick.lean`, `Spec/Tick.lean`) |
| C80 | pt_time_update_cyc, pt_time_adjust_cyc, pt_tcal_*, pt_evt_apply_* for timing packets | induction over the CYC packets with the rate as invariant; the bounds on the error are stated for the exact rate (`Ticks` in `Props/Cyc.lean`) |
| C81 | pt_time_query_cbr, pt_time_update_*, pt_evt_apply_* for timing packets | induction over the packets (`Props/Cbr.lean`) |
| C82 | pt_insn_is_* / binds_to_* / changes_*, classify of pt_ild.c | the class of an instruction is a function of the instruction, by cases over the decoder; then by cases over the instructions (`Props/InsnKinds.lean`) |
| C83 | dump_sync, dump_packets, dump_one_packet, print_raw, print_tnt_payload | induction over the packets, and over the PSBs; packet sizes from the wire format (`Props/PtdumpLines.lean`, `Spec/Ptdump.lean`) |
| C84 | print_packet, track_* | induction over the packets; counterexamples (`Props/Ptdump.lean`) |
| C85 | pt_errstr, pt_errcode, enum pt_error_code | cases; the texts by evaluation (all 28 of them) (`Props/Errors.lean`) |
| C86 | pt_evt_get_offset over every function of the event decoder that moves it | the invariant that the current packet ends where the packet decoder is, for each function of the event decoder; induction over the calls; counterexample after a failed backward synchronization (`EventOffset.lean`, `Props/EventOffset.lean`) |
| C56 | pevent.c: time conversion | arithmetic: no overflow, Galois-style bounds |

All properties can be expressed in the model.

## What is modelled

| module | code |
|---|---|
| `Basic`, `Packet*`, `Spec/Packet`, `Spec/Wire` | pt_packet.c, pt_packet_decoder.c |
| `Encoder*` | pt_encoder.c |
| `UserStruct*`, `Spec/UserStruct` | copying structures to the user in the decoders: `pkt_to_user`, `insn_to_user`, `block_to_user`, `pt_evt_to_user`, and the functions that use them |
| `Sync*`, `Spec/Sync` | pt_sync.c, synchronization in pt_packet_decoder.c |
| `LastIp`, `TntCache`, `RetStack`, `EventQueue` | pt_last_ip.c, pt_tnt_cache.c, pt_retstack.c, pt_event_queue.c |
| `Asid`, `Config`, `Cpu` | pt_asid.c, pt_config.c, pt_cpu.c, pt_errata in pt_config.c |
| `Time`, `Timing` | pt_time.c (time, calibration) |
| `Image*`, `Spec/Image` | pt_image.c, pt_mapped_section.h |
| `Section` | pt_section.c, pt_section_file.c, posix pt_section_posix.c (as a parameter: mapping may succeed or fail) |
| `ISCache*` | pt_image_section_cache.c |
| `MsecCache` | pt_msec_cache.c |
| `Locks*` | locking in pt_section.c, pt_section_file.c, pt_image_section_cache.c |
| `MapThreads*` | map counts, mappings and block caches of shared sections in pt_section.c, pt_section_posix.c, pt_section_file.c, pt_image_section_cache.c, pt_msec_cache.c, one access at a time |
| `RefThreads*` | reference, map and attach counts of shared sections in pt_section.c, and what pt_image.c, pt_image_section_cache.c, pt_msec_cache.c do with them, one critical section at a time |
| `Event`, `EventDecoder*`, `Spec/Psb` | pt_event_decoder.c |
| `QueryDecoder`, `Query*`, `Spec/Query` | pt_query_decoder.c |
| `Ild*`, `IldTables`, `IldX86*`, `Spec/X86` | pt_ild.c with its generated tables; `Spec/X86` is the encoding of instructions after the architecture manual, in terms of what an encoder writes, and does not refer to the code |
| `Insn*`, `Spec/Memory` | pt_insn.c |
| `InsnDecoder`, `InsnFlow*`, `InsnTick`, `Spec/Flow`, `Spec/Tick` | pt_insn_decoder.c |
| `History`, `HistorySync`, `Spec/History` | lemmas about pt_event_decoder.c and pt_query_decoder.c, and what their users see |
| `HistoryImage`, `HistoryInsn` | lemmas about pt_insn_decoder.c, pt_image.c and pt_msec_cache.c |
| `Complete*`, `Spec/Traced` | lemmas about pt_insn_decoder.c and pt_query_decoder.c |
| `BlockCache`, `BlockDecoder`, `Block*`, `Spec/Block`, `Spec/BlockFlow` | pt_block_cache.c, pt_block_decoder.c |
| `Pevent`, `Pevent*`, `Spec/Pevent` | pevent.c |
| `Sideband`, `Sideband*`, `Spec/Sideband` | pt_sb_session.c: decoders and events |
| `SbContext`, `SbContextInv` | pt_sb_context.c, and the contexts in pt_sb_session.c |
| `SbPevent`, `SbPevent*`, `SbTable`, `Spec/SbPevent` | pt_sb_pevent.c (not: elf_get_abi, what is printed) |
| `LoadElf*`, `Spec/Elf` | ptxed/src/load_elf.c |
| `PtSeg`, `Spec/Segment` | ptseg/src/ptseg.c (not: command line) |
| `DecoderInit`, `Spec/NewDecoder` | the initialization and allocation functions of decoders, `*_get_config` |
| `Ptdump`, `Spec/Ptdump` | ptdump/src/ptdump.c (not: command line, sideband, columns other than offset, raw bytes, TNT, IP, and time) |
| `Errors` | libipt/src/pt_error.c; pt_errcode |
| `LoadFile` | load_file and preprocess_filename in ptxed.c, ptdump.c, ptseg.c (not: parsing numbers); pt_sb_file.c |

Not modelled: memory allocation (allocations succeed unless a definition says
otherwise), files and `mmap` (parameters of the model), pt_version.c,
pt_msec printing, the tools `ptdump`, `ptxed`, `ptseg` but for the parts named above, `pttc`, the Windows parts,
`sideband` but for the parts named above; the layout of user structures, which is a parameter in `UserStruct.lean`;
packet encoder and packet decoder allocation; NULL arguments of accessors;
the decoders' wrappers around user callbacks for memory, which are parameters.

Simplifications are in the comments of the definitions.  The most important ones:
pointers into the trace buffer are offsets, so `pos - size` below the buffer's begin
is `ub` and not a wild pointer; a section is a number, its contents a function; the
configuration does not change during decode; a single user calls the decoder
sequentially; mutexes do not fail.

## Trusted base

* Lean 4.33.0's kernel.
* The axioms `propext`, `Classical.choice`, `Quot.sound`, and no others (see below).
* The reading of C recorded in the comments of the model, and the statements of the
  theorems together with `Spec/`.

Theorems by the axioms they depend on (`#print axioms`):

* no axioms: C27_undisciplined_put_frees_attached, C30_remove_breaks_accounting,
  C56_large_shift_fails, C61_time_wraps, C62_alloc_partial, C74_offset_fails, C85_smallest_int
* `Classical.choice`, `Quot.sound`, `propext`: C01_pkt_next_memory_safe,
  C02_pkt_next_position_errata_partial, C02_pkt_next_position_partial, C03_roundtrip,
  C04_encoder_eos_iff_no_room, C04_encoder_safe_and_atomic, C05_stream_roundtrip,
  C06_decode_is_local, C06_truncation_gives_eos, C07_bounded_number_of_packets,
  C07_decode_terminates, C08_offsets, C08_pkt_sync_forward, C08_sync_forward_complete,
  C08_sync_forward_safe, C08_sync_forward_sound, C08_sync_set, C09_pkt_sync_backward,
  C09_sync_backward_complete, C09_sync_backward_safe, C09_sync_backward_sound,
  C10_sync_forward_enumerates, C10_sync_forward_progress, C10_sync_forward_terminates,
  C11_sync_backward_progress_partial, C12_update_effect, C13_tnt_cache_is_fifo,
  C14_retstack_is_bounded_lifo, C15_event_queue_refines_list, C16_asid_export, C16_asid_import,
  C17_config_import, C18_addr_filter, C18_addr_filter_documented_ranges, C19_psb_tsc_sets_time,
  C20_mtc_run, C22_image_refines, C23_sections_disjoint, C24_failed_add_lookup,
  C24_failed_add_unchanged, C25_image_read, C26_copy_unsplit_partial, C27_attached_to_one_cache,
  C27_image_references, C27_not_freed_while_attached, C27_section_counts, C27_section_refusals,
  C29_add_file, C29_add_file_again, C29_find, C29_isids_stable, C29_lookup, C29_references,
  C31_can_always_finish, C32_event_decoder_total_partial, C34_no_internal_error_partial,
  C35_branches_need_tracing, C35_outcomes_rejected, C36_status_after_sync, C36_status_at_psb,
  C37_events_wait, C37_granted, C37_in_order_partial, C37_nothing_lost, C37_refused,
  C38_deferred_orderly, C38_deferred_partial, C38_reported_and_sticky, C39_bytes_behind,
  C39_depends_on_instruction_only, C39_error, C39_incomplete, C39_reads_inside_partial, C39_size,
  C40_direct_complete, C40_direct_sound, C40_jmpabs, C40_next_ip, C41_fetch_image,
  C41_fetch_sound_partial, C41_fetch_split, C42_follows_program, C42_successive, C42_trace,
  C43_block, C43_entries, C43_whole_sections, C44_refused_changes_nothing_partial, C45_cpu_parse,
  C45_cpu_parse_accepts, C45_cpu_parse_too_lenient, C46_address_space, C46_cached_bytes,
  C46_cached_instruction, C46_cached_lookup, C47_decode_exact, C47_delivered_in_range,
  C47_unambiguous, C48_overflow_without_ip_disables_partial, C50_nosync,
  C50_query_decoder_total_partial, C51_status_flags, C51_sync_flags_partial,
  C53_instruction_partial, C53_x86, C55_read_complete, C55_read_sound, C55_roundtrip,
  C56_time_tsc_time, C56_tsc_time_tsc, C57_dump, C57_event, C57_init, C57_order, C57_sorted,
  C58_alive, C58_calls, C58_free, C58_image, C58_unique, C59_reported, C59_table, C60_errors,
  C60_events, C60_records, C61_next, C61_record, C61_time_partial, C63_insn_decoder_total_partial,
  C64_block_decoder_total_partial, C65_follows_program_partial, C66_encoded_packets,
  C66_events_follow_packets, C66_events_from_offset, C66_instructions_follow_packets,
  C66_queries_follow_packets, C68_insn_decoder_forgets_partial, C69_counts, C69_nothing_left,
  C69_stays_mapped, C70_counts, C70_free_cache_fails, C70_not_freed, C71_bad_asid_leaks,
  C71_nothing_left_partial, C72_loaded_partial, C72_result_partial, C73_segment_partial,
  C74_sideband, C74_tools_partial, C75_encoded_program_is_shown_partial,
  C75_traced_program_is_shown_partial, C77_alloc, C77_block_decoder, C77_event_decoder,
  C77_instruction_flow_decoder, C77_query_decoder, C78_get_config_flags_fail,
  C78_get_config_partial, C79_no_change_missed, C79_tick_events, C80_cycles_after_psb,
  C80_cycles_at_mtc_rate, C80_never_fast, C80_not_ahead_of_mtc, C83_lines, C83_lines_no_sync,
  C83_text, C84_last_ip_partial, C86_offset_partial
* `Quot.sound`, `propext`: C04_encoder_sync_set, C12_decompress_inverse, C12_ip_history,
  C13_tnt_add_defined, C16_asid_match_refl_symm, C20_mtc_monotone, C20_no_ratio_not_counted,
  C21_mtc_freq_not_validated, C21_timing_defined, C22_remove_one,
  C22_shared_section_hidden_everywhere, C22_unknown_space_depends_on_order, C26_copy_split_wrong,
  C28_file_map_within, C28_map_defined, C28_mk_section, C28_section_read, C30_evicted_unmapped,
  C30_limit, C30_no_mapping_lost, C31_no_deadlock, C31_unlocks_paired, C37_indirect_reorders,
  C38_indirect_reports_early, C44_cond_changes_time, C44_indirect_changes, C45_cpu_errata,
  C45_errata_by_processor, C46_cache_references, C49_no_start_ip, C49_start_ip_is_enabled,
  C52_link_writes_exclusive, C52_race_free_partial, C53_vmclear_fails, C54_forward_set,
  C55_read_safe, C55_write_complete, C55_write_safe, C55_write_sound, C56_from_tsc,
  C56_from_tsc_mono, C56_to_tsc, C56_to_tsc_mono, C62_alloc_double_free, C67_event_decoder_forgets,
  C67_query_decoder_forgets, C76_block, C76_block_event_partial, C76_event, C76_instruction,
  C76_instruction_event_partial, C76_packet, C76_query_event_partial, C76_unknown_bytes_fail,
  C77_errata_fields, C77_event_decoder_memory, C77_query_decoder_memory, C79_block_tick_events,
  C80_cycles_at_bus_ratio, C80_cycles_without_tma_partial, C80_uncalibrated_lost, C84_pieces,
  C84_time_partial, C85_described, C85_distinct
* `propext`: C02_skd007_position_not_size, C02_skz84_position_behind_end,
  C03_cyc_too_big_is_encoded, C04_encoder_refuses_reserved_ipc, C07_zero_size_callback_loops,
  C08_sync_forward_at_end_is_internal, C11_evt_sync_backward_hangs, C11_sync_backward_stuck,
  C16_asid_match, C19_no_tsc_no_time, C19_tsc_sets_time, C20_mtc_after_cyc_moves_back,
  C25_map_error, C32_zero_size_callback_hangs, C33_no_tick, C34_internal_error_apl12,
  C34_internal_error_at_cfe, C34_internal_error_at_tip, C35_not_after_errors, C37_synchronized,
  C37_synchronized_own, C39_overread, C42_skips_outcomes, C43_cut_branch_fails,
  C43_end_on_jump_fails, C43_stale_mode_fails, C48_suppressed_overflow_enables,
  C48_suppressed_overflow_enables_skd010, C49_backward_moves_back, C49_backward_no_flags,
  C49_start_ip_partial, C49_sync_reports_later_error, C49_wrong_start_ip,
  C50_qry_sync_backward_hangs, C52_iscache_pointer_race, C54_backward_differs, C55_roundtrip_fails,
  C56_no_config, C60_event_secondary, C60_secondary, C63_backward_stuck, C63_hangs, C63_overread,
  C64_end_of_trace, C64_hangs, C64_overread, C64_uninitialized, C65_backward_flags,
  C65_skl014_end_on_jump, C65_suppressed_target, C66_invalid_after_overflow,
  C68_ambiguous_image_fails, C72_entry_size_fails, C72_partly_loaded_fails, C73_at_end_fails,
  C73_at_psb_fails, C75_long_silence_fails, C76_query_event_small, C78_block_time_fails,
  C80_cycles_dropped_without_tma, C81_last_ratio, C81_zero_refused, C82_disabled_with_ip,
  C82_disabled_without_ip, C82_event_instructions, C84_ip_wrong_after_psb, C84_time_differs_ovf,
  C84_time_differs_skl168, C86_wraps_around

## Findings

Where the code does not do what its documentation or comments say, or what a user
would expect.  Those with a theorem are proved about the model; the others were found
while modelling.

### Packets, synchronization
* SKZ84 work-around: size 8 is used without checking the buffer's end; the position may
  end up behind the end, afterwards pt_pkt_sync_backward gives -pte_internal
  (`C02_skz84_position_behind_end`).  SKD007: the position moves by 3 although the size is 2
  (`C02_skd007_position_not_size`).
* The encoder accepts CYC values that the decoder refuses (`C03_cyc_too_big_is_encoded`).
* A callback for unknown packets that returns zero makes the decoders hang
  (`C07_zero_size_callback_loops`, `C32_zero_size_callback_hangs`).
* With adjacent PSBs pt_pkt_sync_backward returns the same PSB again; pt_evt_sync_backward
  and pt_qry_sync_backward do not terminate (`C11_sync_backward_stuck`,
  `C11_evt_sync_backward_hangs`, `C50_qry_sync_backward_hangs`).
* pt_pkt_sync_set to the end of the buffer and then pt_pkt_sync_forward gives -pte_internal
  (`C08_sync_forward_at_end_is_internal`).
* pt_evt_sync_set to an offset where SKZ84 applies gives -pte_internal.

### Configuration, time
* The reserved words of the address filter configuration count as four more ranges; unknown
  range types are ignored (`C18_addr_filter`).
* mtc_freq is not validated; frequencies of 24 and more are undefined shifts
  (`C21_mtc_freq_not_validated`).
* pt_cpu_parse accepts white space, signs and a dangling separator (`C45_cpu_parse_too_lenient`).
* MTC packets that cannot be converted are not counted as lost (`C20_no_ratio_not_counted`); a
  CYC estimate that overshoots lets the next MTC move time backwards
  (`C20_mtc_after_cyc_moves_back`).
* pt_time_update_tsc resets ctc but not ctc_cyc.  After a TSC packet without a TMA packet, the next
  CYC packet is taken to include an MTC period that ended before the TSC packet, and its cycles
  are dropped without being reported as lost (`C80_cycles_dropped_without_tma`).
* pt_tcal_update_psb (SKL168) is not called by the library's decoders, only by ptdump, which then shows different times
  (`C84_time_differs_skl168`).
* ptdump --lastip does not reset the last IP at PSB (and OVF): compressed IPs in PSB+ are shown wrong
  (`C84_ip_wrong_after_psb`).
* ptdump takes packets after an overflow inside PSB+ as part of PSB+ until the next PSBEND (`C84_time_differs_ovf`).
* pt_errcode negates its argument, which is undefined for the smallest int; a callback for unknown packets can make pt_pkt_next
  return it (`C85_smallest_int`).
* The check for truncation in ptdump's print_raw has no effect as snprintf returns the length without truncation; the buffer is
  large enough only because no packet has more than 16 bytes (`C83_lines`).

### Images, sections, caches
* Adding a section to one address space hides shared sections for all others
  (`C22_shared_section_hidden_everywhere`); lookups with unknown cr3 depend on the list order
  (`C22_unknown_space_depends_on_order`).
* pt_image_copy adds the full file section at the address of a split section
  (`C26_copy_split_wrong`).
* Sections that reach 2^64 cannot be read.
* pt_section_put does not check the attach count (`C27_undisciplined_put_frees_attached`).
* pt_iscache's LRU removal does not subtract from the used size (`C30_remove_breaks_accounting`);
  an overflow in lru_new leaves the entry linked; lru_free stops at the first error.
* pt_section_on_map reads the pointer to the cache without lock (`C52_iscache_pointer_race`).
  A map notification between clearing the LRU list and detaching in pt_iscache_clear adds the
  section again to the list of a cache that is freed.
* The comment at pt_section's on-map lock says that there may be a deadlock; there is none
  (`C31_no_deadlock`).

### Event decoder
* -pte_internal for MWAIT or EVD; FUP; TIP, for FUP; FUP; TIP (a stale pointer to an event),
  for EVD; CFE of a reserved type, and with the APL12 work-around for an unknown packet between
  OVF and FUP (`C34_internal_error_at_tip`, `C34_internal_error_at_cfe`,
  `C34_internal_error_apl12`).
* MODE.EXEC; TIP.PGD gives -pte_bad_context.
* An overflow whose FUP has no IP enables tracing although the event says that it is disabled
  (`C48_suppressed_overflow_enables`).  With the SKD010 work-around, so does one followed by a
  TIP without IP (`C48_suppressed_overflow_enables_skd010`).
* After an overflow the status stays -pte_nosync; an invalid packet in the sense of SKZ84 then
  makes all later calls fail (`C66_invalid_after_overflow`).
* After an error, going on may deliver branch outcomes while tracing is disabled
  (`C35_not_after_errors`) or -pte_internal.
* The search for a FUP behind an overflow overflows an int with 2 GB of trace.
* The documentation says that MNT in a header is a status update; it is not marked so.

### Query decoder
* pt_qry_indirect_branch does not check that there are no branch outcomes left: it hands out a
  later target (`C37_indirect_reorders`) or a later error first (`C38_indirect_reports_early`),
  and a refused call changes the decoder (`C44_indirect_changes`).
* A refused pt_qry_cond_branch changes the time (`C44_cond_changes_time`).
* pt_qry_start looks at the first event of a following header and takes its IP for the start
  (`C49_wrong_start_ip`); errors behind the header make synchronization fail
  (`C49_sync_reports_later_error`).
* pt_qry_sync_backward returns zero, not the status flags (`C49_backward_no_flags`), and may skip
  a PSB.

### Instructions
* The REX2 prefix handling reads one byte behind the array (`C39_overread`); reachable by
  fifteen readable bytes of which the last but one is 0xd5.
* The check for a changed instruction size in pt_insn_decode is dead code (`C39_error`).
* set_branch_target does unaligned typed loads.
* VMCLEAR (66 0f c7 /6) and VMXON (f3 0f c7 /6) are taken for VMPTRLD, as the mandatory prefix is
  not looked at (`C53_vmclear_fails`).  The flow decoders then wait for a VMCS event there.

### Instruction flow decoder
* pt_insn_sync_backward relies on the status flags pt_qry_sync_backward does not return: it takes
  tracing for enabled, and does not deliver the status events (`C54_backward_differs`).
* An indirect branch in the program takes the next target even if there are outcomes before it
  in the trace (`C42_skips_outcomes`).
* Compressed returns with a not-taken bit give -pte_bad_retcomp, an empty return stack
  -pte_retstack_empty although the header documents -pte_noip.
* Errors of the conditional branch query for a return are dropped.
* pt_insn_process_async_branch uses the destination without checking that it is suppressed.
* An error of the address filter counts as leaving the filtered region (SKL014).
* Status updates that say that tracing is enabled are marked as resumed after synchronization.
* A TRIG event that waits while an anchor is passed is never delivered: its location is not
  updated.
* pt_insn_tick relies on an event having been fetched before.  This is so, but only because no branch can be
  queried before the first event (C63 proves it).
* After pt_insn_sync_backward, events are neither indicated nor can they be fetched, and the decoder cannot get
  beyond the first branch (`C63_backward_stuck`).
* The decoder reads a sixteenth byte of an instruction (`C63_overread`).
* pt_blk_next reads an uninitialized instruction if the user's read memory callback fails with -pte_bad_query on the way to
  a disabled event: pt_blk_proceed_event takes this for a branch that needs trace (`C64_uninitialized`).
* pt_blk_next returns -pte_bad_query ("the decoder got out of sync") at the end of the trace, when it needs trace, where its
  documentation promises -pte_eos and pt_insn_next returns -pte_eos (`C64_end_of_trace`).
* If pt_insn_next fails at a branch, the decoder goes on behind the branch in the next call.
* Calling pt_insn_next while an event is pending (which the documentation forbids) may execute a
  postponed instruction twice.

### Block decoder
* Block cache entries are used without comparing their execution mode with the decoder's
  (`C43_stale_mode_fails`); filling the cache in the other mode gives -pte_internal.
* Block cache entries depend on the flags of the decoder that added them
  (`C43_end_on_jump_fails`).
* Block cache entries are used for branches that are not completely in the section any more
  (`C43_cut_branch_fails`); if such a conditional branch is taken, -pte_bad_insn.
* A deferred TIP for an indirect branch, that is one behind outcomes that were not taken, is used without checking that its IP
  is suppressed.  The decoder then goes to address zero (`C65_suppressed_target`).
* At the end of the trace, pt_blk_next returns -pte_bad_query rather than -pte_eos if it needs
  trace.
* pt_blk_proceed_to_trig with tracing disabled returns -pte_internal if there is *no* instruction
  count; this looks inverted.
* pt_blk_time never returns -pte_no_time, and pt_blk_core_bus_ratio never -pte_no_cbr, although
  documented.  Omitting lost_mtc or lost_cyc gives -pte_invalid although they are optional.
* With end_on_call or end_on_jump, the SKL014 workaround indicates the disabled event at the
  first branch, even if it stays in the filtered region: instructions are missing (`C65_skl014_end_on_jump`).
* pt_blk_sync_backward returns zero and not the status flags (`C65_backward_flags`).
* An event for a vmentry, iret, uiret or ptwrite instruction with a location does not bind to an instruction that was postponed
  for another event: pt_blk_proceed_trailing_event looks only at events without a location.  The decoder then goes on and looks
  for the location in vain.
* pt_blk_next walks through instructions while tracing is disabled, if an event with a location is pending.
* If an instruction that is not a branch disables tracing (writing CR3, or a direct branch with SKL014), the address at which
  the decoder expects it to resume is that of the instruction itself.
* A disabled event that follows a postponed instruction is processed without regard to status_update; if tracing is disabled
  already, the expected address is overwritten.
* If outcomes were used for an instruction that was postponed, or if tick events are enabled, the decoder may go on beyond an
  event that is next in the trace, until it needs the trace (`late` in Spec/Flow.lean).
* If a block is full, end_ip is the address behind the block, not of its last instruction
  (`EndsAt` and `Ends` in Spec/Block.lean leave it open).

### Perf event records
* The last eight bytes of a record are taken for its identifier although the record may not have
  one (`C55_roundtrip_fails`).
* time_shift is not checked: shifts above 32 give wrong results, shifts of 64 and more are undefined
  (`C56_large_shift_fails`).
- pt_sb_alloc_pevent_decoder: pt_sb_pevent_init frees the private data if a path is too long (pt_sb_pevent.c:283-360), and its
  caller frees it again (`C62_alloc_double_free`).
- pt_sb_pevent_fetch: the code that is meant to keep negative time offsets from wrapping around cannot be reached; the time wraps
  around (`C61_time_wraps`).
- pt_sb_pevent_map: a file name that, with sysroot, does not fit into FILENAME_MAX characters is cut, and another file may be
  mapped; `C59_table` has the hypothesis that it fits.
- pt_sb_pevent_map: every file whose name contains ` (deleted)` anywhere is ignored, not just at the end (`fileFor` says so).
- pt_sb_pevent_apply: after an event that does not have an address the location is unknown, and a pending switch is done even if
  user code is executed (`C60_events` says so).
- pt_sb_pevent_fork: the child does not inherit its parent's ABI, so that a vdso that was mapped before is not found again
  (`Says.effect` says so).
- pt_sb_event: a decoder that has failed is kept until the session is freed, while the documentation says it is freed.  Without an
  error notifier, errors from applying a record are dropped and the decoder is kept in use.
- pt_sb_pevent_error: the reported offset is relative to the part of the file that has been loaded.
* pev_write leaves the four reserved bytes behind the processor as they were in the buffer.
* pev_write checks the sample type after writing the header and the record, so the buffer is
  changed although it returns -pte_bad_config.
* A process without a thread is not written, and no error is given.
* After synchronization without a PIP, instructions are read from whichever section was used last if sections of
  different processes overlap, so the result depends on what was decoded before (`C68_ambiguous_image_fails`).
* C71: `pt_image_add_cached` gets a reference from `pt_iscache_lookup` and returns without dropping it if
  `pt_asid_from_user` fails (pt_image.c:617-623).  The section is never freed.
* C70: `pt_iscache_free` is not safe while another thread is inside a function that trims the cache
  (`pt_iscache_notify_map`, called by mapping a section, or `pt_iscache_set_limit`).  That thread has removed a section from
  the list of recently used ones and unmaps it after unlocking the cache.  In between, `pt_section_put` in `pt_iscache_clear`
  finds the section mapped and fails, the section leaks, and the remaining sections stay attached to the cache that is
  then freed.
* C72: `load_elf` ignores `e_phentsize` and reads the table of program headers as if entries had the size of the structure
  (`C72_entry_size_fails`).  It ignores the byte order in `e_ident`, too.
* C72: without load address, `load_elf` fails after having loaded some segments if the table of program headers is cut off
  (`C72_partly_loaded_fails`).  A segment that cannot be loaded is only warned about.  A load address of zero means none.
* C73: for the offset of a PSB, `ptseg` prints the segment that ends there instead of the one that begins there; at the end of a
  trace without PSB, it reports an internal error.
* C74: `load_file` checks that an offset can be converted to `long` by converting it back, which always succeeds.  Offsets of
  2^63 or more become negative, and computing the size of the rest of the file overflows for some (`C74_offset_fails`).
  For others, `fseek` fails later.
* C75: `pt_insn_update_trig` counts instructions since the trace last told the address, for TRIG events.  The counter has
  32 bits, and decoding fails with `pte_overflow` when it wraps, also if there are no TRIG events
  (`C75_long_silence_fails`).  An endless loop of a direct jump produces no packets, and after 2^32 iterations it cannot be
  decoded any more.
* C76: `pt_pkt_next`, `pt_evt_next`, `pt_insn_next` and `pt_blk_next` zero out the part of the user's structure they do not
  know about.  `pt_qry_event`, `pt_insn_event` and `pt_blk_event` do not (`C76_unknown_bytes_fail`).  Of these, only
  `pt_qry_event` refuses sizes that do not even cover the type of the event; the others drop the event silently.
* C78: `pt_insn_get_config` and the others return the configuration of the packet decoder at the bottom, in which the flags
  are always zero: a user cannot ask a decoder for its options (`C78_get_config_flags_fail`).
* C78: `pt_blk_time` and `pt_blk_core_bus_ratio` are documented to return `pte_no_time` and `pte_no_cbr`, like the functions
  of the other decoders, but never do (`C78_block_time_fails`).  `pt_blk_time` also requires `lost_mtc` and `lost_cyc`, which
  may be NULL according to the documentation.
* C86: `pt_evt_sync_backward` moves the packet decoder to a PSB, starts there, and looks further back if that ended at or after
  where it started from.  If there is no earlier PSB it fails, with the packet decoder at the PSB but the size of the packet read
  last, which `pt_evt_reset` does not clear.  `pt_evt_get_offset` subtracts one from the other: for a trace with a single PSB at its
  beginning it succeeds and gives 2^64 - 2 (`C86_wraps_around`).  `pt_insn_get_offset` and `pt_blk_get_offset` pass it on.
