{"id": "C01", "title": "Packet decode never touches memory outside the trace buffer", "statement": "pt_pkt_next, started at any position inside the buffer [config.begin, config.end], reads only bytes of that buffer, whatever the buffer contains and whichever errata workarounds are enabled; malformed or truncated input is answered by a negative error code, never by an out-of-bounds read or another undefined operation.", "quantifier": "every trace buffer content, every buffer length, every position in the buffer, every errata configuration", "why_tests_cant": "a test supplies finitely many byte strings; an over-read shows only for the one truncation/opcode combination that triggers it", "anchors": ["libipt/src/pt_packet_decoder.c:pt_pkt_next", "libipt/src/pt_packet.c:pt_pkt_read_*"]}
{"id": "C02", "title": "Each decoded packet advances the position by its own size and stays in the buffer", "statement": "On success pt_pkt_next returns the packet's size n, n is positive (for every packet not supplied by the user's unknown-packet callback), the new position is the old position plus n, and the new position is still within the buffer. On error the position does not change.", "quantifier": "every buffer, position and errata configuration", "why_tests_cant": "the claim is about all byte strings including truncated tails; sampling cannot exclude a position past the end (and one such path exists, see DESIGN.md)", "anchors": ["libipt/src/pt_packet_decoder.c:pt_pkt_next", "libipt/src/pt_packet_decoder.c:pt_pkt_decode_tma"]}
{"id": "C03", "title": "Packet encode/decode round trip", "statement": "For every packet value that is representable in its packet format, pt_enc_next followed by pt_pkt_next at the same position returns an equal packet of the same type, the decoder consumes exactly the bytes the encoder produced, and both report the same size.", "quantifier": "every packet type and every representable payload value, encoded at any position of any buffer with enough room, whatever the surrounding bytes", "why_tests_cant": "payload spaces are up to 2^64 values per packet type; tests pick literals", "anchors": ["libipt/src/pt_encoder.c:pt_enc_next", "libipt/src/pt_packet_decoder.c:pt_pkt_next"]}
{"id": "C04", "title": "The encoder never writes outside its buffer and fails atomically", "statement": "pt_enc_next writes exactly the bytes of the encoded packet at its current position and nothing else; if there is not enough room it returns -pte_eos; on every error neither the buffer nor the encoder position changes.", "quantifier": "every packet value (valid or not), every buffer, every position", "why_tests_cant": "requires checking all packet kinds against all remaining-space values and all invalid payloads", "anchors": ["libipt/src/pt_encoder.c:pt_enc_next", "libipt/src/pt_encoder.c:pt_reserve"]}
{"id": "C05", "title": "Packet streams round trip", "statement": "Encoding any finite sequence of representable packets with pt_enc_next and then decoding the resulting buffer with repeated pt_pkt_next from its start yields exactly the same sequence of packets followed by -pte_eos.", "quantifier": "every finite packet sequence, any length", "why_tests_cant": "unbounded sequences; an error needs one packet's bytes to be read as part of its neighbour", "anchors": ["libipt/src/pt_encoder.c", "libipt/src/pt_packet_decoder.c"]}
{"id": "C06", "title": "Packet decode is local", "statement": "With the look-ahead errata workarounds off, the result of a successful pt_pkt_next depends only on the bytes of the packet it returns: any other buffer that holds the same bytes at the position gives the same packet and size; and cutting the buffer anywhere inside the packet turns the success into -pte_eos.", "quantifier": "every pair of buffers agreeing on the packet's bytes, every cut point", "why_tests_cant": "quantifies over all contexts a packet can appear in", "anchors": ["libipt/src/pt_packet_decoder.c:pt_pkt_next", "libipt/src/pt_packet.c"]}
{"id": "C07", "title": "Packet decoding of a finite buffer terminates", "statement": "Starting anywhere in the buffer, repeatedly calling pt_pkt_next reaches an error return after at most (buffer size) successful calls, provided the unknown-packet callback never reports size zero.", "quantifier": "every buffer and start position", "why_tests_cant": "a liveness claim over all inputs; a test that terminates says nothing about another input", "anchors": ["libipt/src/pt_packet_decoder.c:pt_pkt_next"]}
{"id": "C08", "title": "Forward synchronization is sound and complete", "statement": "pt_pkt_sync_forward/pt_sync_forward succeed only at an offset where a complete 16-byte PSB lies inside the buffer at or after the search start; they return -pte_eos if and only if there is no PSB at or after the search start; and every PSB skipped by a successful search belongs to the same uninterrupted PSB pattern run as the one found. The search never reads outside the buffer.", "quantifier": "every buffer content, length, memory alignment and start position", "why_tests_cant": "the search works on aligned 64-bit words, so the outcome depends on content x alignment x start; tests cover a few alignments", "anchors": ["libipt/src/pt_sync.c:pt_sync_forward", "libipt/src/pt_sync.c:pt_find_psb", "libipt/src/pt_packet_decoder.c:pt_pkt_sync_forward"]}
{"id": "C09", "title": "Backward synchronization is sound and complete", "statement": "pt_sync_backward succeeds only at a complete PSB inside the buffer, never reads outside the buffer, and returns -pte_eos only if no PSB ends at or before the aligned search start.", "quantifier": "every buffer content, length, memory alignment and start position", "why_tests_cant": "same as C08", "anchors": ["libipt/src/pt_sync.c:pt_sync_backward", "libipt/src/pt_packet_decoder.c:pt_pkt_sync_backward"]}
{"id": "C10", "title": "Repeated forward synchronization makes progress and enumerates synchronization points", "statement": "After a successful pt_pkt_sync_forward the next one either fails or moves to a strictly larger offset, so iterating it over any buffer terminates; in a buffer whose PSBs are not adjacent the iteration visits every PSB exactly once in order.", "quantifier": "every buffer and every number of iterations", "why_tests_cant": "induction over an unbounded number of synchronization points", "anchors": ["libipt/src/pt_packet_decoder.c:pt_pkt_sync_forward"]}
{"id": "C11", "title": "Backward synchronization makes progress", "statement": "pt_pkt_sync_backward from a PSB moves to a strictly smaller offset or fails, and the loops in pt_evt_sync_backward and pt_qry_sync_backward terminate.", "quantifier": "every buffer, position and alignment", "why_tests_cant": "non-termination on particular inputs cannot be excluded by running other inputs", "anchors": ["libipt/src/pt_packet_decoder.c:pt_pkt_sync_backward", "libipt/src/pt_event_decoder.c:pt_evt_sync_backward"]}
{"id": "C12", "title": "IP reconstruction is the inverse of IP compression", "statement": "Updating the last IP with an IP packet gives: suppressed - no IP reported but the base is kept; 16/32/48 bit update - low bits replaced, high bits kept from the last IP; 48 bit sign-extended - sign extension of bit 47; full - the payload. Hence for every last IP and every new IP that a compression mode can express relative to it, compressing and updating reconstructs exactly the new IP; updating twice with the same packet equals updating once.", "quantifier": "every last IP state, every IP and every compression mode", "why_tests_cant": "2^64 x 2^64 combinations", "anchors": ["libipt/src/pt_last_ip.c:pt_last_ip_update_ip", "libipt/src/pt_last_ip.c:pt_last_ip_query"]}
{"id": "C13", "title": "The TNT cache delivers branch outcomes exactly once, in trace order", "statement": "pt_tnt_cache behaves as a FIFO of branch outcomes: after any sequence of adds and queries, queries return the outcomes in the order the processor recorded them; an add that would not fit is refused and leaves the cache unchanged.", "quantifier": "every sequence of add/query operations with every payload", "why_tests_cant": "unbounded histories", "anchors": ["libipt/src/pt_tnt_cache.c"]}
{"id": "C14", "title": "The return stack is a bounded LIFO that forgets only the oldest entries", "statement": "After any sequence of pushes, pops and re-initializations, pt_retstack_pop returns the most recent not yet popped return address as long as it is among the 64 most recent pending pushes, and -pte_retstack_empty otherwise; overflow silently drops the oldest entry.", "quantifier": "every sequence of push, pop, init and is_empty operations", "why_tests_cant": "unbounded histories with wrap-around of the ring indices", "anchors": ["libipt/src/pt_retstack.c", "libipt/internal/include/pt_retstack.h"]}
{"id": "C15", "title": "The event queue is a FIFO per binding and never loses or corrupts a pending event", "statement": "After any sequence of enqueue/dequeue/requeue operations, dequeuing for a binding mask returns the oldest pending event whose binding intersects the mask, all other pending events keep their relative order, enqueue fails only when 14 events are pending, and the event returned by the last dequeue is not overwritten by later enqueues.", "quantifier": "every sequence of queue operations with every binding mask", "why_tests_cant": "unbounded histories over a ring buffer with removal from the middle", "anchors": ["libipt/src/pt_event_queue.c"]}
{"id": "C16", "title": "ASID matching", "statement": "pt_asid_match treats unset cr3/vmcs as wildcards and compares all others for equality; it is reflexive and symmetric; structure versions of different sizes are read without touching bytes beyond the user's size.", "quantifier": "every pair of address-space identifiers, every user structure size", "why_tests_cant": "2^256 pairs", "anchors": ["libipt/src/pt_asid.c"]}
{"id": "C17", "title": "Configuration import is size-safe", "statement": "pt_config_from_user accepts a user configuration iff its size covers the mandatory prefix and the buffer pointers are sane; it reads only the user's size bytes; every field beyond the user's size reads as zero in the imported configuration.", "quantifier": "every user size, every content", "why_tests_cant": "all structure sizes of older and newer callers", "anchors": ["libipt/src/pt_config.c:pt_config_from_user"]}
{"id": "C18", "title": "Address filter decision", "statement": "pt_filter_addr_check returns 0 for an address inside any configured stop range, otherwise 1 if it lies in some configured filter range or if no filter range is configured, otherwise 0; ranges are inclusive on both ends; ranges of any other type have no effect.", "quantifier": "every filter configuration and every 64-bit address", "why_tests_cant": "2^64 addresses x all range configurations", "anchors": ["libipt/src/pt_config.c:pt_filter_addr_check"]}
{"id": "C19", "title": "TSC packets set the time exactly", "statement": "After a TSC packet, and until the next time-changing packet, pt_time_query_tsc reports exactly the packet's value with zero lost counts; without any TSC the query fails with -pte_no_time.", "quantifier": "every prior timing state and every packet payload", "why_tests_cant": "all histories of timing packets", "anchors": ["libipt/src/pt_time.c:pt_time_update_tsc", "libipt/src/pt_time.c:pt_time_query_tsc"]}
{"id": "C20", "title": "MTC packets advance time by the elapsed crystal clock", "statement": "Between consecutive MTC packets the reported time never moves backwards, a run of MTCs advances the estimate by the crystal-clock ticks between them scaled by the TSC/CTC ratio up to truncation of less than one unit per packet, and losses are counted when the configuration cannot convert.", "quantifier": "every run of MTC packets, every valid ratio configuration", "why_tests_cant": "unbounded runs with 8-bit counter wrap-around", "anchors": ["libipt/src/pt_time.c:pt_time_update_mtc", "libipt/src/pt_time.c:pt_time_update_tma"]}
{"id": "C21", "title": "Timing arithmetic has no undefined operation", "statement": "For every valid configuration the timing and calibration updates perform no division by zero and no shift by an amount not smaller than the operand width.", "quantifier": "every configuration, timing state and packet", "why_tests_cant": "needs all configuration values, including out-of-range mtc_freq", "anchors": ["libipt/src/pt_time.c"]}
{"id": "C22", "title": "Image lookups refine an address-space map", "statement": "After any sequence of section adds and removes, looking up an address in a concrete address space yields the most recently added section that covers it (with the matching offset and isid), or nothing if none does, where an add takes over its range from every earlier section whose address space matches (wildcards match everything), also for the address spaces the new section is not part of; the result does not depend on the internal order of the image's section list, which changes on every lookup.", "quantifier": "every history of adds/removes/lookups with arbitrary overlapping ranges and address spaces", "why_tests_cant": "splitting and shrinking of overlapping sections depends on the whole history", "anchors": ["libipt/src/pt_image.c:pt_image_add", "libipt/src/pt_image.c:pt_image_fetch_section", "libipt/src/pt_image.c:pt_image_find"]}
{"id": "C23", "title": "Image sections of one address space never overlap", "statement": "In every reachable image any two sections whose address spaces match cover disjoint address ranges.", "quantifier": "every history of image operations", "why_tests_cant": "an invariant over all histories", "anchors": ["libipt/src/pt_image.c:pt_image_add"]}
{"id": "C24", "title": "Failed image operations leave the image as it was", "statement": "pt_image_add that fails (out of memory, reference count overflow) leaves the set of mapped sections unchanged and leaks no section reference.", "quantifier": "every image state and every failure point", "why_tests_cant": "every allocation in the loop may fail independently", "anchors": ["libipt/src/pt_image.c:pt_image_add"]}
{"id": "C25", "title": "Image reads return the mapped bytes and nothing else", "statement": "pt_image_read returns a prefix of the bytes that the abstract map assigns to consecutive addresses starting at the requested one, truncated at the end of the section; on no mapping it defers to the user's read callback or returns -pte_nomap.", "quantifier": "every image, address, size and address space", "why_tests_cant": "all overlap/truncation combinations", "anchors": ["libipt/src/pt_image.c:pt_image_read", "libipt/internal/include/pt_mapped_section.h"]}
{"id": "C26", "title": "Copying an image preserves its contents", "statement": "pt_image_copy into an empty image makes every lookup in the copy agree with the same lookup in the source.", "quantifier": "every source image", "why_tests_cant": "depends on how the source's sections were split by its history (the claim fails for split sections, see DESIGN.md)", "anchors": ["libipt/src/pt_image.c:pt_image_copy"]}
{"id": "C27", "title": "Section reference counting is exact", "statement": "A section object is freed exactly when its last user reference is dropped, never while it is mapped or attached provided every holder of a mapping or attachment keeps a reference, and count overflow is reported as an error instead of wrapping.", "quantifier": "every sequence of get/put/attach/detach/map/unmap operations", "why_tests_cant": "unbounded histories around 16-bit counter limits", "anchors": ["libipt/src/pt_section.c"]}
{"id": "C28", "title": "Section reads stay inside the section", "statement": "pt_section_read returns only bytes of the file range [offset, offset+size) the section was created for, truncates at its end, and fails with -pte_nomap beyond it; a section created with a size larger than the file is truncated to the file.", "quantifier": "every file size, section offset/size, read offset and length", "why_tests_cant": "64-bit offset arithmetic with wrap-around", "anchors": ["libipt/src/pt_section.c:pt_section_read", "libipt/src/pt_section.c:pt_mk_section"]}
{"id": "C29", "title": "Image section identifiers are stable", "statement": "An isid handed out by the section cache keeps denoting the same file range and load address until the cache is cleared; adding the same file range at the same address again returns the same isid; distinct entries have distinct isids.", "quantifier": "every sequence of cache operations", "why_tests_cant": "unbounded histories", "anchors": ["libipt/src/pt_image_section_cache.c:pt_iscache_add", "libipt/src/pt_image_section_cache.c:pt_iscache_lookup"]}
{"id": "C30", "title": "The section cache keeps mapped memory within its limit", "statement": "After every completed cache operation the memory accounted for sections kept mapped by the cache does not exceed the configured limit, the accounted amount is the sum over the cached sections, and the sections kept are the most recently used ones.", "quantifier": "every sequence of map/resize/set_limit/clear operations", "why_tests_cant": "unbounded histories", "anchors": ["libipt/src/pt_image_section_cache.c:pt_iscache_lru_prune", "libipt/src/pt_image_section_cache.c:pt_iscache_set_limit"]}
{"id": "C31", "title": "Cached sections cannot deadlock", "statement": "All locks of sections and of the section cache are acquired in one global order by every public operation, so no interleaving of any number of threads using shared sections deadlocks.", "quantifier": "every number of threads and every interleaving", "why_tests_cant": "schedules", "anchors": ["libipt/src/pt_section.c", "libipt/src/pt_image_section_cache.c"]}
{"id": "C32", "title": "The event decoder is total and memory safe", "statement": "For every trace buffer pt_evt_sync_forward followed by any number of pt_evt_next calls performs no undefined operation, and each call terminates with an event or an error.", "quantifier": "every buffer content and every number of calls", "why_tests_cant": "arbitrary packet sequences", "anchors": ["libipt/src/pt_event_decoder.c:pt_evt_next"]}
{"id": "C33", "title": "Internal bookkeeping events never reach the user", "statement": "pt_evt_next never returns the internal ignore marker (ptev_tick) as an event.", "quantifier": "every trace and every number of calls", "why_tests_cant": "needs all packet sequences that leave an ignore event pending", "anchors": ["libipt/src/pt_event_decoder.c:pt_evt_decode_mode_exec", "libipt/src/pt_event_decoder.c:pt_evt_next"]}
{"id": "C34", "title": "The event decoder never reports an internal error", "statement": "No trace makes pt_evt_next return -pte_internal.", "quantifier": "every trace and every number of calls", "why_tests_cant": "an internal error needs one specific packet combination (two exist, see DESIGN.md)", "anchors": ["libipt/src/pt_event_decoder.c:pt_evt_decode_tip_event"]}
{"id": "C35", "title": "Branch outcomes and targets are reported only while tracing is enabled", "statement": "After a successful synchronization and until the first error, pt_evt_next returns a TNT or TIP event only if the most recent tracing-state event it returned (enabled, disabled, async disabled or overflow, including PSB+ status events) is an enabled or an overflow event; a TNT packet found otherwise gives -pte_bad_context.", "quantifier": "every trace and every number of calls", "why_tests_cant": "state accumulated over the whole trace", "anchors": ["libipt/src/pt_event_decoder.c:pt_evt_decode_tnt", "libipt/src/pt_event_decoder.c:pt_evt_decode_tip"]}
{"id": "C36", "title": "PSB+ status events are complete and marked", "statement": "When the decoder passes a PSB+ header, that is, after a successful synchronization and at a PSB within the trace, all state packets in it are reported as status-update events at PSBEND in trace order, preceded by exactly one enabled/disabled status event, with the header's IP and time, before any later packet is interpreted. (MNT is reported without the status-update mark. A header that an overflow cuts short has no disabled event. The work-around for erratum BDM70, which ignores a FUP in the header, is off.)", "quantifier": "every PSB+ header content and order", "why_tests_cant": "all packet permutations inside PSB+", "anchors": ["libipt/src/pt_event_decoder.c:pt_evt_decode_psb", "libipt/src/pt_event_decoder.c:pt_evt_decode_psbend"]}
{"id": "C37", "title": "Query decoder preserves trace order", "statement": "The sequence of branch outcomes, branch targets and events handed out by pt_qry_cond_branch / pt_qry_indirect_branch / pt_qry_event is exactly the event decoder's stream: no item is lost, duplicated or reordered, events are withheld until all earlier branch outcomes are consumed, and a refused query consumes nothing.", "quantifier": "every event stream and every interleaving of the three queries", "why_tests_cant": "all user query schedules", "anchors": ["libipt/src/pt_query_decoder.c"]}
{"id": "C38", "title": "Errors of the query decoder are deferred, sticky and not skipped", "statement": "A decode error is reported only after everything decoded before it has been consumed, and from then on every query reports it until the decoder is re-synchronized.", "quantifier": "every event stream and every query sequence", "why_tests_cant": "all query schedules", "anchors": ["libipt/src/pt_query_decoder.c:pt_qry_fetch_event"]}
{"id": "C39", "title": "Instruction length decode stays inside the given bytes", "statement": "pt_ild_decode reads only the insn->size bytes it is given, returns a size between 1 and insn->size, and depends only on the bytes of the instruction it returns.", "quantifier": "every byte string, every execution mode", "why_tests_cant": "256^15 byte strings x 4 modes (one over-read exists, see DESIGN.md)", "anchors": ["libipt/src/pt_ild.c:pt_ild_decode"]}
{"id": "C40", "title": "Direct branch targets", "statement": "For every decoded direct branch, the reported target is the address of the next instruction plus the sign-extended displacement bytes of the instruction, modulo 2^64.", "quantifier": "every byte string, mode and instruction address", "why_tests_cant": "all displacement widths and values", "anchors": ["libipt/src/pt_ild.c:set_branch_target", "libipt/src/pt_insn.c:pt_insn_next_ip"]}
{"id": "C41", "title": "Instruction fetch across sections terminates and reads at most 15 bytes", "statement": "pt_insn_decode terminates, never stores more than 15 bytes into the instruction, and for a successful decode the bytes equal the memory image at the instruction's address.", "quantifier": "every image and address", "why_tests_cant": "all ways an instruction can be split over sections", "anchors": ["libipt/src/pt_insn.c:pt_insn_decode", "libipt/src/pt_insn.c:pt_insn_decode_retry"]}
{"id": "C42", "title": "Instruction flow follows the trace", "statement": "The instruction sequence returned by pt_insn_next is a path of the program in the memory image: each next instruction address is the fall-through, the direct target, or the traced target of the previous instruction; conditional branches consume exactly one outcome, compressed returns go to the matching call's return address.", "quantifier": "every image, trace and number of steps", "why_tests_cant": "unbounded executions", "anchors": ["libipt/src/pt_insn_decoder.c:pt_insn_proceed"]}
{"id": "C43", "title": "Block cache entries do not change the decoded flow", "statement": "A decode-cache entry recorded for an instruction makes the block decoder proceed to the same next instruction with the same count, in the same section, as decoding instruction by instruction would.", "quantifier": "every code section and every cache history", "why_tests_cant": "all code layouts and all cache fill orders", "anchors": ["libipt/src/pt_block_decoder.c", "libipt/src/pt_block_cache.c"]}
{"id": "C44", "title": "Error codes and sizes of queries do not modify state", "statement": "A pt_qry_* call that returns -pte_bad_query or -pte_invalid leaves the decoder state unchanged, so a user can retry with a different query.", "quantifier": "every reachable decoder state", "why_tests_cant": "all states", "anchors": ["libipt/src/pt_query_decoder.c"]}
{"id": "C45", "title": "CPU identification parsing and errata selection", "statement": "pt_cpu_parse accepts exactly family/model[/stepping] with in-range decimal, octal or hexadecimal components; pt_cpu_errata depends only on vendor, family and model, refuses unknown processors and then leaves no erratum set.", "quantifier": "every string, every CPU identification", "why_tests_cant": "all strings", "anchors": ["libipt/src/pt_cpu.c:pt_cpu_parse", "libipt/src/pt_config.c:pt_cpu_errata"]}
{"id": "C46", "title": "Mapped-section cache never yields a section outside the current image", "statement": "An instruction fetched through the one-entry section cache equals the instruction fetched through the image in the current address space, after any sequence of image changes, image switches and address-space changes seen by the decoder.", "quantifier": "every history", "why_tests_cant": "cache invalidation over all histories", "anchors": ["libipt/src/pt_msec_cache.c", "libipt/src/pt_image.c:pt_image_validate", "libipt/src/pt_insn_decoder.c:pt_insn_msec_lookup"]}
{"id": "C47", "title": "The packet decoder accepts exactly the documented packet formats", "statement": "With no errata work-arounds enabled and no unknown-packet callback, pt_pkt_next delivers a packet of a given type, field values and size exactly if the bytes at the current position have that packet's documented format and lie in the buffer; no two packets share a byte sequence, and delivered field values are within the documented widths.", "quantifier": "every buffer content and position", "why_tests_cant": "the space of byte sequences is unbounded; tests sample it", "anchors": ["libipt/src/pt_packet_decoder.c:pt_pkt_next", "libipt/src/pt_packet.c"]}
{"id": "C48", "title": "An overflow event without IP means that tracing is disabled", "statement": "After an overflow event that has no IP, which documents that tracing is disabled, pt_evt_next returns no TNT or TIP event before an enabled event.", "quantifier": "every trace and every number of calls", "why_tests_cant": "state accumulated over the whole trace", "anchors": ["libipt/src/pt_event_decoder.c:pt_evt_decode_ovf", "libipt/include/intel-pt.h.in:pt_event"]}
{"id": "C49", "title": "The query decoder reports where tracing starts", "statement": "pt_qry_sync_forward and pt_qry_sync_set store the IP at which tracing is enabled at the synchronization point, and return pts_ip_suppressed without storing an IP exactly if tracing is disabled there.", "quantifier": "every trace buffer and synchronization point", "why_tests_cant": "all traces behind the synchronization point", "anchors": ["libipt/src/pt_query_decoder.c:pt_qry_start", "libipt/src/pt_query_decoder.c:pt_qry_sync_forward", "libipt/include/intel-pt.h.in:pt_qry_sync_forward"]}
{"id": "C50", "title": "The query decoder is total and memory safe", "statement": "No sequence of pt_qry_* calls on any trace buffer makes the query decoder read uninitialized state, access memory out of bounds or loop forever; before a successful synchronization every query returns -pte_nosync.", "quantifier": "every trace buffer and every sequence of calls, including calls after errors", "why_tests_cant": "unbounded call histories on arbitrary bytes", "anchors": ["libipt/src/pt_query_decoder.c"]}
{"id": "C51", "title": "The status flags of the query decoder are right", "statement": "pts_eos means that every query will return -pte_eos; pts_event_pending means that pt_qry_event will return an event or that every query will report a decode error; neither means that pt_qry_event will be refused; pts_ip_suppressed is returned for an indirect branch exactly if there is no target.", "quantifier": "every trace buffer and every sequence of queries", "why_tests_cant": "flags predict the future of an unbounded history", "anchors": ["libipt/src/pt_query_decoder.c:pt_qry_status_flags", "libipt/include/intel-pt.h.in:pt_status_flag"]}
{"id": "C52", "title": "Shared sections and caches are race free", "statement": "When several threads use the same sections and image section caches, every access to their shared state happens under the lock protecting it, so no two threads access the same field at the same time with one of them writing.", "quantifier": "every number of threads, every sequence of calls and every interleaving", "why_tests_cant": "schedules; a data race may go unnoticed on the tested machine", "anchors": ["libipt/src/pt_section.c", "libipt/src/pt_image_section_cache.c", "libipt/internal/include/pt_section.h:pt_section_on_map"]}
{"id": "C54", "title": "Synchronization determines what is decoded", "statement": "After the instruction flow decoder was synchronized at a point of the trace, forward, backward or by offset, it reports the same status, instructions and events: they depend on the synchronization point only.", "quantifier": "every trace, image, decoder state and synchronization point", "why_tests_cant": "all traces, and all decoder histories before the synchronization", "anchors": ["libipt/src/pt_insn_decoder.c:pt_insn_sync_forward", "libipt/src/pt_insn_decoder.c:pt_insn_sync_backward", "libipt/src/pt_insn_decoder.c:pt_insn_sync_set", "libipt/src/pt_query_decoder.c:pt_qry_sync_backward"]}
{"id": "C55", "title": "Perf event records are read and written correctly", "statement": "Reading a perf event record from a buffer either fails, or gives an event whose fields are exactly those encoded in the bytes reported as consumed; it never reads outside the buffer, and every well-formed record is read. Writing an event either fails or writes exactly the event's encoding, leaves the rest of the buffer alone and never writes outside of it; it succeeds if the encoding fits. Writing an event and reading it again gives the event.", "quantifier": "every buffer, configuration, event and sample type", "why_tests_cant": "all byte strings, including hostile ones, all record types, string lengths and sample combinations", "anchors": ["pevent/src/pevent.c:pev_read", "pevent/src/pevent.c:pev_write", "pevent/include/pevent.h:pev_read", "pevent/include/pevent.h:pev_write"]}
{"id": "C56", "title": "Perf time and TSC are converted exactly", "statement": "Converting between perf time and TSC gives the value of the documented formula, without intermediate overflow; it is monotonic, and converting there and back loses no more than the resolution of the coarser clock. Without the parameters, conversion fails.", "quantifier": "every time, TSC and set of conversion parameters the kernel gives", "why_tests_cant": "all 64 bit times and all parameters; overflow occurs for few combinations only", "anchors": ["pevent/src/pevent.c:pev_time_to_tsc", "pevent/src/pevent.c:pev_time_from_tsc", "pevent/include/pevent.h:pev_time_to_tsc"]}
{"id": "C53", "title": "Instructions are decoded as the architecture defines them", "statement": "For every instruction that the architecture defines for 16, 32 or 64-bit mode, with any prefixes (legacy, REX, REX2, VEX, EVEX), ModRM and SIB bytes, displacement and immediate operands, the instruction decoder reads exactly the instruction's bytes, whatever follows them, and reports what the instruction does to control flow: whether it is a conditional branch, a jump, a call, a return, a far transfer, a ptwrite, whether it is direct, and where a direct branch goes. It also recognizes the instructions that the flow decoders treat specially.", "quantifier": "all instructions in the format of Spec/X86.lean, all three modes, all bytes behind the instruction, all buffer sizes", "why_tests_cant": "the number of encodings is astronomical; a wrong length for one of them derails the whole reconstructed flow", "anchors": ["libipt/src/pt_ild.c:pt_ild_decode", "libipt/src/pt_ild.c:pt_instruction_decode", "libipt/internal/include/pti-modrm.h", "libipt/internal/include/pti-imm.h", "libipt/internal/include/pti-disp.h", "libipt/internal/include/pti-disp_default.h", "libipt/internal/include/pti-sib.h"]}
{"id": "C57", "title": "Sideband records of all channels are applied in time order", "statement": "pt_sb_event applies, before it returns, every sideband record of every channel whose time is not later than the event, and no other; among the current records of all channels it always takes the earliest, so if each channel is ordered, the records of all channels are applied in the order of their time. It then shows the event exactly once to every channel that is still in use. A channel that failed is never called again, and does not affect the others. pt_sb_dump goes through the records up to a time without applying any.", "quantifier": "every number of channels, every behaviour of their callbacks, every sequence of calls of session functions", "why_tests_cant": "all interleavings of the records of any number of channels, over the whole history of a session", "anchors": ["sideband/src/pt_sb_session.c:pt_sb_event", "sideband/src/pt_sb_session.c:pt_sb_init_decoders", "sideband/src/pt_sb_session.c:pt_sb_dump", "sideband/include/libipt-sb.h.in:pt_sb_event"]}
{"id": "C58", "title": "Process contexts of a sideband session are alive exactly as long as they are used", "statement": "At every point in the life of a sideband session with perf event channels, every process context counts exactly its references: one if it is in the session's table, one for each channel that uses it, one for each channel that is about to switch to it, and one for each reference the user has taken. A context is freed when, and only when, there are none left, so that no call uses freed memory, frees anything twice or leaks a context. There is at most one context per process. The image that the caller's pointer refers to always belongs to a context that is alive. pt_sb_free frees all contexts but those the user has taken.", "quantifier": "every sequence of calls of session and context functions, every content of the sideband files, every behaviour of the user's notifiers", "why_tests_cant": "use-after-free and leaks depend on the interleaving of channels, exec, fork and user references over a whole session", "anchors": ["sideband/src/pt_sb_session.c:pt_sb_free", "sideband/src/pt_sb_session.c:pt_sb_get_context_by_pid", "sideband/src/pt_sb_context.c:pt_sb_ctx_get", "sideband/src/pt_sb_context.c:pt_sb_ctx_put", "sideband/src/pt_sb_context.c:pt_sb_ctx_switch_to", "sideband/src/pt_sb_pevent.c:pt_sb_pevent_prepare_context_switch", "sideband/src/pt_sb_pevent.c:pt_sb_pevent_switch_contexts"]}
{"id": "C59", "title": "Perf event records do to the table of processes what they say", "statement": "When a perf event record is applied, the memory images and ABIs of all processes change exactly as the record says: fork gives the child its parent's image, exec gives the process a fresh image, a mapping is added to the image of the process under the file name with sysroot or the vdso file for its ABI, and processes that are seen for the first time start with the kernel's image. No other process is affected. Lost records, lost trace and mappings that are ignored are reported with the offset of the record. File names must be shorter than 4096 characters including sysroot.", "quantifier": "every reachable session, every record, every image and file system", "why_tests_cant": "the table is the result of an unbounded history of records about any number of processes", "anchors": ["sideband/src/pt_sb_pevent.c:pt_sb_pevent_apply_event_record", "sideband/src/pt_sb_pevent.c:pt_sb_pevent_fork", "sideband/src/pt_sb_pevent.c:pt_sb_pevent_exec", "sideband/src/pt_sb_pevent.c:pt_sb_pevent_map"]}
{"id": "C60", "title": "Context switches are applied when the kernel is entered, and only then", "statement": "A switch record, or exec, makes a channel follow the process from then on, but the caller's image is not changed until an event is presented for which execution is not in user mode both before and after it. A start record takes effect at once. Channels that are not for the traced processor never change the caller's image. If applying a record or an event fails, the channel's context and the caller's image are those from before.", "quantifier": "every reachable session, every record, every event, every location of kernel and user code", "why_tests_cant": "depends on the interleaving of switch records and trace events", "anchors": ["sideband/src/pt_sb_pevent.c:pt_sb_pevent_apply", "sideband/src/pt_sb_pevent.c:ploc_from_event", "sideband/src/pt_sb_pevent.c:pt_sb_pevent_switch_contexts", "sideband/src/pt_sb_pevent.c:pt_sb_pevent_prepare_context_switch"]}
{"id": "C61", "title": "A perf event channel reads the records of its file one by one, at their time", "statement": "The current record of a channel is always a whole record of its file, decoded with the sample type configured for it; the records are taken in file order, each once. The time of a record is its time sample converted to TSC minus the configured offset, which may be negative, without wrapping around in either direction, and zero if it has no time sample.", "quantifier": "every reachable session, every file, every configuration", "why_tests_cant": "files have any number of records of any size", "anchors": ["sideband/src/pt_sb_pevent.c:pt_sb_pevent_fetch", "sideband/include/libipt-sb.h.in:pt_sb_pevent_config"]}
{"id": "C62", "title": "Adding a perf event channel succeeds or has no effect", "statement": "pt_sb_alloc_pevent_decoder adds one channel with the given file and configuration, or returns an error, leaving the session as it was and freeing what it has allocated once.", "quantifier": "every configuration, every content of the file, every session", "why_tests_cant": "all combinations of missing, unreadable and too long names", "anchors": ["sideband/src/pt_sb_pevent.c:pt_sb_alloc_pevent_decoder", "sideband/src/pt_sb_pevent.c:pt_sb_pevent_init"]}
{"id": "C63", "title": "No call of the instruction flow decoder is undefined, and every call returns", "statement": "However a user calls pt_insn_next, pt_insn_event, the synchronization functions and pt_insn_set_image, in any order and also after errors, no call reads memory it must not read (an event or instruction that was not written, a file or an array beyond its end), and every call returns, provided that sections lie within their files and the read memory callback behaves.", "quantifier": "every trace, every program memory and image, every configuration, every sequence of calls", "why_tests_cant": "undefined behaviour depends on the whole history of calls, on the trace and on the program; neither is trusted", "anchors": ["libipt/src/pt_insn_decoder.c:pt_insn_next", "libipt/src/pt_insn_decoder.c:pt_insn_event", "libipt/src/pt_insn_decoder.c:pt_insn_sync_forward", "libipt/src/pt_insn_decoder.c:pt_insn_tick", "libipt/src/pt_insn.c:pt_insn_decode", "libipt/src/pt_msec_cache.c:pt_msec_cache_fill"]}
{"id": "C64", "title": "No call of the block decoder is undefined, and every call returns", "statement": "However a user calls pt_blk_next, pt_blk_event, the synchronization functions and pt_blk_set_image, in any order and also after errors, no call reads memory it must not read (an event or instruction that was not written, a file or an array beyond its end), and every call returns. This holds whatever the block caches of the sections contain, and whatever other decoders write to them meanwhile, as long as entries have at least one instruction; the entries the decoder itself writes are of this kind.", "quantifier": "every trace, every program memory and image, every configuration, every contents of the block caches, every interleaving with writes of other decoders, every sequence of calls", "why_tests_cant": "undefined behaviour depends on the combination of trace, program, cached blocks and history of calls and need not have a visible effect; the number of steps through cached blocks depends on what other decoders cached", "anchors": ["libipt/src/pt_block_decoder.c:pt_blk_next", "libipt/src/pt_block_decoder.c:pt_blk_event", "libipt/src/pt_block_decoder.c:pt_blk_sync_backward", "libipt/src/pt_block_decoder.c:pt_blk_proceed_no_event_cached", "libipt/src/pt_block_cache.c:pt_bcache_add"]}
{"id": "C65", "title": "The block decoder follows the program along its trace", "statement": "The blocks that pt_blk_next gives, and the events that pt_blk_event gives in between, are a run of the program in the image along the trace: blocks and instructions follow each other as the program says, conditional branches go where the trace's outcomes say, indirect branches, returns and far transfers go where the trace says, and events are shown before, or with, the instructions they belong to. Each block's address, mode, number of instructions and end are those of the instructions executed. Nothing in the trace is used twice or left out, and when pts_eos is returned, all of the trace has been used. It does not matter what is in the block caches.", "quantifier": "every trace, every image, every configuration, every contents of the block caches, every sequence of successful calls, image changes in between", "why_tests_cant": "all combinations of programs, traces, cached blocks and events", "anchors": ["libipt/src/pt_block_decoder.c:pt_blk_next", "libipt/src/pt_block_decoder.c:pt_blk_event", "libipt/src/pt_block_decoder.c:pt_blk_proceed_event", "libipt/src/pt_block_decoder.c:pt_blk_proceed_trailing_event", "libipt/include/intel-pt.h.in:pt_blk_next"]}
{"id": "C66", "title": "Event decoding delivers what the packets stand for", "statement": "After a successful synchronization, pt_evt_next delivers one after the other the events that the packets in the trace stand for, starting with the PSB at the synchronization point: all of them, no others, in the order of the packets, with the address, time and all other fields that the packets give. A packet that stands for an event at an address in a later FUP or TIP is completed by that packet; packets of an asynchronous branch belong together. Then pt_evt_next reports an error. If all packets are in places where they may occur, this is the error at the end of the packets (pte_eos at the end of the trace). The query decoder hands out the same.", "quantifier": "every trace buffer, every configuration including all workarounds for errata, every way to synchronize, every history of the decoder", "why_tests_cant": "all sequences of packets of any length; packets may be completed by packets far behind them", "anchors": ["libipt/src/pt_event_decoder.c:pt_evt_next", "libipt/src/pt_event_decoder.c:pt_evt_decode_packet", "libipt/src/pt_event_decoder.c:pt_evt_decode_fup", "libipt/src/pt_event_decoder.c:pt_evt_decode_tip", "libipt/src/pt_event_decoder.c:pt_evt_decode_tip_pgd", "libipt/src/pt_event_queue.c:pt_evq_dequeue", "libipt/include/intel-pt.h.in:pt_event"]}
{"id": "C67", "title": "Synchronizing an event or query decoder starts afresh", "statement": "After pt_evt_sync_set or pt_qry_sync_set, the decoder behaves in the same way whatever it decoded before, including after errors: the result of the call, and all results of the calls that follow - events, branch outcomes, targets, status flags, times, core:bus ratios, offsets and errors - depend on the trace, the configuration and the offset only. The same holds for synchronizing forward and backward, which in addition depend on the decoder's position. So segments of a trace can be decoded independently, in any order, by new or used decoders.", "quantifier": "every trace buffer, every configuration, any two decoder states, every offset, every sequence of calls after synchronizing", "why_tests_cant": "any history of any length may precede the synchronization; the decoders keep part of their state when they are reset", "anchors": ["libipt/src/pt_event_decoder.c:pt_evt_sync_set", "libipt/src/pt_event_decoder.c:pt_evt_reset", "libipt/src/pt_event_decoder.c:pt_evt_start", "libipt/src/pt_query_decoder.c:pt_qry_sync_set", "libipt/src/pt_query_decoder.c:pt_qry_reset", "libipt/src/pt_query_decoder.c:pt_qry_sync_backward"]}
{"id": "C68", "title": "Synchronizing an instruction flow decoder starts afresh", "statement": "After pt_insn_sync_set, the decoder behaves in the same way whatever it decoded before, including after errors: the result of the call, and all results of pt_insn_next and pt_insn_event that follow - instructions, events, flags, errors, times, core:bus ratios, offsets and address spaces - depend on the configuration, the trace, the image and the offset only. The same holds for pt_insn_sync_forward and pt_insn_sync_backward for decoders at the same position.", "quantifier": "every trace and configuration, every two states of a decoder, every image, every way of synchronizing, and every sequence of calls that follows", "why_tests_cant": "a return address left on the stack, a stale event or a cached section of another address space changes the results of some traces only, and the histories are unbounded", "anchors": ["libipt/src/pt_insn_decoder.c:pt_insn_reset", "libipt/src/pt_insn_decoder.c:pt_insn_start", "libipt/src/pt_insn_decoder.c:pt_insn_sync_set", "libipt/src/pt_msec_cache.c:pt_msec_cache_read", "libipt/src/pt_image.c:pt_image_fetch_section"]}
{"id": "C69", "title": "A section stays mapped while a thread reads from it", "statement": "Sections may be shared by any number of decoders, images and image section caches in different threads. While a thread decodes from a section - between mapping it and unmapping it again, with or without a block cache - the section stays mapped, its memory and its block cache are not freed and the pointers to them do not change, whatever other threads map, read, unmap, add to or drop from caches in the meantime. Unmapping, sharing a mapping with a cache and allocating a block cache do not fail because the section is not mapped. When all threads are done, those sections are still mapped that a cache holds on to, and nothing is left of the others.", "quantifier": "every number of threads, every sequence of calls in each of them, every interleaving of their accesses, every outcome of mapping files and allocating memory, and every choice of what caches add and drop", "why_tests_cant": "whether memory is freed while another thread reads from it depends on the schedule; a test runs some schedules only", "anchors": ["libipt/src/pt_section.c:pt_section_unmap", "libipt/src/pt_section.c:pt_section_map_share", "libipt/src/pt_section.c:pt_section_alloc_bcache", "libipt/src/posix/pt_section_posix.c:pt_section_map", "libipt/src/pt_image_section_cache.c:pt_iscache_notify_map", "libipt/src/pt_msec_cache.c:pt_msec_cache_fill"]}
{"id": "C70", "title": "A section object exists while somebody uses it", "statement": "Sections may be shared by the images, decoders and image section caches of any number of threads. As long as no thread frees an image section cache that others use, no thread accesses a section object that has been freed or that another thread is about to free; no section object is freed twice; and a section object that has been freed, or is about to be, is not mapped, not attached to a cache, and not in any image, decoder or cache. Dropping a reference, unmapping, attaching and detaching never fail because the counts of the section are inconsistent.", "quantifier": "every number of threads, every sequence of calls in each of them that read from, add to and trim a cache, add to, copy and remove from images, and decode, every interleaving, every outcome of mapping files and allocating memory, and every choice of what is found, added and dropped", "why_tests_cant": "whether an object is freed while another thread is about to use it depends on the schedule; a test runs some schedules only", "anchors": ["libipt/src/pt_section.c:pt_section_get", "libipt/src/pt_section.c:pt_section_put", "libipt/src/pt_section.c:pt_section_attach", "libipt/src/pt_section.c:pt_section_detach", "libipt/src/pt_image_section_cache.c:pt_iscache_add", "libipt/src/pt_image_section_cache.c:pt_iscache_lookup", "libipt/src/pt_image.c:pt_image_find", "libipt/src/pt_msec_cache.c:pt_msec_cache_invalidate"]}
{"id": "C71", "title": "A section object is freed when nobody uses it any more", "statement": "When all threads have finished their calls, a section object exists if and only if it is in an image, in a decoder or in an image section cache, and its reference count says in how many.", "quantifier": "every number of threads, every sequence of calls in each of them, including ones that fail, every interleaving, every outcome of mapping files and allocating memory", "why_tests_cant": "a leak on an error path shows in no result, and which thread is last depends on the schedule", "anchors": ["libipt/src/pt_section.c:pt_section_put", "libipt/src/pt_image.c:pt_image_add_cached", "libipt/src/pt_image.c:pt_image_add", "libipt/src/pt_image_section_cache.c:pt_iscache_add_file"]}
{"id": "C72", "title": "ELF files are loaded as their program headers say", "statement": "Loading an ELF file into an image (ptxed --elf) puts the contents of each segment that is to be loaded at the address its program header gives, or, with a load address, at that address plus the segment's distance from the lowest one, in every address space. Where segments overlap the last one counts; other addresses of the image do not change. Each segment with contents is loaded or warned about. Loading succeeds exactly if the file is an ELF file with complete headers; otherwise there is an error, and the image is unchanged.", "quantifier": "every file, 32-bit and 64-bit, every load address, every image, every set of sections that cannot be created", "why_tests_cant": "the tool has no unit tests, and where a segment ends up depends on all program headers together and on what is in the image", "anchors": ["ptxed/src/load_elf.c:load_elf", "ptxed/src/load_elf.c:load_elf32", "ptxed/src/load_elf.c:load_elf64", "ptxed/src/load_elf.c:load_section"]}
{"id": "C73", "title": "ptseg finds the segment that contains an offset", "statement": "For a trace and an offset into it, ptseg prints where the segment of the trace that contains the offset begins and ends, which is at a PSB or at the begin or end of the trace, the offset within that segment and its size.", "quantifier": "every trace and every offset", "why_tests_cant": "finding the PSB before and after an offset depends on all bytes of the trace, and PSBs may overlap the offset", "anchors": ["ptseg/src/ptseg.c:ptseg_pkt_find_seg", "ptseg/src/ptseg.c:ptseg_print_seg"]}
{"id": "C74", "title": "Exactly the requested part of a file is loaded", "statement": "When a part of a file is given to ptxed, ptdump, ptseg, or a sideband decoder, as a file offset or a range, exactly the bytes in this part are loaded. If the file does not have them or there are none, loading fails. For sideband files, a range may end behind the end of the file, and is shortened. No offset or range leads to undefined behaviour.", "quantifier": "every file and every 64-bit offset and range", "why_tests_cant": "offsets and sizes are converted between signed and unsigned numbers; the errors are at values no test file reaches", "anchors": ["ptxed/src/ptxed.c:load_file", "ptxed/src/ptxed.c:preprocess_filename", "ptdump/src/ptdump.c:load_file", "ptseg/src/ptseg.c:load_file", "sideband/src/pt_sb_file.c:pt_sb_file_load"]}
{"id": "C75", "title": "Every traced program is reconstructed", "statement": "If a trace tells what a program in the image did, an instruction flow decoder reconstructs it: synchronizing succeeds, and a user who calls pt_insn_next, and pt_insn_event as long as an event is pending, gets exactly the instructions the program executed and the events, in the order in which they happened, and tick events, if they asked for these, without errors, until they are told about the end of the trace. This also holds from the packets on: encoding the packets of such a trace and decoding the buffer gives the program.", "quantifier": "every program, every execution of it, with calls, returns, branches, interrupts, transactions and address space switches, every trace that tells about it, every decoder state before synchronizing, any number of instructions and events", "why_tests_cant": "that there is never an error on a correct trace is a statement about all programs and traces together; tests have short ones", "anchors": ["libipt/src/pt_insn_decoder.c:pt_insn_next", "libipt/src/pt_insn_decoder.c:pt_insn_event", "libipt/src/pt_insn_decoder.c:pt_insn_proceed", "libipt/src/pt_insn_decoder.c:pt_insn_check_ip_event", "libipt/src/pt_insn_decoder.c:pt_insn_check_insn_event", "libipt/src/pt_query_decoder.c:pt_qry_cond_branch"]}
{"id": "C76", "title": "Structures are provided in the memory of the user, and nowhere else", "statement": "pt_pkt_next, pt_evt_next, pt_qry_event, pt_insn_next, pt_insn_event, pt_blk_next and pt_blk_event write at most the given number of bytes to the structure of the user. If there is less room than the structure needs, its beginning is provided; if there is more, the rest is set to zero. The size has no influence on the state of the decoder and the returned value, except that pt_qry_event refuses sizes that do not cover the common part of events, without any effect.", "quantifier": "every size, every contents of the user's memory, every layout of the structures, every state of the decoder, every trace, image and configuration", "why_tests_cant": "tests use the size of the structure the library was compiled with; other versions of the structures, and what is behind the structure in memory, are not exercised", "anchors": ["libipt/src/pt_packet_decoder.c:pkt_to_user,pt_pkt_next", "libipt/src/pt_event_decoder.c:pt_evt_to_user,pt_evt_next", "libipt/src/pt_query_decoder.c:pt_qry_event", "libipt/src/pt_insn_decoder.c:insn_to_user,pt_insn_next,pt_insn_event", "libipt/src/pt_block_decoder.c:block_to_user,pt_blk_next,pt_blk_event"]}
{"id": "C77", "title": "A new decoder is what its configuration says", "statement": "Creating an event, query, instruction flow or block decoder succeeds if there is memory and the user's configuration covers the mandatory fields and gives a trace buffer; otherwise NULL is returned. The decoder then decodes the user's trace buffer, with the user's callback for unknown packets, errata, timing information, address filter, and options (tick events, iflags events, keeping the calibration at overflows, ending blocks at calls or jumps); fields beyond the size that the user declares count as zero. It is not synchronized, its image is empty, and what was in its memory before has no influence on what it decodes.", "quantifier": "every configuration, of every size and with every combination of options, every content of uninitialized memory", "why_tests_cant": "the options are at different places for each kind of decoder and are passed down through up to four layers, each of which imports the configuration again; a lost or swapped option shows only in traces that depend on it", "anchors": ["libipt/src/pt_insn_decoder.c:pt_insn_decoder_init", "libipt/src/pt_insn_decoder.c:pt_insn_init_qry_flags", "libipt/src/pt_block_decoder.c:pt_blk_decoder_init", "libipt/src/pt_block_decoder.c:pt_blk_init_evt_flags", "libipt/src/pt_query_decoder.c:pt_qry_decoder_init", "libipt/src/pt_event_decoder.c:pt_evt_decoder_init", "libipt/src/pt_config.c:pt_config_from_user"]}
{"id": "C78", "title": "A decoder can be asked for its configuration and time", "statement": "pt_evt_get_config, pt_qry_get_config, pt_insn_get_config and pt_blk_get_config give the configuration with which the decoder was created, as far as the library knows it. Asked for the time or the core:bus ratio, a decoder says so if the trace has not told any.", "quantifier": "every configuration, every kind of decoder, every content of uninitialized memory", "why_tests_cant": "the configuration is a large structure, of any size", "anchors": ["libipt/src/pt_insn_decoder.c:pt_insn_get_config", "libipt/src/pt_block_decoder.c:pt_blk_get_config", "libipt/src/pt_query_decoder.c:pt_qry_get_config", "libipt/src/pt_event_decoder.c:pt_evt_get_config", "libipt/src/pt_block_decoder.c:pt_blk_time", "libipt/src/pt_block_decoder.c:pt_blk_core_bus_ratio"]}
{"id": "C79", "title": "Tick events tell when time passes", "statement": "If tick events are enabled, each tick event of the instruction flow decoder has the time that pt_insn_time provides when the event is shown, with the numbers of lost packets, which is not the time of the event that was shown before it, and the address behind the instruction that was shown last, a branch about which the trace tells. No change of time is missed: after such a branch, an event is indicated, or an event is waiting for its location, or the time is that of the event that was shown last. The time of each tick event of a block decoder is not the time that pt_blk_time provided before. If tick events are not enabled, there are none.", "quantifier": "every image, trace, configuration, way to synchronize, and sequence of pt_insn_next and pt_insn_event calls by a user who follows the flags; every sequence of calls for block decoders", "why_tests_cant": "time may change at every packet, and the events that may come in between depend on the whole trace", "anchors": ["libipt/src/pt_insn_decoder.c:pt_insn_tick", "libipt/src/pt_insn_decoder.c:pt_insn_indirect_branch", "libipt/src/pt_insn_decoder.c:pt_insn_cond_branch", "libipt/src/pt_insn_decoder.c:pt_insn_event", "libipt/src/pt_insn_decoder.c:pt_insn_time", "libipt/src/pt_block_decoder.c:pt_blk_tick", "libipt/src/pt_block_decoder.c:pt_blk_event"]}
{"id": "C80", "title": "CYC packets advance time by the elapsed processor cycles", "statement": "After a CBR packet and a TSC packet, with or without a TMA packet, each CYC packet advances the reported time by its cycles, taken at the rate of the configured maximal non-turbo ratio to the ratio of the CBR packet: never by more, and by less only for truncation and for the 8 fractional bits of the rate. After two MTC packets, each CYC packet advances the time at the rate that the CYC packets between the two MTC packets give, so the time does not run ahead of the next MTC packet if the processor does not get faster. Nothing is reported as lost. Without calibration, CYC packets do not change the time and are reported as lost.", "quantifier": "every sequence of CYC packets after every history of timing packets, and every configuration", "why_tests_cant": "the error adds up over any number of packets, and which earlier packets take part in the calibration depends on the whole history", "anchors": ["libipt/src/pt_time.c:pt_time_update_cyc", "libipt/src/pt_time.c:pt_time_adjust_cyc", "libipt/src/pt_time.c:pt_tcal_update_mtc", "libipt/src/pt_time.c:pt_tcal_update_cbr", "libipt/src/pt_time.c:pt_tcal_header_cbr", "libipt/src/pt_time.c:pt_tcal_update_cyc", "libipt/src/pt_event_decoder.c:pt_evt_apply_cyc"]}
{"id": "C81", "title": "The core:bus ratio is that of the last CBR packet", "statement": "The core:bus ratio that decoders provide is the ratio of the last CBR packet, inside or outside of PSB+, whatever other timing packets there were. Before the first one, -pte_no_cbr is reported. A ratio of zero is refused with -pte_bad_packet and changes neither the time nor the ratio.", "quantifier": "every sequence of timing packets and every configuration", "why_tests_cant": "the ratio is kept in the same structure as the time, which every timing packet modifies", "anchors": ["libipt/src/pt_time.c:pt_time_query_cbr", "libipt/src/pt_time.c:pt_time_update_cbr", "libipt/src/pt_event_decoder.c:pt_evt_apply_cbr", "libipt/src/pt_event_decoder.c:pt_evt_apply_header_cbr"]}
{"id": "C82", "title": "Events are at instructions that can cause them", "statement": "A paging event is only given for MOV CR3 and far transfers, a VMCS event for VMPTRLD and far transfers, events for PTWRITE, returns from interrupts and system calls, user interrupts and VM entries for these instructions only. Tracing is disabled without an IP at far transfers and MOV CR3 only (without erratum SKL014), and with an IP at branches only. All instructions in these groups qualify, in all encodings and execution modes.", "quantifier": "every byte sequence that decodes to an instruction, every execution mode, every event", "why_tests_cant": "tests decode a few instructions of a few groups", "anchors": ["libipt/src/pt_insn.c:pt_insn_binds_to_pip", "libipt/src/pt_insn.c:pt_insn_binds_to_vmcs", "libipt/src/pt_insn.c:pt_insn_is_far_branch", "libipt/src/pt_insn.c:pt_insn_is_branch", "libipt/src/pt_insn.c:pt_insn_changes_cpl", "libipt/src/pt_insn.c:pt_insn_changes_cr3", "libipt/src/pt_insn.c:pt_insn_is_iret", "libipt/src/pt_insn.c:pt_insn_is_vmentry"]}
{"id": "C83", "title": "ptdump shows every packet", "statement": "For every trace, ptdump ends without error and lists the packets in order, each with its offset, without gaps from the first PSB (with --no-sync: from the beginning) to the end of the trace; after a packet that cannot be decoded it continues at the next PSB. Raw bytes and TNT outcomes are shown completely, and no text is written behind the end of its buffer.", "quantifier": "every trace, all options and errata", "why_tests_cant": "the output depends on all bytes of the trace; buffer sizes matter for the longest packets only", "anchors": ["ptdump/src/ptdump.c:dump_sync", "ptdump/src/ptdump.c:dump_packets", "ptdump/src/ptdump.c:print_raw", "ptdump/src/ptdump.c:print_tnt_payload"]}
{"id": "C84", "title": "ptdump shows the IP and time that decoders compute", "statement": "With --lastip and --time, the IP that ptdump shows at each FUP and TIP packet and the time it shows at each timing packet are those that the trace decoders compute from the packets so far.", "quantifier": "every trace without rejected timing packets", "why_tests_cant": "the tracking state depends on all previous packets", "anchors": ["ptdump/src/ptdump.c:track_last_ip", "ptdump/src/ptdump.c:track_tsc", "ptdump/src/ptdump.c:track_cyc", "ptdump/src/ptdump.c:print_packet"]}
{"id": "C85", "title": "Errors are described", "statement": "For every status but the smallest int, pt_errstr (pt_errcode (status)) is a text: \"OK\" exactly if the status is not negative; texts of different errors of the library are different, whatever function returned them; numbers that are not errors of the library, which a user's callback may return, have a text of their own. (The text for the smallest int is undefined.)", "quantifier": "every status, every function that returns an error", "why_tests_cant": "every number that a callback may return must be covered, and all pairs of errors", "anchors": ["libipt/src/pt_error.c:pt_errstr", "libipt/include/intel-pt.h.in:pt_errcode"]}
{"id": "C86", "title": "The offset is inside the trace", "statement": "Whatever sequence of calls was made to an event decoder, and whether they succeeded or failed, the offset that pt_evt_get_offset reports (and pt_insn_get_offset, pt_blk_get_offset, pt_qry_get_offset through it) is inside the trace, or it says that the decoder is not synchronized.", "quantifier": "every trace, every sequence of calls including failing ones", "why_tests_cant": "the position depends on all packets read and on where calls failed", "anchors": ["libipt/src/pt_event_decoder.c:pt_evt_get_offset", "libipt/src/pt_event_decoder.c:pt_evt_fetch_packet", "libipt/src/pt_event_decoder.c:pt_evt_sync_backward"]}
