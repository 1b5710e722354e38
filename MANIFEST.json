{
 "claims": [
  {
   "property": "C01",
   "status": "proved",
   "theorems": [
    "Verif.Units.C01_timestamp_order",
    "Verif.Units.C01_seqnum_order",
    "Verif.Units.C01_ext_seqnum_order",
    "Verif.Units.C01_blknum_order",
    "Verif.Units.C01_half_range_ambiguous"
   ],
   "note": "Proved for every pair of 32-bit/16-bit/64-bit/block numbers whose true distance is below half the range; the exact half-range case is shown to be ambiguous."
  },
  {
   "property": "C02",
   "status": "proved",
   "theorems": [
    "Verif.Ntp.C02_round_trip",
    "Verif.Ntp.C02_monotone",
    "Verif.Ntp.C02_value"
   ],
   "note": "Exact integer model of the conversion including truncation; the range hypotheses are those of the NTP era."
  },
  {
   "property": "C03",
   "status": "proved",
   "theorems": [
    "Verif.SortedQueue.C03_rtp_ordered",
    "Verif.SortedQueue.C03_fec_ordered",
    "Verif.SortedQueue.C03_read_is_earliest",
    "Verif.SortedQueue.C03_reads_ascending",
    "Verif.SortedQueue.C03_conservation",
    "Verif.SortedQueue.C03_write_adds_or_duplicate",
    "Verif.SortedQueue.C03_latest",
    "Verif.SortedQueue.C03_size_limit"
   ],
   "note": "Proved for arbitrary histories of writes and reads."
  },
  {
   "property": "C04",
   "status": "proved",
   "theorems": [
    "Verif.Interleaver.C04_conservation",
    "Verif.Interleaver.C04_full_block_sent",
    "Verif.Interleaver.C04_no_duplicates_any_writer"
   ],
   "note": "Every history of writes and flushes, every block size, every send order. A separate theorem covers a downstream writer that rejects packets."
  },
  {
   "property": "C05",
   "status": "proved",
   "theorems": [
    "Verif.Interleaver.C05_held_less_than_block",
    "Verif.Interleaver.C05_flush",
    "Verif.Interleaver.C05_indices_in_range",
    "Verif.Interleaver.C05_send_loop_exits"
   ],
   "note": "Every history of writes and flushes."
  },
  {
   "property": "C06",
   "status": "partial",
   "theorems": [
    "Verif.RtpCodec.C06_roundtrip",
    "Verif.RtpCodec.C06_large_padding_rejected",
    "Verif.RtpCodec.C06_payload_type_fails",
    "Verif.RtpCodec.C06_align"
   ],
   "note": "Every field value, payload and padding, any position in any buffer; payload types are 7-bit in the theorem: wider ones abort or, above 255, are silently truncated (C06_payload_type_fails)."
  },
  {
   "property": "C07",
   "status": "proved",
   "theorems": [
    "Verif.RtpCodec.C07_never_panics",
    "Verif.RtpCodec.C07_accepts_iff",
    "Verif.RtpCodec.C07_regions"
   ],
   "note": "Every byte string. The accepted packets are characterised exactly against the RFC 3550 layout."
  },
  {
   "property": "C08",
   "status": "partial",
   "theorems": [
    "Verif.Filter.C08_passed_near_newest_partial",
    "Verif.Filter.C08_passed_iff_partial",
    "Verif.Filter.C08_single_stream_partial",
    "Verif.Filter.C08_half_range_undefined_fails",
    "Verif.Filter.C08_half_range_wraps",
    "Verif.Filter.C08_defined"
   ],
   "note": "Proved for distances up to the limits; partial because a packet whose timestamp is exactly half the range away makes the code take the absolute value of INT32_MIN (undefined), proved by C08_half_range_undefined_fails."
  },
  {
   "property": "C09",
   "status": "proved",
   "theorems": [
    "Verif.Sequencer.C09_numbering",
    "Verif.Sequencer.C09_same_source"
   ],
   "note": "Proved for every packet sequence, any start values."
  },
  {
   "property": "C10",
   "status": "partial",
   "theorems": [
    "Verif.LinkMeter.C10_ext_last_partial",
    "Verif.LinkMeter.C10_ext_last_no_wrap_partial",
    "Verif.LinkMeter.C10_wrap_fails",
    "Verif.LinkMeter.C10_ext_first_partial",
    "Verif.LinkMeter.C10_first_after_last_fails"
   ],
   "note": "Proved for streams whose packets stay within half of the sequence number range of the newest one and which wrap less than 2^16 times; the failing cases are proved with witnesses."
  },
  {
   "property": "C11",
   "status": "partial",
   "theorems": [
    "Verif.PacketCounter.C11_count_partial",
    "Verif.PacketCounter.C11_count_no_wrap_partial",
    "Verif.PacketCounter.C11_new_begin",
    "Verif.PacketCounter.C11_wrap_fails",
    "Verif.PacketCounter.C11_wrapped_begin_fails"
   ],
   "note": "Proved while the counter does not wrap; the wrapped cases are proved to disagree with the reference count."
  },
  {
   "property": "C12",
   "status": "partial",
   "theorems": [
    "Verif.RingQueue.C12_deque_partial",
    "Verif.RingQueue.C12_pop_empty_detected",
    "Verif.RingQueue.C12_never_full_fails",
    "Verif.RingQueue.C12_capacity_fails",
    "Verif.RingQueue.C12_pop_back_lifetime_fails"
   ],
   "note": "Proved for every history that does not exceed the capacity; overflow and element lifetime deviations are proved with witnesses."
  },
  {
   "property": "C13",
   "status": "partial",
   "theorems": [
    "Verif.MovStats.C13_sum_avg_var",
    "Verif.MovStats.C13_min_max_partial",
    "Verif.MovStats.C13_max_fails",
    "Verif.MovStats.C13_extend_window_fails"
   ],
   "note": "Sum, average and variance proved for all histories; min/max proved except for the extended window; C13_max_fails and C13_extend_window_fails are counterexamples."
  },
  {
   "property": "C14",
   "status": "partial",
   "theorems": [
    "Verif.Spsc.C14_fifo_partial",
    "Verif.Spsc.C14_exclusive_partial",
    "Verif.Spsc.C14_capacity_partial",
    "Verif.Spsc.C14_wrap_fails"
   ],
   "note": "Proved for every interleaving of one producer and one consumer while the 32-bit positions have not wrapped: elements come out in order, none lost or duplicated, a chunk is never touched by both sides at once, capacity is exact. C14_wrap_fails shows that once the positions wrap with a chunk count that does not divide 2^32 the index mapping breaks."
  },
  {
   "property": "C15",
   "status": "partial",
   "theorems": [
    "Verif.Hashmap.C15_map",
    "Verif.Hashmap.C15_abort_iff",
    "Verif.Hashmap.C15_no_abort_partial",
    "Verif.Hashmap.C15_abort_fails"
   ],
   "note": "Map behaviour (lookup, iteration, size, contains) proved for every history of valid calls and every hash function; exactly characterised which valid calls abort. The never-aborts part is false: removing the last element awaiting migration leaves rehash_pos_ non-zero and the next growth panics (C15_abort_fails); C15_no_abort_partial proves it for histories without that removal."
  },
  {
   "property": "C16",
   "status": "partial",
   "theorems": [
    "Verif.MemoryLimiter.C16_limit_partial",
    "Verif.MemoryLimiter.C16_undisturbed_grant",
    "Verif.MemoryLimiter.C16_overflow_fails"
   ],
   "note": "Every interleaving of any number of threads, as a transition system; partial because a request close to the size_t maximum overflows the sum (C16_overflow_fails)."
  },
  {
   "property": "C17",
   "status": "proved",
   "theorems": [
    "Verif.SlabPool.C17_disjoint",
    "Verif.SlabPool.C17_canaries",
    "Verif.SlabPool.C17_metadata",
    "Verif.SlabPool.C17_reuse",
    "Verif.SlabPool.C17_null",
    "Verif.SlabPool.C17_reserve"
   ],
   "note": "Proved for every platform sizes, configuration, arena that honours its contract, and history of valid calls."
  },
  {
   "property": "C18",
   "status": "proved",
   "theorems": [
    "Verif.Mpsc.C18_fifo",
    "Verif.Mpsc.C18_results",
    "Verif.Mpsc.C18_available",
    "Verif.Mpsc.C18_no_panic"
   ],
   "note": "Transition system at the granularity of atomic accesses, any number of producers, sequentially consistent. Proved: FIFO in order of the tail exchange, meaning of every return value (including NULL), no panic, elements of finished pushes can be popped."
  },
  {
   "property": "C19",
   "status": "partial",
   "theorems": [
    "Verif.Seqlock.C19_not_torn_partial",
    "Verif.Seqlock.C19_stores",
    "Verif.Seqlock.C19_wrap_fails"
   ],
   "note": "Any number of storing and loading threads, any number of words. Proved for loads during which fewer than 2^31 stores complete; C19_wrap_fails shows a torn read with exactly 2^31 stores (32-bit version)."
  },
  {
   "property": "C20",
   "status": "proved",
   "theorems": [
    "Verif.Pct.C20_encode",
    "Verif.Pct.C20_roundtrip",
    "Verif.Pct.C20_decode_iff",
    "Verif.Pct.C20_encode_nul"
   ],
   "note": "Every byte string without NUL, both encoding modes; the decoder is characterised completely (which strings it accepts and with what result). A string with an embedded NUL is rejected by the encoder."
  },
  {
   "property": "C21",
   "status": "partial",
   "theorems": [
    "Verif.EndpointUri.C21_port_exact",
    "Verif.EndpointUri.C21_port_partial",
    "Verif.EndpointUri.C21_port_fails"
   ],
   "note": "Partial: proved for every digit string below 2^31, with the exact value for all others; C21_port_fails shows that larger numbers are cut down to 32 bits, so 4294967301 is accepted as port 5."
  },
  {
   "property": "C22",
   "status": "partial",
   "theorems": [
    "Verif.Sdp.C22_exact",
    "Verif.Sdp.C22_port_partial",
    "Verif.Sdp.C22_nb_ports_fails"
   ],
   "note": "Partial: the exact result for all media lines with numbers in digits is C22_exact. The port is right when no number of ports is written; C22_nb_ports_fails shows that otherwise the number of ports is stored as the port, because the grammar uses set_media_port for both."
  },
  {
   "property": "C23",
   "status": "partial",
   "theorems": [
    "Verif.RtcpNtp.C23_extend",
    "Verif.RtcpNtp.C23_extend_rejects",
    "Verif.RtcpNtp.C23_clamp_partial",
    "Verif.RtcpNtp.C23_clamp_saturates_partial",
    "Verif.RtcpNtp.C23_metric_never_unavailable",
    "Verif.RtcpNtp.C23_clamp_fails",
    "Verif.RtcpNtp.C23_abs_defined"
   ],
   "note": "Expansion proved for all times within half of the range; clamping proved below 2^64-2^15, and the top of the range is proved to wrap to zero."
  },
  {
   "property": "C24",
   "status": "partial",
   "theorems": [
    "Verif.RtcpFields.C24_cum_loss",
    "Verif.RtcpFields.C24_fract_loss",
    "Verif.RtcpFields.C24_report_words",
    "Verif.RtcpFields.C24_last_sr",
    "Verif.RtcpFields.C24_delay_last_sr_partial",
    "Verif.RtcpFields.C24_delay_fails",
    "Verif.RtcpFields.C24_sender_report",
    "Verif.RtcpFields.C24_header",
    "Verif.RtcpFields.C24_len_fails",
    "Verif.RtcpFields.C24_delay_metrics_partial",
    "Verif.RtcpFields.C24_queue_metrics_partial",
    "Verif.RtcpFields.C24_measurement_info_partial",
    "Verif.RtcpFields.C24_dlrr_partial"
   ],
   "note": "Every setter of packet header, reception report, sender report, DLRR, measurement, delay and queue blocks: all getters after it. Partial because delays in the last 2^15 units of the 64-bit range are stored as zero (C24_delay_fails) and a packet length over 65535 bytes aborts although the field holds up to 262144 (C24_len_fails). Fractions are exact rationals, NaN excluded."
  },
  {
   "property": "C25",
   "status": "partial",
   "theorems": [
    "Verif.RtcpParse.C25_compound",
    "Verif.RtcpParse.C25_region_partial",
    "Verif.RtcpParse.C25_region_fails",
    "Verif.RtcpParse.C25_sdes",
    "Verif.RtcpParse.C25_bye",
    "Verif.RtcpParse.C25_xr"
   ],
   "note": "Compound, SDES, BYE and XR iteration for every byte string: termination with a bound, every read checked, regions inside the packet without its padding, order, and completeness when no error is reported. Partial because a padded SR/RR that is not the first packet gives out the first packet again (C25_region_fails; traverser.cpp:145)."
  },
  {
   "property": "C26",
   "status": "partial",
   "theorems": [
    "Verif.RtcpBuild.C26_round_trip_partial",
    "Verif.RtcpBuild.C26_too_long",
    "Verif.RtcpBuild.C26_fails"
   ],
   "note": "Any legal compound packet (SR, RR, SDES, BYE, XR with all block kinds, padding) that fits is built and read back to the same packets; one that does not fit gives ok = false. Partial: a padded SR/RR that is not the first packet is read back wrongly (C26_fails, traverser.cpp:145). Structures given by the caller are their bytes, fields are covered by C24."
  },
  {
   "property": "C27",
   "status": "proved",
   "theorems": [
    "Verif.Rtt.C27_estimate",
    "Verif.Rtt.C27_non_negative",
    "Verif.Rtt.C27_monotone",
    "Verif.Rtt.C27_no_overflow"
   ],
   "note": "Every sequence of exchanges with arbitrary non-negative delays and constant clock offset."
  },
  {
   "property": "C28",
   "status": "partial",
   "theorems": [
    "Verif.RtcpGen.C28_reports_partial",
    "Verif.RtcpGen.C28_goodbye_partial",
    "Verif.RtcpGen.C28_goodbye_fails",
    "Verif.RtcpGen.C28_goodbye_general_fails",
    "Verif.RtcpGen.C28_no_xr_fails",
    "Verif.RtcpGen.C28_small_buffer_fails",
    "Verif.RtcpGen.C28_reports_fails",
    "Verif.RtcpGen.C28_empty_fails"
   ],
   "note": "Reports: with SR/RR and XR enabled and packets of at least 274 bytes plus the CNAME, generation ends for any number of streams and destinations, and a reader built from the traverser model sees every block of every stream once, in order. Goodbye: proved for states without streams. False in general: goodbye with any stream, XR disabled with sending streams, and a packet too small for one stream make the loop endless; an empty configuration panics."
  },
  {
   "property": "C29",
   "status": "proved",
   "theorems": [
    "Verif.RtcpGen.C29_deadline",
    "Verif.RtcpGen.C29_grid"
   ],
   "note": "For all histories of calls with positive times and a positive interval; sums must not overflow int64."
  },
  {
   "property": "C30",
   "status": "partial",
   "theorems": [
    "Verif.Reporter.C30_no_abort_partial",
    "Verif.Reporter.C30_collision_resolved",
    "Verif.Reporter.C30_collision_fails",
    "Verif.Reporter.C30_early_fails",
    "Verif.Reporter.C30_dangling_fails"
   ],
   "note": "Model of reporter.cpp (streams, addresses, index, collisions, timeouts). Partial: holds when the clock goes forward (a time may repeat once) and nobody uses our source, or we always send to a configured address; C30_collision_resolved proves collisions are resolved in the latter case. Fails witnesses: collision without destinations aborts (receiver before SR, sender before first packet); same time given to four calls leads to a dangling stream pointer."
  },
  {
   "property": "C31",
   "status": "partial",
   "theorems": [
    "Verif.FecWriter.C31_wellformed",
    "Verif.FecWriter.C31_complete_partial",
    "Verif.FecWriter.C31_size_fails",
    "Verif.FecWriter.C31_dead_fails",
    "Verif.FecWriter.C31_zero_fails",
    "Verif.FecWriter.C31_resize_fails"
   ],
   "note": "roc_fec/writer.cpp. C31_wellformed: any calls, any failures of the encoder or of allocation, block limit up to 2^16. C31_complete_partial: constant payload size and no failures, every written packet is emitted. C31_size_fails / C31_dead_fails: one packet with another size inside a block makes the writer drop everything after it while write() returns OK. C31_zero_fails: sizes 0+0 pass the constructor. C31_resize_fails: size_t overflow in resize. Inner writer and composers succeed."
  },
  {
   "property": "C32",
   "status": "proved",
   "theorems": [
    "Verif.FecReader.C32_order",
    "Verif.FecReader.C32_start"
   ],
   "note": "roc_fec/reader.cpp. Any arrivals, places in the queue, decoder results and allocation failures; positions are numbered without wrapping (ghost block counter, equal to the block number modulo 2^16)."
  },
  {
   "property": "C33",
   "status": "partial",
   "theorems": [
    "Verif.FecReader.C33_no_abort_partial",
    "Verif.FecReader.C33_faults_partial",
    "Verif.FecReader.C33_zero_length_fails",
    "Verif.FecReader.C33_over_max_fails",
    "Verif.FecReader.C33_null_fec_fails"
   ],
   "note": "roc_fec/reader.cpp with the argument checks of openfec_decoder.cpp. C33_no_abort_partial: repair block lengths in 1..limit and all-or-nothing decoding. C33_faults_partial: only three ways to abort exist (no out of bounds, no endless loop). C33_zero_length_fails, C33_over_max_fails, C33_null_fec_fails: each of the three is reachable."
  },
  {
   "property": "C34",
   "status": "partial",
   "theorems": [
    "Verif.FecCodec.C34_repair_roundtrip_partial",
    "Verif.FecCodec.C34_source_roundtrip_partial",
    "Verif.FecCodec.C34_block_length_fails",
    "Verif.FecCodec.C34_out_of_range",
    "Verif.FecCodec.C34_repair_parse_safe",
    "Verif.FecCodec.C34_source_parse_safe",
    "Verif.FecCodec.C34_prepare_no_room_fails"
   ],
   "note": "Complete packets through composer and parser, for both LDPC ids and the Reed-Solomon id, including the RTP packet inside a source packet. The block length is not carried by Reed-Solomon and LDPC source ids."
  },
  {
   "property": "C35",
   "status": "proved",
   "theorems": [
    "Verif.Depacketizer.C35_placement"
   ],
   "note": "For every history of reads: frame sizes, order of consumption, silence before the first packet, and sample j after the start is the sample of the first obtained packet covering position j (32-bit timestamps resolved to within 2^31 of the current position), or silence if none was obtained by then; silence has a reason (reader empty or the packet returned by it begins later). Payloads must be non-empty (see C36)."
  },
  {
   "property": "C36",
   "status": "partial",
   "theorems": [
    "Verif.Depacketizer.C36_no_abort_partial",
    "Verif.Depacketizer.C36_empty_payload_fails"
   ],
   "note": "No abort and no endless loop for all histories with non-empty payloads and any timestamps. The unrestricted claim is false: an empty payload whose timestamp is 2^31 away from the stream position makes shift() skip more samples than the packet has (C36_empty_payload_fails)."
  },
  {
   "property": "C37",
   "status": "partial",
   "theorems": [
    "Verif.Depacketizer.C37_capture_partial",
    "Verif.Depacketizer.C37_gap_fails"
   ],
   "note": "Proved for frames with at least one decoded sample, or when no obtained packet begins after the frame; durations are linear (the single-precision rounding of the code is not modelled). False for frames that lie inside a gap longer than the frame (C37_gap_fails)."
  },
  {
   "property": "C38",
   "status": "proved",
   "theorems": [
    "Verif.Packetizer.C38_packets",
    "Verif.Packetizer.C38_conserves"
   ],
   "note": "Refinement to labelled samples for all histories of writes and flushes, including allocation failures; sample durations are linear (single-precision rounding not modelled), capture timestamps non-negative."
  },
  {
   "property": "C39",
   "status": "partial",
   "theorems": [
    "Verif.Watchdog.C39_dead_only_if",
    "Verif.Watchdog.C39_no_playback_dead",
    "Verif.Watchdog.C39_choppy_dead",
    "Verif.Watchdog.C39_healthy_partial",
    "Verif.Watchdog.C39_stays_dead",
    "Verif.Watchdog.C39_wrap_fails"
   ],
   "note": "Exact for the no-playback check. For the choppy check: dead only if every part of the last timeout long enough to hold a whole window has both flags; dead at the latest one window and one frame after the timeout of choppy playback; healthy sessions are never ended if the timeout is at least two windows (or before positions wrap); once dead stays dead. C39_wrap_fails: with window = timeout, normal playback is ended when the 32-bit position wraps."
  },
  {
   "property": "C40",
   "status": "partial",
   "theorems": [
    "Verif.Mixer.C40_mix",
    "Verif.Mixer.C40_range_partial",
    "Verif.Mixer.C40_sum_partial",
    "Verif.Mixer.C40_chunks",
    "Verif.Mixer.C40_clip_fails",
    "Verif.Mixer.C40_single_fails"
   ],
   "note": "For any number of inputs other than one: output is the inputs combined one after another with clipping, silence for inputs without data, independent of chunking, in range (no NaN). C40_sum_partial: equals the sum if all partial sums are legal. C40_clip_fails: clipping after each addition makes the output differ from a legal sum and depend on input order. C40_single_fails: with one input no clipping, and old buffer contents are output when the input has no data."
  },
  {
   "property": "C41",
   "status": "proved",
   "theorems": [
    "Verif.ChannelMapper.C41_multitrack",
    "Verif.ChannelMapper.C41_multitrack_channel",
    "Verif.ChannelMapper.C41_mixed",
    "Verif.ChannelMapper.C41_surround",
    "Verif.ChannelMapper.C41_size_mismatch",
    "Verif.ChannelMapper.C41_invalid_set"
   ],
   "note": "All valid channel sets and buffer contents, all three mapping functions; the surround case leaves the floating point accumulation abstract."
  },
  {
   "property": "C42",
   "status": "partial",
   "theorems": [
    "Verif.ChannelSet.C42_operations",
    "Verif.ChannelSet.C42_counting",
    "Verif.ChannelSet.C42_mask_queries",
    "Verif.ChannelSet.C42_superset_partial",
    "Verif.ChannelSet.C42_superset_fails",
    "Verif.ChannelSet.C42_set_count",
    "Verif.ChannelSet.C42_set_count_max_fails",
    "Verif.ChannelSet.C42_equality",
    "Verif.ChannelSet.C42_bytes",
    "Verif.ChannelSet.C42_valid"
   ],
   "note": "All call histories. Two findings: is_superset ignores the mask once a channel above 63 is enabled, set_count rejects the maximum."
  },
  {
   "property": "C43",
   "status": "proved",
   "theorems": [
    "Verif.Router.C43_routing",
    "Verif.Router.C43_single_source",
    "Verif.Router.C43_rejected_no_effect",
    "Verif.Router.C43_source_query"
   ],
   "note": "Every history of registered routes and written packets."
  },
  {
   "property": "C44",
   "status": "partial",
   "theorems": [
    "Verif.DelayedReader.C44_waiting",
    "Verif.DelayedReader.C44_queue_content",
    "Verif.DelayedReader.C44_delivery_partial",
    "Verif.DelayedReader.C44_trim_exact",
    "Verif.DelayedReader.C44_zero_delay_fails"
   ],
   "note": "Proved for positive delays; a delay of zero samples drops all queued packets, proved by C44_zero_delay_fails."
  },
  {
   "property": "C45",
   "status": "partial",
   "theorems": [
    "Verif.PipelineLoop.C45_exclusive",
    "Verif.PipelineLoop.C45_once",
    "Verif.PipelineLoop.C45_kept",
    "Verif.PipelineLoop.C45_pending",
    "Verif.PipelineLoop.C45_lost_wakeup_fails",
    "Verif.PipelineLoop.C45_stale_state_fails",
    "Verif.PipelineLoop.C45_sequential_partial"
   ],
   "note": "Transition system of pipeline_loop.cpp with any number of task and frame threads and the scheduler thread. Proved for all interleavings: exclusion (C45_exclusive), at most once (C45_once), no task is dropped (C45_kept), pending counter exact (C45_pending). The liveness part is false: C45_lost_wakeup_fails and C45_stale_state_fails give frameless runs after which nobody is responsible for a waiting task, for ever. C45_sequential_partial: it holds if operations do not overlap."
  },
  {
   "property": "C46",
   "status": "partial",
   "theorems": [
    "Verif.SessionRouter.C46_consistent",
    "Verif.SessionRouter.C46_add",
    "Verif.SessionRouter.C46_link",
    "Verif.SessionRouter.C46_unlink",
    "Verif.SessionRouter.C46_remove",
    "Verif.SessionRouter.C46_abort_fails",
    "Verif.SessionRouter.C46_main_fails",
    "Verif.SessionRouter.C46_no_abort_partial"
   ],
   "note": "Consistency of the four indexes and of all lookups, and the effect of every call, for all histories. False: relinking the main source of a route without a session, then add_session, panics (C46_abort_fails); relinking another source takes the session away from the source it was added for (C46_main_fails). No panic for histories in which the main source is relinked only together with a session and an address (C46_no_abort_partial)."
  },
  {
   "property": "C47",
   "status": "partial",
   "theorems": [
    "Verif.LatencyTuner.C47_progress_partial",
    "Verif.LatencyTuner.C47_fed",
    "Verif.LatencyTuner.C47_count",
    "Verif.LatencyTuner.C47_hang_fails",
    "Verif.LatencyTuner.C47_scale_hang_fails",
    "Verif.LatencyTuner.C47_stall_fails"
   ],
   "note": "Holds for streams shorter than 2^32 samples minus one interval: the estimator is updated exactly once per interval and every call returns. False afterwards: advance_stream never returns when the position is 2^32-1 (C47_hang_fails), update_stream hangs near the wrap if the interval is 256 (C47_scale_hang_fails), and after the wrap tuning stops for a whole cycle of 24.8 hours at 48 kHz (C47_stall_fails)."
  },
  {
   "property": "C48",
   "status": "proved",
   "theorems": [
    "Verif.Interleaver.C48_random_range",
    "Verif.Interleaver.C48_empty_interval_aborts",
    "Verif.Interleaver.C48_shuffle_is_permutation"
   ],
   "note": "The range theorem covers every interval and generator output; the shuffle theorem every block size."
  },
  {
   "property": "C49",
   "status": "partial",
   "theorems": [
    "Verif.StringList.C49_forward",
    "Verif.StringList.C49_backward",
    "Verif.StringList.C49_find_partial",
    "Verif.StringList.C49_find_full_block_partial",
    "Verif.StringList.C49_find_fails"
   ],
   "note": "Forward and backward traversal of every list of NUL-free strings; find() is a prefix match, not an equality test, proved by C49_find_fails."
  },
  {
   "property": "C50",
   "status": "proved",
   "theorems": [
    "Verif.StringBuilder.C50_builder",
    "Verif.StringBuilder.C50_dry_run",
    "Verif.StringBuilder.C50_no_room"
   ],
   "note": "Every sequence of builder calls, every buffer size, including the size-computing mode without a buffer."
  },
  {
   "property": "C51",
   "status": "proved",
   "theorems": [
    "Verif.TsMapping.C51_inject",
    "Verif.TsMapping.C51_double_detected",
    "Verif.TsMapping.C51_extract",
    "Verif.TsMapping.C51_end_to_end"
   ],
   "note": "Conversions between samples and nanoseconds are parameters (floating point in the code); mapping logic is exact."
  },
  {
   "property": "C52",
   "status": "partial",
   "theorems": [
    "Verif.RateLimiter.C52_one_grant_per_cell_partial",
    "Verif.RateLimiter.C52_three_grants_partial",
    "Verif.RateLimiter.C52_granted_after_period",
    "Verif.RateLimiter.C52_bad_period",
    "Verif.RateLimiter.C52_distance_fails"
   ],
   "note": "One grant per period cell proved; the minimal distance between grants is proved to fail."
  },
  {
   "property": "C53",
   "status": "partial",
   "theorems": [
    "Verif.IntrusiveList.C53_sequences",
    "Verif.IntrusiveList.C53_exclusive",
    "Verif.IntrusiveList.C53_misuse_partial",
    "Verif.IntrusiveList.C53_insert_after_fails"
   ],
   "note": "Heap-level pointer model of any number of lists refined to disjoint sequences, for every history of legal calls. Misuse is detected except for insert_after with a removed reference element, proved by C53_insert_after_fails."
  },
  {
   "property": "C54",
   "status": "proved",
   "theorems": [
    "Verif.Timer.C54_no_lost_wakeup",
    "Verif.Timer.C54_returns",
    "Verif.Timer.C54_not_early",
    "Verif.Timer.C54_posts_bounded"
   ],
   "note": "Transition system with any number of setters, one waiter and a clock (sequentially consistent memory; seqlocks abstracted to busy/publish). Proved: no lost wakeup, the wait ends once the deadline is reached, the wait does not end before a loaded deadline was reached."
  },
  {
   "property": "C55",
   "status": "proved",
   "theorems": [
    "Verif.StringBuilder.C55_number"
   ],
   "note": "Every unsigned 64-bit number and every base 2..16."
  },
  {
   "property": "C56",
   "status": "partial",
   "theorems": [
    "Verif.ChannelMatrix.C56_terminates_partial",
    "Verif.ChannelMatrix.C56_lfe_output_fails",
    "Verif.ChannelMatrix.C56_lfe_input_fails"
   ],
   "note": "Proved for all sets with a channel besides low frequency; with only low frequency on one side the builder loops forever (both directions are proved)."
  },
  {
   "property": "C57",
   "status": "partial",
   "theorems": [
    "Verif.ChannelMatrix.C57_no_gain",
    "Verif.ChannelMatrix.C57_same_channels",
    "Verif.ChannelMatrix.C57_coverage_fails"
   ],
   "note": "Exact rational coefficients. The last clause is false: 7.1.4 to 7.1.2-3c falls back to the diagonal matrix and loses the top channels."
  },
  {
   "property": "C58",
   "status": "partial",
   "theorems": [
    "Verif.SlabPool.C58_limits_partial",
    "Verif.SlabPool.C58_small_max_fails",
    "Verif.SlabPool.C58_equal_limits_fails"
   ],
   "note": "False in two corner cases: a maximum below one slot is exceeded, and equal limits that are not a multiple of the slot size abort the constructor. Otherwise proved (C58_limits_partial needs room for one slot below the maximum)."
  },
  {
   "property": "C59",
   "status": "partial",
   "theorems": [
    "Verif.EndpointUri.C59_roundtrip_partial",
    "Verif.EndpointUri.C59_host_query_fails",
    "Verif.EndpointUri.C59_path_fails",
    "Verif.EndpointUri.C59_equal_iff",
    "Verif.EndpointUri.C59_no_fragment"
   ],
   "note": "Partial: proved for grammatical hosts without '?', absolute paths and queries without '?' or '#', except a named host directly followed by a query. C59_host_query_fails and C59_path_fails show texts that parse to another URI."
  },
  {
   "property": "C60",
   "status": "partial",
   "theorems": [
    "Verif.Sdp.C60_payload_ids_partial",
    "Verif.Sdp.C60_payload_ids_fails"
   ],
   "note": "Partial: proved for numbers in digits below 2^32; C60_payload_ids_fails shows accepted lines with larger or negative numbers that give other ids."
  },
  {
   "property": "C61",
   "status": "partial",
   "theorems": [
    "Verif.Reporter.C61_faithful_partial",
    "Verif.Reporter.C61_faithful_fails"
   ],
   "note": "Partial: holds when the list of received sources stays the same or changes its length. Fails witness: replacing one received stream by another known one sends a report about the old stream with data of the new one."
  },
  {
   "property": "C62",
   "status": "partial",
   "theorems": [
    "Verif.Reporter.C62_dest_partial",
    "Verif.Reporter.C62_dest_fails"
   ],
   "note": "Partial: holds when the participant sends from the beginning. Fails witness: a packet received before sending starts builds an index without the address and nothing triggers a rebuild."
  },
  {
   "property": "C63",
   "status": "partial",
   "theorems": [
    "Verif.Packetizer.C63_flush_partial",
    "Verif.Packetizer.C63_flush_fails"
   ],
   "note": "Proved for packets with at most 255 bytes of padding; false otherwise: the composer rejects larger padding and the shipper aborts (C63_flush_fails). flush() is public but has no caller in the pipeline."
  },
  {
   "property": "C64",
   "status": "partial",
   "theorems": [
    "Verif.Mixer.C64_average_partial",
    "Verif.Mixer.C64_missing_fails",
    "Verif.Mixer.C64_large_fails"
   ],
   "note": "C64_average_partial: average (rounded down) and union of flags when all inputs have timestamps and the frame fits the temporary buffer, in exact arithmetic. C64_missing_fails: an input without timestamp halves the result; C64_large_fails: timestamp of the last chunk."
  },
  {
   "property": "C65",
   "status": "partial",
   "theorems": [
    "Verif.SessionRouter.C65_group_partial",
    "Verif.SessionRouter.C65_no_panic_partial",
    "Verif.SessionRouter.C65_delivered_partial",
    "Verif.SessionRouter.C65_no_cname_fails",
    "Verif.SessionRouter.C65_orphan_fails"
   ],
   "note": "Group, router and reporter callbacks composed. No panic and delivery to a live session for all histories in which every sender report comes with a CNAME. False in general: one RTCP packet with SR and without CNAME panics the receiver (C65_no_cname_fails); a session whose CNAME is taken over stays in the list without a route (C65_orphan_fails). Failures inside the reporter itself are C30."
  },
  {
   "property": "C66",
   "status": "proved",
   "theorems": [
    "Verif.LatencyTuner.C66_bounds",
    "Verif.LatencyTuner.C66_scaling",
    "Verif.LatencyTuner.C66_once"
   ],
   "note": "Full state machine of the tuner; ns-to-samples conversion and the frequency estimator are parameters."
  },
  {
   "property": "C67",
   "status": "proved",
   "theorems": [
    "Verif.EndToEnd.C67_end_to_end",
    "Verif.EndToEnd.C67_short_stream",
    "Verif.EndToEnd.C67_lossless"
   ],
   "note": "Packetizer, sequencer and depacketizer are composed; everything between them is an arbitrary network that delivers only sent packets. Timestamps are 32 bit, so packets have to be consumed less than 2^31 samples away from their place (automatic for streams shorter than 2^31 samples: C67_short_stream)."
  },
  {
   "property": "C68",
   "status": "proved",
   "theorems": [
    "Verif.TaskQueue.C68_no_abort",
    "Verif.TaskQueue.C68_obeys",
    "Verif.TaskQueue.C68_once",
    "Verif.TaskQueue.C68_idle",
    "Verif.TaskQueue.C68_settles",
    "Verif.TaskQueue.C68_no_oversleep",
    "Verif.TaskQueue.C68_no_loss",
    "Verif.TaskQueue.C68_timer"
   ],
   "note": "Proved for all histories that follow Spec.Allowed (no negative deadline; the rules on resume are those C69 needs). API calls and steps of the background thread are atomic in the model."
  },
  {
   "property": "C69",
   "status": "partial",
   "theorems": [
    "Verif.TaskQueue.C69_resume_partial",
    "Verif.TaskQueue.C69_cancel_lost_fails",
    "Verif.TaskQueue.C69_pause_twice_fails",
    "Verif.TaskQueue.C69_resume_running_fails",
    "Verif.TaskQueue.C69_resume_completed_fails",
    "Verif.TaskQueue.C69_resume_cancelled_fails",
    "Verif.TaskQueue.C69_still_linked_fails"
   ],
   "note": "False as stated: a cancellation during execution is lost if the task then pauses; pausing twice aborts; resuming a running, completed, cancelled or new task runs it again or aborts; a task that was resumed stays linked in the paused queue. The partial theorem: a resume of a paused task is followed."
  },
  {
   "property": "C70",
   "status": "partial",
   "theorems": [
    "Verif.Reporter.C70_addressed_partial",
    "Verif.Reporter.C70_zero_timestamp_fails",
    "Verif.Reporter.C70_replaced_fails"
   ],
   "note": "Proved for sender reports with non-zero timestamps and a list of received streams that stays the same or changes its length between calls; both conditions are necessary (witnesses C70_zero_timestamp_fails, C70_replaced_fails)."
  },
  {
   "property": "C71",
   "status": "proved",
   "theorems": [
    "Verif.FecReader.C71_in_time"
   ],
   "note": "Proved for streams with fixed block and payload size, with the source queue sorted relative to the current block (what the sorted queue gives, C03, when the queue spans less than half of the block number range) and as long as the reader is alive."
  },
  {
   "property": "C72",
   "status": "partial",
   "theorems": [
    "Verif.FecReader.C72_starts_partial",
    "Verif.FecReader.C72_other_size_fails"
   ],
   "note": "Proved when all packets have the same block and payload size. False in general: a packet from the middle of a block sets the block size, and a stream with another block size then never starts (C72_other_size_fails holds for every continuation)."
  },
  {
   "property": "C73",
   "status": "proved",
   "theorems": [
    "Verif.PcmFormat.C73_map",
    "Verif.PcmFormat.C73_abort_iff",
    "Verif.PcmFormat.C73_pieces"
   ],
   "note": "All 20 byte-aligned integer codes in both byte orders. Floating-point formats are in C76 (values only), formats that are not byte-aligned in C75."
  },
  {
   "property": "C74",
   "status": "partial",
   "theorems": [
    "Verif.PcmFormat.C74_lossless",
    "Verif.PcmFormat.C74_nearest",
    "Verif.PcmFormat.C74_nearest_fails",
    "Verif.PcmFormat.C74_unsigned_partial",
    "Verif.PcmFormat.C74_monotone",
    "Verif.PcmFormat.C74_silence"
   ],
   "note": "Nearest level holds unless both formats are unsigned: then the code cuts bits off (C74_nearest_fails, C74_unsigned_partial)."
  },
  {
   "property": "C75",
   "status": "partial",
   "theorems": [
    "Verif.PcmFormat.C75_packed_partial",
    "Verif.PcmFormat.C75_read_narrow_fails",
    "Verif.PcmFormat.C75_write18_fails",
    "Verif.PcmFormat.C75_write20_fails"
   ],
   "note": "False: 18-bit samples are written with a wrong shift, negative 20-bit samples overwrite the sample in front, and reading to fewer bits sees bits of the sample in front. Proved for reading into byte-aligned formats with at least as many bits, which is what the tests cover."
  },
  {
   "property": "C76",
   "status": "partial",
   "theorems": [
    "Verif.PcmFormat.C76_exact",
    "Verif.PcmFormat.C76_roundtrip",
    "Verif.PcmFormat.C76_error",
    "Verif.PcmFormat.C76_infinite",
    "Verif.PcmFormat.C76_monotone",
    "Verif.PcmFormat.C76_wide",
    "Verif.PcmFormat.C76_nan_fails"
   ],
   "note": "Floating-point numbers are rationals rounded to 24 or 53 bits; bounds of the exponent do not matter here (see FloatModel). NaN is undefined behaviour (C76_nan_fails); for integers with more bits than the mantissa C76_wide bounds the error."
  },
  {
   "property": "C77",
   "status": "proved",
   "theorems": [
    "Verif.PcmNames.C77_roundtrip",
    "Verif.PcmNames.C77_only_names",
    "Verif.PcmNames.C77_describes",
    "Verif.PcmNames.C77_valid_iff",
    "Verif.PcmNames.C77_canon",
    "Verif.PcmNames.C77_codes"
   ],
   "note": "Tables were copied from the C++ source by a script. Finite parts are checked for all 78 formats by kernel evaluation; acceptance is proved for every string."
  },
  {
   "property": "C78",
   "status": "partial",
   "theorems": [
    "Verif.SampleTime.C78_duration_error",
    "Verif.SampleTime.C78_duration_monotone",
    "Verif.SampleTime.C78_roundtrip_partial",
    "Verif.SampleTime.C78_delta_partial",
    "Verif.SampleTime.C78_roundtrip_fails",
    "Verif.SampleTime.C78_overall",
    "Verif.SampleTime.C78_bytes"
   ],
   "note": "Proved up to 1.5 million samples and rates up to 2^20; false for larger numbers (C78_roundtrip_fails holds for every rate)."
  },
  {
   "property": "C79",
   "status": "partial",
   "theorems": [
    "Verif.PcmCoder.C79_writes",
    "Verif.PcmCoder.C79_abort_iff",
    "Verif.PcmCoder.C79_unreported_fails"
   ],
   "note": "The fails theorem: if the frame size is not a multiple of a sample of all channels, a part of a sample that is not reported is written. Formats of 18 and 20 bits without padding are excluded (see C75). Raw samples are numbers, their bytes are not modelled."
  },
  {
   "property": "C80",
   "status": "proved",
   "theorems": [
    "Verif.PcmCoder.C80_reads",
    "Verif.PcmCoder.C80_abort_iff",
    "Verif.PcmCoder.C80_sizes",
    "Verif.PcmCoder.C80_enough",
    "Verif.PcmCoder.C80_roundtrip",
    "Verif.PcmCoder.C80_error"
   ],
   "note": "Formats of 18 and 20 bits without padding are excluded (see C75)."
  },
  {
   "property": "C81",
   "status": "partial",
   "theorems": [
    "Verif.Batching.C81_read",
    "Verif.Batching.C81_write",
    "Verif.Batching.C81_small_buffer_read_fails",
    "Verif.Batching.C81_small_buffer_write_fails",
    "Verif.Batching.C81_empty_fails"
   ],
   "note": "Frames are lists of samples of any type; capture timestamps are unbounded integers (overflow of 64 bits not modelled). The reader below is any stream whose answer for a longer request combines the answers for its parts (Spec.Regular). With a temporary buffer smaller than one sample for all channels the reader loops forever and the writer aborts; reading an empty frame aborts."
  },
  {
   "property": "C82",
   "status": "partial",
   "theorems": [
    "Verif.Batching.C82_read",
    "Verif.Batching.C82_write",
    "Verif.Batching.C82_small_buffer_read_fails",
    "Verif.Batching.C82_small_buffer_write_fails",
    "Verif.Batching.C82_empty_fails"
   ],
   "note": "Only the direction raw-to-integer for reading and integer-to-raw for writing, with formats of whole bytes per sample (others are in C74). Floating point as in C76. With a temporary buffer smaller than one raw sample for all channels the reader loops forever and the writer aborts; reading an empty frame aborts."
  },
  {
   "property": "C83",
   "status": "partial",
   "theorems": [
    "Verif.BuiltinResampler.C83_window_partial",
    "Verif.BuiltinResampler.C83_edge_fails",
    "Verif.BuiltinResampler.C83_upsampling_fails",
    "Verif.BuiltinResampler.C83_fraction_fails",
    "Verif.BuiltinResampler.C83_create_fails",
    "Verif.BuiltinResampler.C83_nan_fails"
   ],
   "note": "Proved for buffers up to 2047 samples and output rates up to 4/3 of the input rate (or scaling above one), except for the one position where the window ends exactly at the end of a frame. Refuted there, for output rates of 3/2 of the input rate and above, for the interpolation fraction, for a NaN multiplier, and for a constructor whose frame does not fit the buffer. The floating-point sum and the contents of the table are not modelled."
  },
  {
   "property": "C84",
   "status": "partial",
   "theorems": [
    "Verif.BuiltinResampler.C84_positions",
    "Verif.BuiltinResampler.C84_no_drift",
    "Verif.BuiltinResampler.C84_left",
    "Verif.BuiltinResampler.C84_rate",
    "Verif.BuiltinResampler.C84_zero_step_fails",
    "Verif.BuiltinResampler.C84_failed_read_fails",
    "Verif.BuiltinResampler.C84_left_fails"
   ],
   "note": "Proved for readers below that always succeed. Refuted after a failed read, for a multiplier so small that the step is zero, and for n_left_to_process of frames above 2047 samples. qt_epsilon_ turns out to be zero, so the rounding of positions in pop_output never happens."
  },
  {
   "property": "C85",
   "status": "partial",
   "theorems": [
    "Verif.ResamplerWriter.C85_output",
    "Verif.ResamplerWriter.C85_division",
    "Verif.ResamplerWriter.C85_channels_fails",
    "Verif.ResamplerWriter.C85_zero_step_fails"
   ],
   "note": "Proved for output buffers whose size is a multiple of the number of channels, steps between 1 and one block and blocks of at most 2047 samples. With another buffer size samples are written after the end of the buffer, and with a step of zero write never returns (both proved)."
  },
  {
   "property": "C86",
   "status": "partial",
   "theorems": [
    "Verif.ResamplerTime.C86_reader",
    "Verif.ResamplerTime.C86_writer",
    "Verif.ResamplerTime.C86_rejected_fails",
    "Verif.ResamplerTime.C86_no_timestamp_fails"
   ],
   "note": "Proved with exact models of all float conversions, for blocks of at most 2047 samples and accepted scalings. False after a rejected change of the scaling and when an input block has no timestamp (both proved)."
  },
  {
   "property": "C87",
   "status": "partial",
   "theorems": [
    "Verif.StateTracker.C87_active",
    "Verif.StateTracker.C87_idle_partial",
    "Verif.StateTracker.C87_bad_packet_fails",
    "Verif.StateTracker.C87_unlink_fails"
   ],
   "note": "Transition system with one step per atomic operation; packets carry their place in the program. Proved: active while there is anything to do, counters never negative. Idle when there is nothing to do only without malformed packets and removed endpoints; otherwise the receiver or sender is active forever (two negations)."
  },
  {
   "property": "C88",
   "status": "partial",
   "theorems": [
    "Verif.Pump.C88_order",
    "Verif.Pump.C88_source",
    "Verif.Pump.C88_choice",
    "Verif.Pump.C88_alone",
    "Verif.Pump.C88_oneshot_fails",
    "Verif.Pump.C88_paused_partial",
    "Verif.Pump.C88_one_partial",
    "Verif.Pump.C88_one_fails",
    "Verif.Pump.C88_result",
    "Verif.Pump.C88_paused_fails",
    "Verif.Pump.C88_busy_fails"
   ],
   "note": "Sources are arbitrary: all their answers are inputs of the model. Proved: order of frames, choice of source, end of the loop. Negations: oneshot mode without backup ends after one frame before any client has connected; a paused main source is read after the end of the backup source; an empty backup source makes the pump spin."
  },
  {
   "property": "C89",
   "status": "partial",
   "theorems": [
    "Verif.FreqEstimator.C89_responsive",
    "Verif.FreqEstimator.C89_gradual",
    "Verif.FreqEstimator.C89_skipped_fails",
    "Verif.FreqEstimator.C89_bounded",
    "Verif.FreqEstimator.C89_bounded_gradual",
    "Verif.FreqEstimator.C89_integral"
   ],
   "note": "Rational arithmetic, rounding of double is not modelled. Coefficient as a function of the list of measurements for both profiles, bound, and unbounded response to a constant deviation (responsive profile). Negation: the filter does not see consecutive measurements, every tenth one is overwritten."
  },
  {
   "property": "C90",
   "status": "partial",
   "theorems": [
    "Verif.NodeSlots.C90_receiver_partial",
    "Verif.NodeSlots.C90_no_control_partial",
    "Verif.NodeSlots.C90_rebind_fails",
    "Verif.NodeSlots.C90_control_window_fails",
    "Verif.NodeSlots.C90_failed",
    "Verif.NodeSlots.C90_broken",
    "Verif.NodeSlots.C90_query_partial",
    "Verif.NodeSlots.C90_query_fails"
   ],
   "note": "Histories without a second bind of the same interface: no dangling reference when a call returns, no leak after closing; without the control interface also between requests. Rebinding an interface leaks its first port with a reference to the deleted slot; with the control interface there is a window during unlink; query of a broken slot aborts."
  },
  {
   "property": "C91",
   "status": "partial",
   "theorems": [
    "Verif.NodeSlots.C91_sender",
    "Verif.NodeSlots.C91_no_control_partial",
    "Verif.NodeSlots.C91_control_window_fails",
    "Verif.NodeSlots.C91_share",
    "Verif.NodeSlots.C91_configure_fails",
    "Verif.NodeSlots.C91_query_fails"
   ],
   "note": "Unconditional at call boundaries; without the control interface also between requests. Counterexamples: window during unlink with the control interface, configure of an interface that shares a port succeeds, query of a broken slot aborts."
  },
  {
   "property": "C92",
   "status": "partial",
   "theorems": [
    "Verif.Decimation.C92_edit",
    "Verif.Decimation.C92_drift",
    "Verif.Decimation.C92_short",
    "Verif.Decimation.C92_no_abort",
    "Verif.Decimation.C92_abort",
    "Verif.Decimation.C92_scaling",
    "Verif.Decimation.C92_range",
    "Verif.Decimation.C92_failed_scaling_fails"
   ],
   "note": "Edits, drift, no abort and the admitted range are proved for all histories without the inner resampler's own output (it is an oracle for samples and answers). Single precision is modelled as rounding to 24 bits without overflow. A rejected set_scaling may still switch routing to the inner resampler (counterexample)."
  },
  {
   "property": "C93",
   "status": "partial",
   "theorems": [
    "Verif.SpecParse.C93_meaning",
    "Verif.SpecParse.C93_unique",
    "Verif.SpecParse.C93_rejected",
    "Verif.SpecParse.C93_overflow_iff",
    "Verif.SpecParse.C93_abort_iff",
    "Verif.SpecParse.C93_returns_partial",
    "Verif.SpecParse.C93_overflow_fails",
    "Verif.SpecParse.C93_abort_fails",
    "Verif.SpecParse.C93_long_mask_fails",
    "Verif.SpecParse.C93_valid_partial",
    "Verif.SpecParse.C93_valid_fails",
    "Verif.SpecParse.C93_encoding"
   ],
   "note": "The Ragel machine is modelled as the automaton it generates (states and actions written out by hand). Counterexamples: a format token of 16 or more characters overruns the 16-byte buffer (C93_overflow_fails, C93_overflow_iff); reversed ranges and masks with bits above 1023 abort (C93_abort_fails, C93_long_mask_fails, C93_abort_iff); 0x0 is accepted with an empty set (C93_valid_fails)."
  },
  {
   "property": "C94",
   "status": "partial",
   "theorems": [
    "Verif.SpecParse.C94_surround",
    "Verif.SpecParse.C94_surround_fails",
    "Verif.SpecParse.C94_multitrack",
    "Verif.SpecParse.C94_round_trip",
    "Verif.SpecParse.C94_distinct",
    "Verif.SpecParse.C94_truncated_fails"
   ],
   "note": "The characters are those appended to the string builder; their truncation is that of C50. Counterexamples: C94_surround_fails (channel 17 in a surround set aborts), C94_truncated_fails (128-character buffer)."
  },
  {
   "property": "C95",
   "status": "partial",
   "theorems": [
    "Verif.WavFile.C95_content",
    "Verif.WavFile.C95_fields",
    "Verif.WavFile.C95_sizes_partial",
    "Verif.WavFile.C95_channels_fails",
    "Verif.WavFile.C95_memory_fails",
    "Verif.WavFile.C95_big_endian_fails",
    "Verif.WavFile.C95_order"
   ],
   "note": "Failures of the file system are not modelled. Counterexamples: C95_channels_fails (two or more channels: sizes are multiplied by the number of channels), C95_memory_fails (the number of samples is never initialised; memory of the heap arena is filled with 0x7a), C95_big_endian_fails."
  },
  {
   "property": "C96",
   "status": "partial",
   "theorems": [
    "Verif.ParseUnits.C96_duration",
    "Verif.ParseUnits.C96_undefined_iff",
    "Verif.ParseUnits.C96_exact",
    "Verif.ParseUnits.C96_error",
    "Verif.ParseUnits.C96_size",
    "Verif.ParseUnits.C96_size_undefined_iff",
    "Verif.ParseUnits.C96_size_exact",
    "Verif.ParseUnits.C96_max_fails",
    "Verif.ParseUnits.C96_size_max_fails",
    "Verif.ParseUnits.C96_nan_fails"
   ],
   "note": "strtod is modelled after the C standard for the C locale, with unbounded exponents. Counterexamples: C96_max_fails (9223372036854775807ns), C96_size_max_fails (18446744073709551615), C96_nan_fails (+nanms): undefined conversions of double to integers."
  },
  {
   "property": "C97",
   "status": "partial",
   "theorems": [
    "Verif.Feedback.C97_view",
    "Verif.Feedback.C97_cooldown_partial",
    "Verif.Feedback.C97_cooldown_fails",
    "Verif.Feedback.C97_counter_fails",
    "Verif.Feedback.C97_frames",
    "Verif.Feedback.C97_scaling",
    "Verif.Feedback.C97_no_abort",
    "Verif.Feedback.C97_refused_fails",
    "Verif.Feedback.C97_reset_fails",
    "Verif.Feedback.C97_bounds_fails"
   ],
   "note": "Proved: the view of the user is a function of the history (C97_view), frames (C97_frames), metrics fed to the tuner and factors (C97_scaling), no abort if the resampler accepts factors within the tolerance (C97_no_abort). Cooldown holds per period of a grid (C97_cooldown_partial). False, with witnesses: a full cooldown between changes (C97_cooldown_fails); the fallback to the counter of the sender outlives the receiver (C97_counter_fails); a tolerance wider than the resampler accepts makes write abort (C97_refused_fails); the factor is not reset after the timeout (C97_reset_fails); out-of-bounds latency is ignored (C97_bounds_fails). Loops of the tuner may hang, see C47."
  },
  {
   "property": "C98",
   "status": "partial",
   "theorems": [
    "Verif.Hashsum.C98_int32",
    "Verif.Hashsum.C98_int64",
    "Verif.Hashsum.C98_signed",
    "Verif.Hashsum.C98_int16_partial",
    "Verif.Hashsum.C98_int16_fails",
    "Verif.Hashsum.C98_one_byte",
    "Verif.Hashsum.C98_parts_partial",
    "Verif.Hashsum.C98_parts_fails"
   ],
   "note": "Injectivity by inverting every step (xor with a shifted copy, multiplication by an odd number). The 16-bit version is undefined behaviour for many numbers, starting with 3 (C98_int16_fails)."
  },
  {
   "property": "C99",
   "status": "partial",
   "theorems": [
    "Verif.SocketAddr.C99_set",
    "Verif.SocketAddr.C99_port_partial",
    "Verif.SocketAddr.C99_port_fails",
    "Verif.SocketAddr.C99_parse",
    "Verif.SocketAddr.C99_equivalence",
    "Verif.SocketAddr.C99_equal",
    "Verif.SocketAddr.C99_hash_partial",
    "Verif.SocketAddr.C99_reuse_fails",
    "Verif.SocketAddr.C99_scope_fails",
    "Verif.SocketAddr.C99_text",
    "Verif.SocketAddr.C99_multicast",
    "Verif.SocketAddr.C99_auto",
    "Verif.SocketAddr.C99_saddr"
   ],
   "note": "inet_pton and inet_ntop are parameters. Findings: port out of range accepted (C99_port_fails), equal addresses with different hashes (C99_reuse_fails, C99_scope_fails)."
  },
  {
   "property": "C100",
   "status": "partial",
   "theorems": [
    "Verif.TcpConn.C100_no_abort_partial",
    "Verif.TcpConn.C100_no_abort_fails",
    "Verif.TcpConn.C100_abort_only",
    "Verif.TcpConn.C100_callbacks",
    "Verif.TcpConn.C100_last_callback_partial",
    "Verif.TcpConn.C100_last_callback_fails",
    "Verif.TcpConn.C100_completes_partial",
    "Verif.TcpConn.C100_cleanup",
    "Verif.TcpConn.C100_graceful_partial",
    "Verif.TcpConn.C100_is_failed",
    "Verif.TcpConn.C100_ready"
   ],
   "note": "Results of system calls and poll events are arbitrary; open, accept, connect, attach and the completion of termination are single steps; reads are sequentially consistent. Findings: abort when termination races with a poll error (C100_no_abort_fails), callback after termination (C100_last_callback_fails). The other statements hold in all runs, or (suffix _partial and C100_is_failed) in runs in which termination does not interrupt a callback of the loop."
  },
  {
   "property": "C101",
   "status": "partial",
   "theorems": [
    "Verif.ApiConfig.C101_register",
    "Verif.ApiConfig.C101_builtin",
    "Verif.ApiConfig.C101_unique",
    "Verif.ApiConfig.C101_select",
    "Verif.ApiConfig.C101_auto_partial",
    "Verif.ApiConfig.C101_auto_fails",
    "Verif.ApiConfig.C101_format_fails"
   ],
   "note": "Channel sets are the model of C42; null pointers, locking and codec constructors are left out. Findings: automatic selection of the packet encoding never works (C101_auto_fails), the registered format is replaced (C101_format_fails); what find_by_spec does on an arbitrary table is C101_auto_partial."
  },
  {
   "property": "C102",
   "status": "partial",
   "theorems": [
    "Verif.ApiConfig.C102_sender",
    "Verif.ApiConfig.C102_receiver",
    "Verif.ApiConfig.C102_fec_fails",
    "Verif.ApiConfig.C102_duration_fails",
    "Verif.ApiConfig.C102_endpoints",
    "Verif.ApiConfig.C102_levels",
    "Verif.ApiConfig.C102_context",
    "Verif.ApiConfig.C102_interface",
    "Verif.ApiConfig.C102_e2e"
   ],
   "note": "inet_pton is a parameter; arrays of characters are assumed to hold a terminated string. Findings: one zero field of the FEC block (C102_fec_fails), durations from 2^63 (C102_duration_fails). A zero packet_encoding is counted as not allowed because of C101_auto_fails."
  },
  {
   "property": "C103",
   "status": "partial",
   "theorems": [
    "Verif.Defaults.C103_receiver_partial",
    "Verif.Defaults.C103_session_partial",
    "Verif.Defaults.C103_intact_fails",
    "Verif.Defaults.C103_sender_partial",
    "Verif.Defaults.C103_sender_larger",
    "Verif.Defaults.C103_tolerance_fails",
    "Verif.Defaults.C103_overflow_fails",
    "Verif.Defaults.C103_watchdog_partial",
    "Verif.Defaults.C103_resampler"
   ],
   "note": "The expression with logarithms is a parameter that is close to the exact real value (LibOk); overflow of 64-bit arithmetic is a distinct outcome. Findings: intact receiver with zero target (C103_intact_fails), overflow (C103_overflow_fails), table in the comment (C103_tolerance_fails). Partial: targets up to 2^53 ns."
  },
  {
   "property": "C104",
   "status": "partial",
   "theorems": [
    "Verif.EncoderApi.C104_activate",
    "Verif.EncoderApi.C104_once",
    "Verif.EncoderApi.C104_no_abort_partial",
    "Verif.EncoderApi.C104_retry_fails",
    "Verif.EncoderApi.C104_monitor_fails",
    "Verif.EncoderApi.C104_abort",
    "Verif.EncoderApi.C104_ready",
    "Verif.EncoderApi.C104_popped",
    "Verif.EncoderApi.C104_pop_partial",
    "Verif.EncoderApi.C104_small_buffer_fails",
    "Verif.EncoderApi.C104_push",
    "Verif.EncoderApi.C104_pushed",
    "Verif.EncoderApi.C104_frame"
   ],
   "note": "Full for push and for the order of packets. A repeated activate after a failure aborts (C104_retry_fails, an equivalence if the latency configuration is usable), and so does activating control on an encoder whose feedback monitor is not valid (C104_monitor_fails); C104_abort: nothing else does. So no_abort is partial; a pop with a too small buffer loses the packet (C104_small_buffer_fails), so completeness of pop is partial. The pipeline is an environment that writes and takes arbitrary packets where the slot lets it; the node runs one call at a time."
  },
  {
   "property": "C105",
   "status": "partial",
   "theorems": [
    "Verif.LatencyMonitor.C105_niq",
    "Verif.LatencyMonitor.C105_niq_unknown",
    "Verif.LatencyMonitor.C105_terminate",
    "Verif.LatencyMonitor.C105_frames",
    "Verif.LatencyMonitor.C105_stalling_fails",
    "Verif.LatencyMonitor.C105_scaling",
    "Verif.LatencyMonitor.C105_e2e",
    "Verif.LatencyMonitor.C105_e2e_unknown",
    "Verif.LatencyMonitor.C105_e2e_fails",
    "Verif.LatencyMonitor.C105_progress_partial"
   ],
   "note": "Composed with the tuner model of C47/C66. Stale delay and stale end-to-end latency are proved (C105_stalling_fails, C105_e2e_fails). Progress is partial because of the 32-bit position of the tuner (C47). Link metrics are left out: they are only logged."
  },
  {
   "property": "C106",
   "status": "partial",
   "theorems": [
    "Verif.UdpPort.C106_order",
    "Verif.UdpPort.C106_once",
    "Verif.UdpPort.C106_flushed",
    "Verif.UdpPort.C106_fallback_fails",
    "Verif.UdpPort.C106_close_partial",
    "Verif.UdpPort.C106_close_fails",
    "Verif.UdpPort.C106_finite",
    "Verif.UdpPort.C106_no_abort",
    "Verif.UdpPort.C106_no_buffer_fails",
    "Verif.UdpPort.C106_recv",
    "Verif.UdpPort.C106_silent",
    "Verif.UdpPort.C106_empty_fails",
    "Verif.UdpPort.C106_race_fails",
    "Verif.UdpPort.C106_bind",
    "Verif.UdpPort.C106_member"
   ],
   "note": "Order, exactly-once, no lost wakeup, bounded activity, delivery of datagrams, silence after closing and absence of aborts for all interleavings (invariant over all reachable states). Closing is partial: it completes unless uv_udp_send returned an error. Disproved: fallback of a non-blocking write (WouldBlock = -1 converted to bool true, packet dropped), closing after a failed uv_udp_send (pending counter never returns to zero), lack of memory for a receive buffer (null base dereferenced); outside of the rules: empty packets are sent twice, async_close during a write never completes. libuv is an environment with its documented behavior."
  },
  {
   "property": "C107",
   "status": "partial",
   "theorems": [
    "Verif.DynArray.C107_list",
    "Verif.DynArray.C107_destroyed",
    "Verif.DynArray.C107_amortized",
    "Verif.DynArray.C107_alias_partial",
    "Verif.DynArray.C107_alias_fails",
    "Verif.DynArray.C107_overflow_fails",
    "Verif.DynArray.C107_hang_fails"
   ],
   "note": "List refinement, exactly-once destruction and amortized cost for all histories whose sizes fit into the address space. Disproved with witnesses: pushing an own element during growth reads a destroyed object; n * sizeof(T) wraps and a small block is used; grow_exp by more than 2^63 elements never ends. Partial: own elements may be pushed while there is capacity."
  },
  {
   "property": "C108",
   "status": "partial",
   "theorems": [
    "Verif.Slice.C108_inside",
    "Verif.Slice.C108_freed",
    "Verif.Slice.C108_reslice",
    "Verif.Slice.C108_sub",
    "Verif.Slice.C108_extend_partial",
    "Verif.Slice.C108_get",
    "Verif.Slice.C108_set",
    "Verif.Slice.C108_copy",
    "Verif.Slice.C108_others",
    "Verif.Slice.C108_safe_partial",
    "Verif.Slice.C108_index_fails",
    "Verif.Slice.C108_extend_fails"
   ],
   "note": "Containment, lifetime, exact panics, sharing and independence for all histories (reference counts equal the number of slices, by invariant). Partial: memory safety except for an index equal to the size; extend without overflow. Disproved with witnesses: operator[] accepts index = size (comparison with > instead of >=); extend by 2^64-1 shrinks the slice. Reference counter is a natural number (no 2^31 references)."
  },
  {
   "property": "C109",
   "status": "partial",
   "theorems": [
    "Verif.NetLoop.C109_no_abort_partial",
    "Verif.NetLoop.C109_once",
    "Verif.NetLoop.C109_bounded",
    "Verif.NetLoop.C109_completed",
    "Verif.NetLoop.C109_completes",
    "Verif.NetLoop.C109_num",
    "Verif.NetLoop.C109_handle",
    "Verif.NetLoop.C109_added",
    "Verif.NetLoop.C109_removed",
    "Verif.NetLoop.C109_destroyed",
    "Verif.NetLoop.C109_destroy_add_fails",
    "Verif.NetLoop.C109_rules_fails"
   ],
   "note": "Proved for all histories that follow the rules written in Legal: no abort, exactly one notification per task, a bound for the number of loop events, completion of all tasks and of the destructor in every quiet state, and a run to a quiet state from every state. Fails (proved by witnesses): destruction with waiting tasks (never returns, or aborts), and several misuses that abort. Ports are represented by their conditions for closing; libuv is an environment that delivers callbacks in any order."
  },
  {
   "property": "C110",
   "status": "partial",
   "theorems": [
    "Verif.TcpServer.C110_no_abort_partial",
    "Verif.TcpServer.C110_once",
    "Verif.TcpServer.C110_refs",
    "Verif.TcpServer.C110_removed",
    "Verif.TcpServer.C110_only",
    "Verif.TcpServer.C110_owned",
    "Verif.TcpServer.C110_close",
    "Verif.TcpServer.C110_closed",
    "Verif.TcpServer.C110_destroy",
    "Verif.TcpServer.C110_bounded",
    "Verif.TcpServer.C110_progress",
    "Verif.TcpServer.C110_completes",
    "Verif.TcpServer.C110_race_fails",
    "Verif.TcpServer.C110_null_fails",
    "Verif.TcpServer.C110_misuse",
    "Verif.TcpServer.C110_delay_fails"
   ],
   "note": "The server with all its connections, driven by arbitrary sequences of calls and callbacks; one connection is reduced to the phases of its state machine (component TcpConn has the complete one). C110_no_abort_partial assumes the rules Legal, two of which the interfaces do not state; C110_race_fails and C110_null_fails show that they are needed; C110_delay_fails: a server being closed goes on to accept, so that its close may never complete."
  },
  {
   "property": "C111",
   "status": "partial",
   "theorems": [
    "Verif.FileSource.C111_wav_stream_partial",
    "Verif.FileSource.C111_sndfile_stream_partial",
    "Verif.FileSource.C111_sox_file_stream",
    "Verif.FileSource.C111_sox_device_stream_partial",
    "Verif.FileSource.C111_sox_no_abort_partial",
    "Verif.FileSource.C111_wav_odd_frame_fails",
    "Verif.FileSource.C111_sndfile_odd_frame_fails",
    "Verif.FileSource.C111_sox_resume_eof_fails",
    "Verif.FileSource.C111_sox_resume_rate_fails",
    "Verif.FileSource.C111_sox_restart_fails",
    "Verif.FileSource.C111_sox_query_fails"
   ],
   "note": "The libraries dr_wav, sox and libsndfile are an arbitrary environment: content of the input, number of samples per call (at least one before the end), outcome of open and seek. Not modelled: sample conversion, constructor errors, memory allocation. The _partial theorems assume frames of whole PCM frames (C111_wav_odd_frame_fails, C111_sndfile_odd_frame_fails), no resume of an ended recording (C111_sox_resume_eof_fails), no failed restart and no query while paused (C111_sox_restart_fails, C111_sox_query_fails); C111_sox_resume_rate_fails shows the wrong rate."
  },
  {
   "property": "C112",
   "status": "partial",
   "theorems": [
    "Verif.IoUri.C112_parse_iff",
    "Verif.IoUri.C112_valid",
    "Verif.IoUri.C112_equivalent",
    "Verif.IoUri.C112_roundtrip_partial",
    "Verif.IoUri.C112_roundtrip_fails",
    "Verif.IoUri.C112_plain_partial",
    "Verif.IoUri.C112_plain_fails"
   ],
   "note": "The Ragel automaton is modelled by its regular expression (its alternatives exclude each other). C112_roundtrip_partial excludes the two kinds of paths of C112_roundtrip_fails; C112_plain_partial excludes the strings of C112_plain_fails. Memory allocation and the destination buffer are not modelled."
  },
  {
   "property": "C113",
   "status": "partial",
   "theorems": [
    "Verif.Backends.C113_device",
    "Verif.Backends.C113_file_format",
    "Verif.Backends.C113_file_auto",
    "Verif.Backends.C113_abort_iff",
    "Verif.Backends.C113_default_partial",
    "Verif.Backends.C113_default_calls_partial",
    "Verif.Backends.C113_default_fails",
    "Verif.Backends.C113_wav",
    "Verif.Backends.C113_sndfile_auto",
    "Verif.Backends.C113_sndfile_refuses",
    "Verif.Backends.C113_sndfile_name_partial",
    "Verif.Backends.C113_sndfile_name_fails",
    "Verif.Backends.C113_sox_names",
    "Verif.Backends.C113_sox_complete",
    "Verif.Backends.C113_sox_hidden",
    "Verif.Backends.C113_sox_once_fails",
    "Verif.Backends.C113_formats_partial",
    "Verif.Backends.C113_schemes_partial",
    "Verif.Backends.C113_formats_sound",
    "Verif.Backends.C113_schemes_sound",
    "Verif.Backends.C113_formats_fails"
   ],
   "note": "C113_default_fails: flags are tested with \"any\" instead of \"all\". C113_formats_fails: consequence of the defect of StringList::find (C49). C113_sndfile_name_fails, C113_sox_once_fails: see the statements. The *_partial theorems give the conditions under which the claim holds. Assumptions on libsndfile in C113_sndfile_name_partial are hypotheses."
  },
  {
   "property": "C114",
   "status": "partial",
   "theorems": [
    "Verif.Profiler.C114_average",
    "Verif.Profiler.C114_range",
    "Verif.Profiler.C114_create_partial",
    "Verif.Profiler.C114_zero_chunk_fails",
    "Verif.Profiler.C114_one_chunk_fails",
    "Verif.Profiler.C114_empty_fails",
    "Verif.Profiler.C114_rate_fails"
   ],
   "note": "float is modelled by rationals without rounding; division by zero is a distinct outcome. C114_zero_chunk_fails, C114_one_chunk_fails, C114_empty_fails and C114_rate_fails are the false parts; C114_create_partial excludes the chunk duration zero."
  },
  {
   "property": "C115",
   "status": "partial",
   "theorems": [
    "Verif.CsvDumper.C115_line",
    "Verif.CsvDumper.C115_ten_fields",
    "Verif.CsvDumper.C115_outcome_partial",
    "Verif.CsvDumper.C115_cut_fails",
    "Verif.CsvDumper.C115_overflow_fails",
    "Verif.CsvDumper.C115_exclusive",
    "Verif.CsvDumper.C115_order",
    "Verif.CsvDumper.C115_flush",
    "Verif.CsvDumper.C115_stops",
    "Verif.CsvDumper.C115_wakes",
    "Verif.CsvDumper.C115_rate",
    "Verif.CsvDumper.C115_accepts",
    "Verif.CsvDumper.C115_would_write_fails",
    "Verif.CsvDumper.C115_no_limit_fails",
    "Verif.CsvDumper.C115_contention_fails",
    "Verif.CsvDumper.C115_construct_fails"
   ],
   "note": "Proved for all interleavings: mutual exclusion, order, flush on stop, termination, no lost wake-up, rate limit, acceptance of an uncontended write; and for all entries: the exact line, its injectivity, the exact condition of the overflow. False, with witnesses: overflow of the line buffer (csv_dumper.cpp:154), cut lines, would_write with a full buffer, max_interval 0, contention, uninitialised file_ in the constructor. The ring buffer is one step per operation (C14)."
  },
  {
   "property": "C116",
   "status": "partial",
   "theorems": [
    "Verif.HeapArena.C116_alloc",
    "Verif.HeapArena.C116_free",
    "Verif.HeapArena.C116_overflow",
    "Verif.HeapArena.C116_foreign",
    "Verif.HeapArena.C116_count",
    "Verif.HeapArena.C116_size",
    "Verif.HeapArena.C116_clean",
    "Verif.HeapArena.C116_double_free_fails",
    "Verif.HeapArena.C116_huge_fails"
   ],
   "note": "Proved over a byte memory with an arbitrary malloc, for all histories; false, with proofs for all states and sizes concerned: detection of a double free, sizes that wrap around. Not modelled: overwritten chunk headers, wrap-around of the int counter."
  },
  {
   "property": "C117",
   "status": "partial",
   "theorems": [
    "Verif.ReceiverRefresh.C117_total",
    "Verif.ReceiverRefresh.C117_mixer",
    "Verif.ReceiverRefresh.C117_refresh",
    "Verif.ReceiverRefresh.C117_reclock",
    "Verif.ReceiverRefresh.C117_delete",
    "Verif.ReceiverRefresh.C117_deadline",
    "Verif.ReceiverRefresh.C117_reports",
    "Verif.ReceiverRefresh.C117_first_packet",
    "Verif.ReceiverRefresh.C117_repair_fails",
    "Verif.ReceiverRefresh.C117_unknown",
    "Verif.ReceiverRefresh.C117_query",
    "Verif.ReceiverRefresh.C117_query_error",
    "Verif.ReceiverRefresh.C117_query_null_fails"
   ],
   "note": "Which session a packet or RTCP element concerns, when reports are due and when a session ends are arbitrary choices of the environment (they are modelled in SessionRouter, RtcpGen, Watchdog). False parts with witnesses: C117_repair_fails, C117_query_null_fails. Latency, loss and jitter fields of reports are not part of this model (LinkMeter covers them)."
  },
  {
   "property": "C118",
   "status": "partial",
   "theorems": [
    "Verif.SenderSlots.C118_frames",
    "Verif.SenderSlots.C118_sessions",
    "Verif.SenderSlots.C118_metrics",
    "Verif.SenderSlots.C118_feedback",
    "Verif.SenderSlots.C118_added",
    "Verif.SenderSlots.C118_add",
    "Verif.SenderSlots.C118_refresh",
    "Verif.SenderSlots.C118_pipeline_fails",
    "Verif.SenderSlots.C118_monitor_fails",
    "Verif.SenderSlots.C118_abort"
   ],
   "note": "Unbounded over histories of calls and numbers of slots. Proved: the frames of every slot, number of sessions, is_complete, use of reports, refresh deadline, conditions for add_endpoint (for slots without failures), characterisation of aborts and undefined behaviour. The parts that fail are proved as C118_pipeline_fails and C118_monitor_fails (for every history that gets there); the abort of create_slot is part of C118_abort. Results of constructors are given by the environment; the contents of pipelines are not modelled here."
  },
  {
   "property": "C119",
   "status": "partial",
   "theorems": [
    "Verif.EndpointApi.C119_results",
    "Verif.EndpointApi.C119_getters",
    "Verif.EndpointApi.C119_accept",
    "Verif.EndpointApi.C119_accept_partial",
    "Verif.EndpointApi.C119_port_fails",
    "Verif.EndpointApi.C119_resource_fails",
    "Verif.EndpointApi.C119_get",
    "Verif.EndpointApi.C119_size_fails",
    "Verif.EndpointApi.C119_uri"
   ],
   "note": "(1) C119_results for all states; (2) C119_getters; (3) C119_accept, C119_uri; (4) C119_accept_partial, negation C119_port_fails for every bad port and host; (5) negation C119_resource_fails for every endpoint, protocol and continuation; (6) C119_get for all buffers, negation C119_size_fails. The parser is the tracked version of the automaton of C16 (agreement proved in Lemmas). Hypothesis Clean excludes exactly the resources of (5)."
  },
  {
   "property": "C120",
   "status": "partial",
   "theorems": [
    "Verif.FramePath.C120_refused",
    "Verif.FramePath.C120_write",
    "Verif.FramePath.C120_huge_fails",
    "Verif.FramePath.C120_reuse",
    "Verif.FramePath.C120_read",
    "Verif.FramePath.C120_stream"
   ],
   "note": "C120_refused; C120_write for all sequences of buffers (including waiting times), negation C120_huge_fails for all buffers of 2^32 or more samples per channel; C120_read for arbitrary sources with precise scheduling; C120_stream for sequences of reads in both modes; C120_reuse. The conversion to nanoseconds is a parameter that is 0 at 0 and not negative; ns_fine shows that the conversion of C78 is."
  },
  {
   "property": "C121",
   "status": "partial",
   "theorems": [
    "Verif.Wiring.C121_sender",
    "Verif.Wiring.C121_receiver_partial",
    "Verif.Wiring.C121_bits_fails",
    "Verif.Wiring.C121_receiver_fails",
    "Verif.Wiring.C121_transcoder_partial",
    "Verif.Wiring.C121_sink_spec_fails",
    "Verif.Wiring.C121_transcoder_fails",
    "Verif.Wiring.C121_inner_fails",
    "Verif.Wiring.C121_created"
   ],
   "note": "Sender proved in full. Receiver for raw output specifications, transcoder for raw specifications (both _partial); _fails: receiver aborts for every other format, transcoder does not convert formats, TranscoderSink::sample_spec(), inner resampler of decimation not checked. Packet stages are one arbitrary result; channel sets abstract; results of allocations arbitrary."
  },
  {
   "property": "C122",
   "status": "partial",
   "theorems": [
    "Verif.PulseDevice.C122_wait",
    "Verif.PulseDevice.C122_timeout",
    "Verif.PulseDevice.C122_write",
    "Verif.PulseDevice.C122_chunks_partial",
    "Verif.PulseDevice.C122_overfill_fails",
    "Verif.PulseDevice.C122_write_returns",
    "Verif.PulseDevice.C122_closed_fails",
    "Verif.PulseDevice.C122_read_partial",
    "Verif.PulseDevice.C122_opened",
    "Verif.PulseDevice.C122_resume_again",
    "Verif.PulseDevice.C122_stale_fails",
    "Verif.PulseDevice.C122_starve_fails",
    "Verif.PulseDevice.C122_sink_restarts",
    "Verif.PulseDevice.C122_leak_fails"
   ],
   "note": "libpulse is an environment: each round is a step with the answers of pa_stream_writable_size/readable_size, wakeups, expiry of the timer, fragments that arrived and results of calls. C122_chunks_partial bounds a piece only by the number of writable bytes taken as samples (C122_overfill_fails). C122_read_partial is for a device that stays open without libpulse errors; pause/restart in the middle of a fragment is C122_stale_fails, a silent server C122_starve_fails. Latency computation (get_latency_), opening parameters and device info are not modelled."
  },
  {
   "property": "C123",
   "status": "partial",
   "theorems": [
    "Verif.FecReader.C123_recovers",
    "Verif.FecReader.C123_resumes",
    "Verif.FecReader.C123_late_fails",
    "Verif.FecReader.C123_once_fails"
   ],
   "note": "C123_recovers starts at the call that starts decoding and is stated over arrivals; C123_resumes starts after the last packet of any block and counts what is in the queues then. Hypotheses: uniform block and payload sizes, both fetched queues sorted as seen from the current block (what SortedQueue gives for distances below 2^15), reader still alive. The decoder is an assumption (each block restorable from k packets); that a restored packet takes its place is C32. Partial because late repair packets and one failure of the decoder lose packets (C123_late_fails, C123_once_fails)."
  },
  {
   "property": "C124",
   "status": "partial",
   "theorems": [
    "Verif.FecFlow.C124_delivers",
    "Verif.FecFlow.C124_lost_fails",
    "Verif.FecFlow.C124_gap_fails"
   ],
   "note": "C124_delivers is the full claim, composed of the models of the writer (FecWriter) and the reader (FecReader) with a network between them (FecFlow/Spec.lean); the false parts are C124_lost_fails and C124_gap_fails. The codec is a hypothesis (Decodes)."
  },
  {
   "property": "C125",
   "status": "partial",
   "theorems": [
    "Verif.FileSink.C125_sox",
    "Verif.FileSink.C125_sox_short_fails",
    "Verif.FileSink.C125_sox_open",
    "Verif.FileSink.C125_sox_again_fails",
    "Verif.FileSink.C125_snd_open",
    "Verif.FileSink.C125_snd_opens",
    "Verif.FileSink.C125_snd_write",
    "Verif.FileSink.C125_snd_fails"
   ],
   "note": "The libraries are arguments: every answer of SoX and libsndfile is covered. The conversion macro of SoX is an arbitrary function. Rounds of the loop are limited by the length of the frame, which is shown to be enough."
  },
  {
   "property": "C126",
   "status": "partial",
   "theorems": [
    "Verif.LossyAudio.C126_exact",
    "Verif.LossyAudio.C126_lost_fails"
   ],
   "note": "Composition of C67 and C124: packetizer, FEC writer, lossy network, FEC reader and depacketizer. Stages that pass packets unchanged (filter, delayed reader, timestamp injector) are left out. The decoder is an arbitrary function; the hypothesis Faithful says that what it restores is what was sent. C126_lost_fails is the case with too few packets."
  },
  {
   "property": "C127",
   "status": "partial",
   "theorems": [
    "Verif.BufSizes.C127_source",
    "Verif.BufSizes.C127_repair",
    "Verif.BufSizes.C127_repair_fails",
    "Verif.BufSizes.C127_send",
    "Verif.BufSizes.C127_send_fails",
    "Verif.BufSizes.C127_recv",
    "Verif.BufSizes.C127_recv_fails",
    "Verif.BufSizes.C127_frames_recv",
    "Verif.BufSizes.C127_frames_send",
    "Verif.BufSizes.C127_frames_fails"
   ],
   "note": "Byte-level composers of RtpCodec and FecCodec on a buffer of the given size; float conversions of SampleTime; default encoding of the sender (L16 stereo). False parts are proved in the theorems with suffix _fails; in them nothing is bounded to samples: they hold for all lengths in the stated ranges."
  },
  {
   "property": "C128",
   "status": "proved",
   "theorems": [
    "Verif.SendTool.C128_start",
    "Verif.SendTool.C128_started",
    "Verif.SendTool.C128_no_abort",
    "Verif.SendTool.C128_pipeline"
   ],
   "note": "The pipeline is the model of C118 (SenderSlots); ports (C91), URIs (C59) and other options are given by the environment. Valid is written from the manual with the documented table of protocols (fits), not with the checks of the code."
  },
  {
   "property": "C129",
   "status": "partial",
   "theorems": [
    "Verif.LossEstimator.C129_exact",
    "Verif.LossEstimator.C129_near",
    "Verif.LossEstimator.C129_zero",
    "Verif.LossEstimator.C129_reported_fails"
   ],
   "note": "Exact fraction for at most 2^15 packets between reports, error bound without limit, zero when nothing was lost. The last part is false in the code (C129_reported_fails): LinkMeter leaves total_packets and lost_packets at zero (TODO gh-688)."
  },
  {
   "property": "C130",
   "status": "proved",
   "theorems": [
    "Verif.PacketQueue.C130_order",
    "Verif.PacketQueue.C130_blocking",
    "Verif.PacketQueue.C130_wakeup",
    "Verif.PacketQueue.C130_nonblocking"
   ],
   "note": "Transition system with one step for each operation on mutex, semaphore and queue; the queue inside is a list (its implementation is C18)."
  },
  {
   "property": "C131",
   "status": "partial",
   "theorems": [
    "Verif.SharedPtr.C131_lifetime",
    "Verif.SharedPtr.C131_safe_partial",
    "Verif.SharedPtr.C131_assign_fails"
   ],
   "note": "Life time proved for every history; safety proved when assignments are between variables. C131_assign_fails: reset() releases the old object before acquiring the new one, so p = p->next with sole references accesses a destroyed object."
  },
  {
   "property": "C132",
   "status": "partial",
   "theorems": [
    "Verif.LimitedAlloc.C132_limit",
    "Verif.LimitedAlloc.C132_refused",
    "Verif.LimitedAlloc.C132_granted",
    "Verif.LimitedAlloc.C132_huge_fails"
   ],
   "note": "Accounting, limit, refusal and grant proved for every interleaving. C132_huge_fails: sizes close to the maximum of size_t wrap around in compute_allocated_size."
  },
  {
   "property": "C133",
   "status": "partial",
   "theorems": [
    "Verif.Uuid.C133_distinct",
    "Verif.Uuid.C133_range",
    "Verif.Uuid.C133_debias_fails",
    "Verif.Uuid.C133_text",
    "Verif.Uuid.C133_injective",
    "Verif.Uuid.C133_entropy_fails"
   ],
   "note": "One thread; the clock is a list of readings. C133_debias_fails: the rejection loop never repeats. C133_entropy_fails: at most 2^32 different texts instead of 2^122."
  },
  {
   "property": "C134",
   "status": "partial",
   "theorems": [
    "Verif.Printer.C134_lines",
    "Verif.Printer.C134_close_partial",
    "Verif.Printer.C134_close_fails"
   ],
   "note": "Formatted texts are lists of characters without null bytes. C134_close_fails: the destructor has undefined behaviour when the last text has a complete line and then a shorter rest; C134_close_partial covers last texts without line feed or ending with one."
  },
  {
   "property": "C135",
   "status": "partial",
   "theorems": [
    "Verif.StringBuffer.C135_string",
    "Verif.StringBuffer.C135_extend_fails"
   ],
   "note": "The array below is a list with a capacity (see C107). Sizes of all calls together stay below 2^64, and the caller of extend stores no more characters than it asked for. C135_extend_fails: extend(SIZE_MAX) removes the terminating zero."
  }
 ]
}