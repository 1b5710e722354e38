{"id": "C01", "title": "Wrap-around ordering of sequence numbers and timestamps agrees with stream order", "statement": "For any two packets of one stream whose true (unwrapped) positions differ by less than half of the counter range, the library's before/after comparison and signed distance for sequence numbers, stream timestamps and FEC block numbers agree with the true positions, no matter how many times the counters wrapped.", "quantifier": "all unbounded true positions (arbitrary number of wraps) and all distances below half range, for the 16-bit and 32-bit counters", "why_tests_cant": "Tests compare a handful of literals around one wrap; the claim ranges over all pairs and all wrap counts.", "anchors": ["src/internal_modules/roc_packet/units.h: stream_timestamp_diff, stream_timestamp_lt, stream_timestamp_le, seqnum_diff, seqnum_lt, seqnum_le, blknum_diff, blknum_lt, blknum_le"]}
{"id": "C02", "title": "NTP timestamp conversion round-trips", "statement": "Converting a wall-clock time to an NTP timestamp and back returns the same time to within one nanosecond (never later), and the conversion never goes backwards when time goes forward within one NTP era.", "quantifier": "all nanosecond timestamps in the supported calendar range (1968 .. 2104)", "why_tests_cant": "Tests check a few dates; rounding error must be bounded for every one of the ~4e18 inputs.", "anchors": ["src/internal_modules/roc_packet/ntp.cpp: unix_2_ntp, ntp_2_unix, nanoseconds_2_ntp, ntp_2_nanoseconds"]}
{"id": "C03", "title": "The receiver's sorted packet queue emits packets in stream order without duplicates", "statement": "Whatever order packets arrive in, packets read from the sorted queue come out in ascending stream order, each written packet is delivered at most once, a packet equal to one still queued is dropped, nothing that was not written is ever delivered, and with no size limit nothing but duplicates is lost.", "quantifier": "all histories of write/read calls of any length, for packets inside one half-range window", "why_tests_cant": "Tests use short hand-made permutations; the claim is about every arrival order and every interleaving of reads.", "anchors": ["src/internal_modules/roc_packet/sorted_queue.cpp: SortedQueue::write, read, head, tail, latest"]}
{"id": "C04", "title": "The interleaver sends every packet exactly once", "statement": "Over any sequence of written packets, the packets sent downstream plus the packets still held are exactly the packets written (nothing lost, duplicated or invented), and after every full block all packets of the block have been sent.", "quantifier": "all packet sequences of any length, all block sizes, all random permutations chosen per block", "why_tests_cant": "The permutation is random at run time; a test sees a few random draws.", "anchors": ["src/internal_modules/roc_packet/interleaver.cpp: Interleaver::write, Interleaver::flush, Interleaver::reinit_seq_"]}
{"id": "C05", "title": "The interleaver holds back at most one block and flush empties it", "statement": "At any moment fewer than block_size packets are held, and after flush() every packet written so far has been sent and the interleaver behaves as freshly started.", "quantifier": "all histories of write and flush calls, all block sizes and permutations", "why_tests_cant": "Requires reasoning about all permutations and all flush points.", "anchors": ["src/internal_modules/roc_packet/interleaver.cpp: Interleaver::write, Interleaver::flush"]}
{"id": "C06", "title": "RTP header composing and parsing are inverse", "statement": "A packet composed with any combination of source, sequence number, timestamp, marker, payload type and padding, when parsed again, yields the same field values and the same payload bytes.", "quantifier": "all values of every header field, all payload contents and sizes, all padding sizes", "why_tests_cant": "The domain is astronomically large; tests use a few packet captures.", "anchors": ["src/internal_modules/roc_rtp/headers.h: Header", "src/internal_modules/roc_rtp/composer.cpp: Composer::prepare, pad, compose", "src/internal_modules/roc_rtp/parser.cpp: Parser::parse"]}
{"id": "C07", "title": "RTP parsing of hostile input never leaves the buffer", "statement": "For every byte string, parsing an RTP packet either rejects it or yields header, payload and padding regions that lie inside the buffer, are disjoint, and together with the header extension cover it exactly.", "quantifier": "all byte strings of all lengths", "why_tests_cant": "Fuzzing samples the space; the claim must hold for every datagram an attacker can send.", "anchors": ["src/internal_modules/roc_rtp/parser.cpp: Parser::parse", "src/internal_modules/roc_rtp/headers.h: Header, ExtensionHeader"]}
{"id": "C08", "title": "The RTP filter only passes packets near the previous one", "statement": "Every packet passed by the RTP stream filter belongs to the stream selected by the first packet (source and payload type), and its sequence number and timestamp differ from the newest passed packet by no more than the configured limits.", "quantifier": "all packet sequences, all limit configurations", "why_tests_cant": "Corner distances (half range) are not reachable by enumerating examples.", "anchors": ["src/internal_modules/roc_rtp/filter.cpp: Filter::read, Filter::validate_"]}
{"id": "C09", "title": "RTP sequencer numbers packets consecutively and advances timestamps by duration", "statement": "The n-th packet sent gets sequence number first+n modulo 2^16 and timestamp first + sum of durations of the previous packets modulo 2^32, and all packets carry the same source and payload type.", "quantifier": "all packet sequences of any length (any number of wraps)", "why_tests_cant": "Needs induction over unbounded streams.", "anchors": ["src/internal_modules/roc_rtp/sequencer.cpp: Sequencer::next"]}
{"id": "C10", "title": "Extended sequence numbers reported by the receiver are the true extended sequence numbers", "statement": "The extended highest sequence number in link metrics equals the true (unwrapped) sequence number of the newest packet, counted from the first packet, however many times the 16-bit counter has wrapped, and cumulative loss equals expected minus received packets.", "quantifier": "all in-window arrival orders, any number of wraps", "why_tests_cant": "A test covers at most one wrap; the claim is about long streams.", "anchors": ["src/internal_modules/roc_rtp/link_meter.cpp: LinkMeter::update_seqnums_"]}
{"id": "C11", "title": "RTCP packet counter counts packets between two extended sequence numbers across wraps", "statement": "The packet count derived from successive 32-bit begin/end reports equals the true number of packets, however many times the 32-bit counter has wrapped.", "quantifier": "all report sequences", "why_tests_cant": "Wraps happen after 2^32 packets; tests cannot observe accumulated error.", "anchors": ["src/internal_modules/roc_rtcp/packet_counter.cpp: PacketCounter::update"]}
{"id": "C12", "title": "The bounded ring queue is a deque with the requested capacity", "statement": "A ring queue created with capacity N behaves like a double-ended queue: push/pop/front/back agree with a list, it reports full exactly when it holds N elements, and never silently loses an element.", "quantifier": "all histories of push/pop operations, all capacities", "why_tests_cant": "State space is infinite; the tests never push at capacity.", "anchors": ["src/internal_modules/roc_core/ring_queue.h: RingQueue"]}
{"id": "C13", "title": "Moving statistics equal the statistics of the last window", "statement": "After any sequence of samples, the moving sum, average, minimum and maximum equal those computed directly from the last min(n, window) samples.", "quantifier": "all sample sequences of any length, all window sizes", "why_tests_cant": "Monotone wedge bugs appear only for particular shapes of long histories.", "anchors": ["src/internal_modules/roc_core/mov_stats.h: MovStats::add, slide_max_, slide_min_"]}
{"id": "C14", "title": "The lock-free single-producer/single-consumer byte buffer is a FIFO", "statement": "For every interleaving of one writer and one reader, chunks are read in the order written with the content written, a chunk being written is never the one being read, and the buffer holds up to its capacity.", "quantifier": "all interleavings of begin/end write and begin/end read by two threads, any length, all capacities", "why_tests_cant": "Tests run a few schedules; the claim is about all schedules and counter wraps.", "anchors": ["src/internal_modules/roc_core/spsc_byte_buffer.cpp: SpscByteBuffer", "src/internal_modules/roc_core/spsc_ring_buffer.h: SpscRingBuffer"]}
{"id": "C15", "title": "The hash map behaves as a finite map and never aborts", "statement": "For every history of grow/insert/remove/find, a key is found exactly when it was inserted after its last removal, iteration visits every element once, and incremental rehashing never loses an element or aborts.", "quantifier": "all operation histories, all hash functions", "why_tests_cant": "Incremental rehash states are reachable only through long histories and adversarial hashes.", "anchors": ["src/internal_modules/roc_core/hashmap_impl.cpp: HashmapImpl::grow, insert, remove, find_node, proceed_rehash_, realloc_buckets_"]}
{"id": "C16", "title": "The memory limiter never lets the total exceed the limit", "statement": "For every interleaving of concurrent acquire and release calls, the total of granted bytes never exceeds the configured limit.", "quantifier": "all schedules of any number of threads, all request sizes", "why_tests_cant": "Races and arithmetic overflow are not covered by finite tests.", "anchors": ["src/internal_modules/roc_core/memory_limiter.cpp: MemoryLimiter::acquire, release"]}
{"id": "C17", "title": "The slab pool never hands out one slot twice", "statement": "At any time all allocated objects of a pool occupy distinct, non-overlapping, aligned slots inside memory owned by the pool; freed slots are reused; allocation fails only if the arena fails.", "quantifier": "all histories of allocate/deallocate/reserve", "why_tests_cant": "Aliasing bugs depend on unbounded alloc/free histories.", "anchors": ["src/internal_modules/roc_core/slab_pool_impl.cpp: SlabPoolImpl::allocate, deallocate, reserve, allocate_new_slab_"]}
{"id": "C18", "title": "The multi-producer single-consumer queue is a linearizable FIFO", "statement": "For every interleaving of any number of pushing threads and one popping thread, popped elements are exactly pushed elements, each at most once, in the order in which pushes took effect; once all pushes have returned, every pushed element can be popped.", "quantifier": "all schedules at the granularity of atomic operations, any number of producers", "why_tests_cant": "Concurrency: exponentially many schedules.", "anchors": ["src/internal_modules/roc_core/mpsc_queue_impl.cpp: MpscQueueImpl::push_back, pop_front, pop_front_"]}
{"id": "C19", "title": "Seqlock reads are never torn", "statement": "For every interleaving of one writer and any readers, a successful load returns a value that was the complete value stored by one store call (or the initial value), together with the version of that store.", "quantifier": "all schedules at word granularity, values of any number of words", "why_tests_cant": "Concurrency: exponentially many schedules.", "anchors": ["src/internal_modules/roc_core/seqlock_impl.cpp: SeqlockImpl::try_store, exclusive_store, try_load_repeat, try_load_begin_, try_load_end_", "src/internal_modules/roc_core/seqlock.h: Seqlock"]}
{"id": "C20", "title": "Percent-encoding round-trips", "statement": "Decoding a percent-encoded string yields the original, encoded text contains only characters legal in the URI component, and decoding never accepts a truncated or non-hex escape.", "quantifier": "all NUL-free byte strings", "why_tests_cant": "Tests use a few strings.", "anchors": ["src/internal_modules/roc_address/pct.cpp: pct_encode, pct_decode"]}
{"id": "C21", "title": "A parsed endpoint URI port is the number written in the URI", "statement": "If a URI with a port is accepted, the resulting port equals the decimal number written, which is in 0..65535.", "quantifier": "all digit strings", "why_tests_cant": "Overflow cases lie outside hand-picked examples.", "anchors": ["src/internal_modules/roc_address/endpoint_uri_parse.rl: set_port", "src/internal_modules/roc_address/endpoint_uri.cpp: EndpointUri::set_port"]}
{"id": "C22", "title": "SDP media port and number of ports are those written in the media line", "statement": "Parsing an accepted media line yields the port and the number of ports written in it.", "quantifier": "all media lines", "why_tests_cant": "Infinite input language.", "anchors": ["src/internal_modules/roc_sdp/parser.rl: set_media_port, media_nb_ports", "src/internal_modules/roc_sdp/media_description.cpp: MediaDescription::set_port"]}
{"id": "C23", "title": "Compact NTP timestamps in RTCP are expanded back correctly", "statement": "A 64-bit NTP time shortened to its middle 32 bits and expanded next to a reference time closer than half of the 32-bit range gives the original time with its low 16 bits cleared, across any 32-bit wrap; shortening a delay saturates instead of overflowing.", "quantifier": "all 64-bit NTP times and all reference times", "why_tests_cant": "2^128 pairs.", "anchors": ["src/internal_modules/roc_rtcp/ntp.cpp: ntp_extend, ntp_clamp_32, ntp_clamp_64"]}
{"id": "C24", "title": "RTCP report fields survive the wire", "statement": "Every value stored in a reception report (fraction lost, cumulative loss, sequence numbers, jitter, timestamps, delays) reads back as the value stored, saturated to the field range, without disturbing the other fields.", "quantifier": "all field values in all field combinations", "why_tests_cant": "Bit-packing correctness must hold for each value.", "anchors": ["src/internal_modules/roc_rtcp/headers.h: ReceptionReportBlock::set_cum_loss, cum_loss, set_fract_loss, fract_loss; PacketHeader; set_bit_field, get_bit_field"]}
{"id": "C25", "title": "RTCP parsing of hostile input stays in bounds and terminates", "statement": "For every byte string, iterating a compound RTCP packet (and SDES chunks, BYE and XR blocks inside it) terminates and only ever exposes regions inside the buffer that belong to the packet currently visited.", "quantifier": "all byte strings of all lengths", "why_tests_cant": "Fuzzing samples the space.", "anchors": ["src/internal_modules/roc_rtcp/traverser.cpp: Traverser::parse, Iterator::next_, parse_len_, remove_padding_", "src/internal_modules/roc_rtcp/sdes_traverser.cpp", "src/internal_modules/roc_rtcp/bye_traverser.cpp", "src/internal_modules/roc_rtcp/xr_traverser.cpp"]}
{"id": "C26", "title": "RTCP builder output is accepted and reproduced by the parser", "statement": "A compound packet produced by any legal sequence of builder calls that fits into the buffer is parsed back to the same reports, items and blocks in the same order, and length and alignment rules hold; when it does not fit the builder reports failure.", "quantifier": "all legal builder call sequences with all contents", "why_tests_cant": "Unbounded grammar of call sequences.", "anchors": ["src/internal_modules/roc_rtcp/builder.cpp: Builder", "src/internal_modules/roc_rtcp/traverser.cpp: Traverser"]}
{"id": "C27", "title": "Round-trip time estimate is non-negative and clock offset error is bounded by half of RTT", "statement": "From any sequence of reports whose four timestamps come from two clocks with constant offset and non-negative network delays, the estimated round-trip time is the sum of delays and the estimated clock offset differs from the true offset by at most half of it; reports going back in time are ignored.", "quantifier": "all offsets, delays and report sequences", "why_tests_cant": "Real-valued domain.", "anchors": ["src/internal_modules/roc_rtcp/rtt_estimator.cpp: RttEstimator::update"]}
{"id": "C28", "title": "RTCP report generation terminates", "statement": "Every call that generates RTCP reports or a goodbye emits a finite number of packets, covering every local sending and receiving stream exactly once per destination.", "quantifier": "all numbers of streams, all packet size limits, all configurations", "why_tests_cant": "Termination for every configuration is not testable.", "anchors": ["src/internal_modules/roc_rtcp/communicator.cpp: generate_packets_, continue_packet_generation_, next_send_stream_, next_recv_stream_, generate_goodbye_payload_"]}
{"id": "C29", "title": "RTCP reports are generated at the configured interval without drift", "statement": "Whenever report generation is called, reports are produced exactly if the deadline passed, and every deadline lies on the grid first + k * interval, strictly in the future, at most one interval ahead.", "quantifier": "all (possibly irregular) sequences of call times", "why_tests_cant": "Unbounded timing histories.", "anchors": ["src/internal_modules/roc_rtcp/communicator.cpp: Communicator::generate_reports, generation_deadline, update_generation_deadline_"]}
{"id": "C30", "title": "A remote peer cannot abort the process through RTCP collision handling", "statement": "Whatever RTCP packets are received, processing them and generating reports does not hit an internal abort.", "quantifier": "all packet sequences and local states", "why_tests_cant": "Adversarial inputs are unbounded.", "anchors": ["src/internal_modules/roc_rtcp/reporter.cpp: Reporter::detect_collision_, resolve_collision_, end_processing", "src/internal_modules/roc_rtcp/communicator.cpp: Communicator::process_packet"]}
{"id": "C31", "title": "FEC writer emits well-formed blocks", "statement": "For any sequence of written packets and resize calls, the emitted stream consists of consecutive blocks; block b has block number first+b modulo the range, source packets numbered 0..k-1 followed by repair packets numbered k..k+r-1, all with the block sizes in force when the block began, and every source packet is emitted exactly once, in order.", "quantifier": "all packet sequences, all resize histories", "why_tests_cant": "Unbounded histories.", "anchors": ["src/internal_modules/roc_fec/writer.cpp: Writer::write, resize, begin_block_, end_block_, next_block_"]}
{"id": "C32", "title": "FEC reader delivers source packets in order, at most once, and never invents packets", "statement": "For any arrival order, loss pattern, duplication and repair result, packets returned by the FEC reader are in strictly increasing stream order within the started stream, each block position is delivered at most once, and every delivered packet was received or reconstructed for that position.", "quantifier": "all arrival histories and decoder results", "why_tests_cant": "Unbounded loss patterns.", "anchors": ["src/internal_modules/roc_fec/reader.cpp: Reader::read, get_next_packet_, get_first_packet_, next_block_, try_repair_, fill_source_block_, fill_repair_block_"]}
{"id": "C33", "title": "A remote sender cannot abort the receiver through FEC packets", "statement": "Whatever FEC source and repair packets arrive (any block numbers, symbol ids and block lengths expressible on the wire), the reader rejects or processes them without hitting an internal abort or out-of-bounds access.", "quantifier": "all packet field values and sequences", "why_tests_cant": "Adversarial inputs are unbounded.", "anchors": ["src/internal_modules/roc_fec/reader.cpp: validate_incoming_source_packet_, validate_incoming_repair_packet_, update_repair_block_size_, process_repair_packet_"]}
{"id": "C34", "title": "FEC payload ids round-trip", "statement": "Block number, symbol id and block lengths written to the LDPC and Reed-Solomon payload id headers are parsed back unchanged.", "quantifier": "all field values in range", "why_tests_cant": "Full field ranges cannot be enumerated together.", "anchors": ["src/internal_modules/roc_fec/headers.h", "src/internal_modules/roc_fec/composer.h", "src/internal_modules/roc_fec/parser.h"]}
{"id": "C35", "title": "The depacketizer places every sample at its stream position", "statement": "The n-th sample read after the stream starts is the sample of the packet that covers timestamp first+n, or silence if no packet covering it has been obtained in time; every read fills the whole frame; overlapping or late packets never shift the position.", "quantifier": "all packet sequences (lost, reordered, overlapping, late, wrapped timestamps), all frame sizes", "why_tests_cant": "Unbounded input sequences and 32-bit wrap.", "anchors": ["src/internal_modules/roc_audio/depacketizer.cpp: Depacketizer::read, read_frame_, read_samples_, update_packet_"]}
{"id": "C36", "title": "A remote sender cannot abort the receiver through packet timestamps", "statement": "Whatever packet timestamps and payload sizes arrive, reading audio never hits an internal abort.", "quantifier": "all packet sequences", "why_tests_cant": "Adversarial inputs are unbounded.", "anchors": ["src/internal_modules/roc_audio/depacketizer.cpp: Depacketizer::read_samples_, update_packet_"]}
{"id": "C37", "title": "Capture timestamps of received frames follow the stream", "statement": "The capture timestamp attached to a frame equals the capture time of the frame's first sample, including frames that begin inside a gap.", "quantifier": "all packet sequences and frame sizes", "why_tests_cant": "Depends on unbounded alignment of gaps and frames.", "anchors": ["src/internal_modules/roc_audio/depacketizer.cpp: Depacketizer::read_samples_"]}
{"id": "C38", "title": "The packetizer conserves samples", "statement": "For any sequence of frames and flushes, concatenating the audio of emitted packets (without padding) gives exactly the concatenation of written frames, every packet except one cut by a flush carries exactly the configured number of samples, and durations and capture times match the content.", "quantifier": "all frame size sequences, all packet lengths", "why_tests_cant": "Unbounded histories.", "anchors": ["src/internal_modules/roc_audio/packetizer.cpp: Packetizer::write, flush, begin_packet_, end_packet_, pad_packet_"]}
{"id": "C39", "title": "The watchdog ends a session exactly when playback has been absent or choppy for the timeout", "statement": "A session is declared dead only if no playback happened for the no-playback timeout (after warm-up) or every window within the choppy timeout had drops, and it is declared dead no later than the first read after that; once dead it stays dead; a session with normal playback is never ended.", "quantifier": "all frame sequences of any length (positions wrap around)", "why_tests_cant": "Wrap of 32-bit positions takes a day of audio.", "anchors": ["src/internal_modules/roc_audio/watchdog.cpp: Watchdog::read, check_blank_timeout_, check_drops_timeout_, update_blank_timeout_, update_drops_timeout_, update_warmup_"]}
{"id": "C40", "title": "The mixer outputs the clipped sum of its inputs", "statement": "Every output sample is within the legal range, equals the sum of the inputs when that needs no clipping, inputs that have no data contribute silence, and the result does not depend on how the frame is cut into chunks.", "quantifier": "all inputs, numbers of inputs, frame sizes", "why_tests_cant": "Unbounded domain.", "anchors": ["src/internal_modules/roc_audio/mixer.cpp: Mixer::read, read_"]}
{"id": "C41", "title": "Channel mapping preserves channels present on both sides", "statement": "Mapping between channel sets copies each common channel unchanged, fills channels absent in the input with silence, drops channels absent in the output, and never touches memory outside the frames.", "quantifier": "all pairs of multitrack channel sets, all frame sizes", "why_tests_cant": "2^1024 x 2^1024 channel set pairs.", "anchors": ["src/internal_modules/roc_audio/channel_mapper.cpp: ChannelMapper::map, map_multitrack_multitrack_, map_multitrack_surround_"]}
{"id": "C42", "title": "Channel sets behave as sets", "statement": "Membership, counting, first/last channel, union/intersection, subset and superset queries agree with the mathematical set of enabled channels.", "quantifier": "all channel sets over 1024 channels, all masks", "why_tests_cant": "2^1024 sets.", "anchors": ["src/internal_modules/roc_audio/channel_set.cpp: ChannelSet"]}
{"id": "C43", "title": "Packets are routed by type and locked to one source", "statement": "A packet goes to the first route whose type it matches, each route only ever receives packets of the source it saw first, and other packets are rejected without side effects.", "quantifier": "all packet sequences and route tables", "why_tests_cant": "Unbounded histories.", "anchors": ["src/internal_modules/roc_packet/router.cpp: Router::write, add_route"]}
{"id": "C44", "title": "Start-up delay queue loses nothing that it should keep", "statement": "The delayed reader returns nothing until the configured amount of audio is queued, then returns the queued packets in order, dropping only the surplus beyond the delay, and afterwards passes packets through unchanged.", "quantifier": "all packet sequences and all configured delays", "why_tests_cant": "Unbounded histories and delays.", "anchors": ["src/internal_modules/roc_packet/delayed_reader.cpp: DelayedReader::read, fetch_packets_, read_queued_packet_"]}
{"id": "C45", "title": "Every scheduled pipeline task is eventually executed exactly once", "statement": "For every interleaving of task schedulers, the frame thread and the background processor, a scheduled task is executed exactly once, tasks and frames never run at the same time, and no task is left waiting with nobody responsible for running it.", "quantifier": "all schedules at the granularity of atomic operations", "why_tests_cant": "Lost wakeups need rare interleavings.", "anchors": ["src/internal_modules/roc_pipeline/pipeline_loop.cpp: schedule_and_maybe_process_task_, process_tasks, maybe_process_tasks_, schedule_async_task_processing_, cancel_async_task_processing_"]}
{"id": "C46", "title": "Session routing keeps SSRC, CNAME, address and session mappings consistent", "statement": "For every history of adding/removing sessions and linking/unlinking sources, each source, CNAME, address and session belongs to at most one live route, lookups return the session of that route, and no operation aborts.", "quantifier": "all operation histories", "why_tests_cant": "Unbounded histories of four cross-linked indexes.", "anchors": ["src/internal_modules/roc_pipeline/receiver_session_router.cpp: ReceiverSessionRouter"]}
{"id": "C47", "title": "Latency tuning keeps running on endless streams", "statement": "Each stream update performs a bounded number of estimator updates, so latency tuning neither hangs nor stops however long the stream is.", "quantifier": "all stream positions and frame durations", "why_tests_cant": "The position counter wraps after about a day.", "anchors": ["src/internal_modules/roc_audio/latency_tuner.cpp: LatencyTuner::compute_scaling_, report_, advance_stream"]}
{"id": "C48", "title": "Accumulated random permutations and ranges are valid", "statement": "A random value requested from an interval always lies in the interval, and the interleaver's shuffle is always a permutation, for every state of the generator.", "quantifier": "all generator states, all intervals", "why_tests_cant": "Random sampling cannot prove range containment.", "anchors": ["src/internal_modules/roc_core/fast_random.cpp: fast_random_range", "src/internal_modules/roc_packet/interleaver.cpp: Interleaver::reinit_seq_"]}
{"id": "C49", "title": "String lists find exactly the strings they contain", "statement": "find(s) succeeds exactly when s equals a stored string and returns that string, and forward and backward iteration return the stored strings in order.", "quantifier": "all histories of pushes, all strings", "why_tests_cant": "Unbounded string contents.", "anchors": ["src/internal_modules/roc_core/string_list.cpp: StringList::push_back, find, nextof, prevof"]}
{"id": "C50", "title": "String builder never overflows and reports truncation", "statement": "For any sequence of appends into a fixed buffer, the content is the longest prefix of the concatenation that fits, always NUL-terminated, and the builder reports success exactly when nothing was cut.", "quantifier": "all append sequences and buffer sizes", "why_tests_cant": "Unbounded histories.", "anchors": ["src/internal_modules/roc_core/string_builder.cpp: StringBuilder"]}
{"id": "C51", "title": "Capture-time mapping is injected consistently", "statement": "After a sender report maps stream time to wall-clock time, every packet gets the capture time that differs from the report's by the stream time difference, across timestamp wraps.", "quantifier": "all reports and packets", "why_tests_cant": "Unbounded and wrapping.", "anchors": ["src/internal_modules/roc_rtp/timestamp_injector.cpp: TimestampInjector::read, update_mapping", "src/internal_modules/roc_rtp/timestamp_extractor.cpp: TimestampExtractor::get_mapping"]}
{"id": "C52", "title": "Rate-limited log messages are not emitted more often than configured", "statement": "Between two grants of the rate limiter at least the configured period passes, and a request after a full period is granted.", "quantifier": "all call time sequences", "why_tests_cant": "Unbounded timing histories.", "anchors": ["src/internal_modules/roc_core/rate_limiter.cpp: RateLimiter::allow, would_allow"]}
{"id": "C53", "title": "Intrusive lists are sequences", "statement": "Every history of push, insert, remove operations on an intrusive list leaves exactly the sequence predicted by the operations, forward and backward traversal agree, and misuse is detected.", "quantifier": "all operation histories", "why_tests_cant": "Pointer structures have unboundedly many shapes.", "anchors": ["src/internal_modules/roc_core/list_impl.cpp: ListImpl"]}
{"id": "C54", "title": "Wakeup timer does not lose wakeups", "statement": "For every interleaving of threads setting the deadline and the thread waiting for it, when no set operation is in progress the waiter sleeps no later than the last deadline set.", "quantifier": "all schedules", "why_tests_cant": "Concurrency.", "anchors": ["src/internal_modules/roc_core/timer.cpp: Timer::try_set_deadline, wait_deadline"]}
{"id": "C55", "title": "Formatting of numbers is exact", "statement": "Appending an unsigned number in any supported base produces exactly the digits of that number, without leading zeroes, and never writes outside of the temporary buffer.", "quantifier": "all 64-bit numbers and all bases from 2 to 16", "why_tests_cant": "2^64 numbers times 15 bases.", "anchors": ["src/internal_modules/roc_core/string_builder.cpp: StringBuilder::append_uint"]}
{"id": "C56", "title": "Building a surround channel mapping terminates", "statement": "Constructing a channel mapper between any two valid surround channel sets finishes.", "quantifier": "all pairs of surround channel sets and channel orders", "why_tests_cant": "There are 2^17 sets per side and two orders; the builder walks a graph of 71 tables whose cycles only show for particular sets, and a hang is not a test failure.", "anchors": ["src/internal_modules/roc_audio/channel_mapper_matrix.cpp: ChannelMapperMatrix::build, build_channel_mapping_, can_downmix_, next_downmix_table_, next_upmix_table_", "src/internal_modules/roc_audio/channel_tables.cpp: ChanMapTables"]}
{"id": "C57", "title": "Surround channel mapping does not amplify, and only reorders when both sides have the same channels", "statement": "The coefficients of a surround mapping are nonnegative and sum up to at most one per output channel, so in-range input never clips; when input and output have the same channels each output channel is exactly the input channel of the same position; and every input channel is heard in the output.", "quantifier": "all pairs of surround channel sets and channel orders", "why_tests_cant": "The matrix is a product of normalized tables selected by the two sets; there are 2^34 pairs.", "anchors": ["src/internal_modules/roc_audio/channel_mapper_matrix.cpp: ChannelMapperMatrix::build, normalize_mapping_, combine_mappings_, populate_index_matrix_, fill_fallback_mapping_"]}
{"id": "C58", "title": "A slab pool asks the arena only within its configured limits", "statement": "For every configuration with min_alloc_bytes <= max_alloc_bytes (or no maximum) a pool can be created, and every request it makes to the arena is at least min_alloc_bytes and at most max_alloc_bytes.", "quantifier": "all limits, object sizes, platforms' sizes and histories of allocate/deallocate/reserve", "why_tests_cant": "Rounding of the limits to slots depends on sizes not enumerable by tests; growth doubles along the history.", "anchors": ["src/internal_modules/roc_core/slab_pool_impl.cpp: SlabPoolImpl::SlabPoolImpl, slots_per_slab_, increase_slab_size_, allocate_new_slab_"]}
{"id": "C59", "title": "A complete endpoint URI survives formatting and parsing", "statement": "Formatting a complete endpoint URI and parsing the text gives an equal URI.", "quantifier": "all schemes, hosts, ports, paths and queries accepted by the setters", "why_tests_cant": "The set of texts is unbounded and the parts interact at their borders.", "anchors": ["src/internal_modules/roc_address/endpoint_uri_format.cpp: format_endpoint_uri", "src/internal_modules/roc_address/endpoint_uri_parse.rl: parse_endpoint_uri"]}
{"id": "C60", "title": "SDP payload ids are the numbers written", "statement": "The payload ids of an accepted media line are the numbers written in it, in the same order.", "quantifier": "all media lines", "why_tests_cant": "Numbers that overflow or carry a sign lie outside hand-picked examples, and the list is unbounded.", "anchors": ["src/internal_modules/roc_sdp/parser.rl: add_media_payload_id", "src/internal_modules/roc_sdp/media_description.cpp: add_payload_id"]}
{"id": "C61", "title": "RTCP reception reports carry the data of the stream they name", "statement": "Every reception report block that a participant sends names a stream that its pipeline currently receives, and carries exactly the data that the pipeline returned for that stream in this generation.", "quantifier": "for all histories of received RTCP packets, report generations and changes of the set of received streams", "why_tests_cant": "The reporter keeps an index of pointers that is rebuilt only when it thinks something changed; whether stale pointers can survive depends on arbitrary interleavings of stream changes, packets and generations.", "anchors": ["src/internal_modules/roc_rtcp/reporter.cpp"]}
{"id": "C62", "title": "A sender always reports to its configured control address", "statement": "A participant with a configured report address that is sending emits a report to this address in every generation.", "quantifier": "for all histories of received packets, report generations and changes of local streams", "why_tests_cant": "Depends on the order of first packets, start of sending and index rebuilds; tests use a few fixed orders.", "anchors": ["src/internal_modules/roc_rtcp/reporter.cpp", "src/internal_modules/roc_pipeline/sender_session.cpp"]}
{"id": "C63", "title": "A packet cut short by a flush can be transmitted", "statement": "Every packet emitted by the packetizer, including one that a flush has cut short and padded to the fixed size, is accepted by the RTP composer, and the receiver's parser recovers exactly the audio bytes without the padding.", "quantifier": "all frame and flush sequences, packet lengths, sample sizes, buffer contents", "why_tests_cant": "the padding size depends on how many samples were written before the flush; tests use short packets", "anchors": ["src/internal_modules/roc_audio/packetizer.cpp: Packetizer::flush, pad_packet_", "src/internal_modules/roc_rtp/composer.cpp: Composer::pad, compose", "src/internal_modules/roc_packet/shipper.cpp: Shipper::write"]}
{"id": "C64", "title": "A mixed frame has the average capture timestamp of its inputs", "statement": "The capture timestamp of a mixed frame is the average of the capture timestamps of the input frames that were mixed and refers to the first sample of the frame; its flags are the union of the flags of the inputs.", "quantifier": "all numbers of inputs, timestamps, frame sizes", "why_tests_cant": "Tests use inputs that all have timestamps and frames that fit into the temporary buffer.", "anchors": ["src/internal_modules/roc_audio/mixer.cpp: Mixer::read_ (capture timestamp)"]}
{"id": "C65", "title": "No sequence of network packets panics the receiver session group, and source packets always reach a live session", "statement": "For every sequence of RTP packets, RTCP packets (sender reports, CNAMEs, goodbyes from arbitrary sources and addresses), report generations and session ends, the session group (router, reporter callbacks, session list) does not panic, and after every source packet its source/address is routed to a session that is in the session list.", "quantifier": "all sequences of RTP/RTCP packets and session ends", "why_tests_cant": "Unbounded interleavings of attacker-controlled SSRCs, CNAMEs and addresses across three cross-linked components.", "anchors": ["src/internal_modules/roc_pipeline/receiver_session_group.cpp: ReceiverSessionGroup::route_packet, notify_recv_stream, halt_recv_stream", "src/internal_modules/roc_pipeline/receiver_session_router.cpp: link_source", "src/internal_modules/roc_rtcp/reporter.cpp: notify_streams_"]}
{"id": "C66", "title": "Latency bounds and scaling follow the configuration", "statement": "For every history of calls, update_stream asks to terminate the session if and only if bounds are enabled, the latency of the configured backend is known, the last reported latency is outside the bounds, and it is not a low queue latency during stalling; every scaling factor returned by fetch_scaling is within the configured tolerance of 1, is returned at most once per update, and only if tuning is enabled.", "quantifier": "all configurations, histories of metrics, updates and fetches", "why_tests_cant": "Depends on unbounded histories (metrics become known once and stay known) and on all latencies.", "anchors": ["src/internal_modules/roc_audio/latency_tuner.cpp: LatencyTuner::write_metrics, update_stream, check_bounds_, fetch_scaling"]}
{"id": "C67", "title": "What is played is what was sent", "statement": "For every audio written to a sender and everything the network does to its packets (loss, duplication, delay, reordering), each sample the receiver plays after the first received packet is exactly the sample that was written at the same distance from that packet, or silence; samples of a packet that was available in time are played; if nothing is lost and the receiver never runs out of packets, the output is exactly what was written.", "quantifier": "all sequences of written frames, all packet sizes and initial timestamps, all loss, duplication, delay and reordering of packets, all sizes of reads", "why_tests_cant": "It is about every interleaving of writing, packet loss and reading, with timestamps that wrap; tests use a few fixed patterns.", "anchors": ["src/internal_modules/roc_audio/packetizer.cpp Packetizer::write", "src/internal_modules/roc_rtp/sequencer.cpp Sequencer::next", "src/internal_modules/roc_audio/depacketizer.cpp Depacketizer::read"]}
{"id": "C68", "title": "Control tasks run on time and once per request", "statement": "For a control task queue, whatever callers do in whatever order with schedule(), schedule_at() and async_cancel(), and whatever the task functions return: the program does not abort; a task is run only if the last request was to schedule it and its time has come; it is reported as cancelled only if the last request was a cancellation; it is completed at most once per schedule call; no request is lost, also not one that comes while the task runs; and the background thread never sleeps beyond the deadline of a waiting task.", "quantifier": "all numbers of tasks, all sequences of calls, at any moment of the background thread, all results of task functions, all deadlines", "why_tests_cant": "Requests race with the background thread, with in-place renewal and with the running task; tests run a few interleavings.", "anchors": ["src/internal_modules/roc_ctl/control_task_queue.cpp ControlTaskQueue::schedule", "src/internal_modules/roc_ctl/control_task_queue.cpp ControlTaskQueue::async_cancel", "src/internal_modules/roc_ctl/control_task_queue.cpp ControlTaskQueue::process_tasks_"]}
{"id": "C69", "title": "Pausing and resuming control tasks", "statement": "A control task may pause and be resumed any number of times; each resume() of a paused task runs it again, resuming a task that is not paused does nothing, a cancelled task is reported as cancelled also if it pauses, and a task that has completed can be destroyed.", "quantifier": "all sequences of schedule, cancel, resume and task results", "why_tests_cant": "Pausing has no tests in the repository, and the states that matter are races of resume() and cancel with the running task.", "anchors": ["src/internal_modules/roc_ctl/control_task_queue.cpp ControlTaskQueue::resume", "src/internal_modules/roc_ctl/control_task_queue.cpp ControlTaskQueue::pause_task_", "src/internal_modules/roc_ctl/control_task_queue.cpp ControlTaskQueue::execute_task_"]}
{"id": "C70", "title": "Reception reports follow the sender's address", "statement": "When RTCP reports are generated, every received stream whose sender has sent a sender report is reported to the configured report address, or, if there is none, to the address from which the last sender report of this sender came, and to no other address; when the sender's reports start to come from another address, the next generation uses the new one.", "quantifier": "for every history of processed packets and generated reports (any senders, addresses, events, times that do not go back), every sender and every later history without packets of this sender within the inactivity timeout", "why_tests_cant": "the index of destinations is rebuilt lazily, from flags set by several kinds of events; whether it is current at a generation depends on the whole history and unit tests try a handful of them", "anchors": ["src/internal_modules/roc_rtcp/reporter.cpp:191-245", "src/internal_modules/roc_rtcp/reporter.cpp:1040-1170", "src/internal_modules/roc_rtcp/reporter.cpp:580-651"]}
{"id": "C71", "title": "FEC reader does not skip packets that arrive in time", "statement": "When FEC decoding is active and a source packet arrives whose position is after the position of the last returned packet, every following read returns a packet, and no packet of a later position is returned before the packet of this position; so it is returned after at most as many reads as there are positions in between.", "quantifier": "for every history of reads of a stream with fixed block and payload size: any losses, duplicates, reordering, repair packets, decoder results and allocation failures, as long as the reader has not stopped", "why_tests_cant": "packets wait in the queue or in the block while blocks are skipped, repaired and renumbered modulo 65536; tests check chosen loss patterns, not that no pattern loses a packet that was received", "anchors": ["src/internal_modules/roc_fec/reader.cpp:131-196", "src/internal_modules/roc_fec/reader.cpp:306-375"]}
{"id": "C72", "title": "FEC decoding starts at the first beginning of a block", "statement": "While FEC decoding has not started, as soon as the first queued source packet is the first packet of its block, decoding starts and this packet is returned, whatever packets came before.", "quantifier": "for every history of reads before the start", "why_tests_cant": "sizes learned from packets before the start are kept in flags which no test resets; whether they can block the start depends on the whole history", "anchors": ["src/internal_modules/roc_fec/reader.cpp:97-129", "src/internal_modules/roc_fec/reader.cpp:618-705"]}
{"id": "C73", "title": "PCM mapping converts every sample and nothing else", "statement": "PcmMapper::map between integer formats of whole bytes converts as many samples as are asked for, available and as fit; each output sample has the rescaled level of the input sample and zero padding, no other byte of the output changes, both offsets advance by the converted samples, and two calls do the same as one. Only an offset behind the end of a buffer aborts.", "quantifier": "for every pair of the 40 byte-aligned integer formats (20 codes, two byte orders), all buffer contents, sizes, offsets and numbers of samples", "why_tests_cant": "there are 1600 pairs of formats with generated code each, and 2^64 values; tests convert a few samples between a few pairs", "anchors": ["src/internal_modules/roc_audio/pcm_mapper.cpp:65-91", "src/internal_modules/roc_audio/pcm_format.cpp:11000-12000", "src/internal_modules/roc_audio/pcm_format_gen.py:630-700"]}
{"id": "C74", "title": "PCM conversion keeps levels", "statement": "Conversion to a format with at least as many bits and back returns every level (and every byte if padding was zero); conversion to fewer bits returns the nearest level, with saturation at the ends; silence stays silence and the order of levels is kept, between signed and unsigned formats as well.", "quantifier": "for every pair of byte-aligned integer formats and every sample value", "why_tests_cant": "rounding, saturation and sign conversion are separate generated code for every pair of formats; tests check few values for few pairs", "anchors": ["src/internal_modules/roc_audio/pcm_format_gen.py:590-700", "src/internal_modules/roc_audio/pcm_format.cpp:560-10150"]}
{"id": "C75", "title": "PCM formats that are not byte-aligned are read and written correctly", "statement": "Samples of 18 and 20 bits without padding are read and written at their bit positions with the right level, without changing neighbouring samples.", "quantifier": "for every buffer, bit offset of a sample and value, and every other integer format", "why_tests_cant": "tests cover only 20 bits together with 32-bit formats, where garbage in the upper bits is shifted out by luck", "anchors": ["src/internal_modules/roc_audio/pcm_format.cpp:10975-11010", "src/internal_modules/roc_audio/pcm_format.cpp:11215-11300"]}
{"id": "C76", "title": "Conversion between integer and floating-point samples", "statement": "A sample of at most 24 bits (53 for double) survives the conversion to floating point and back; finite samples are converted to the level nearer than one step towards silence, louder than full scale and infinite samples are clipped with their sign, and the order of samples is kept; no sample has undefined behaviour.", "quantifier": "for every integer format, every integer value and every floating-point value", "why_tests_cant": "the claims depend on rounding for all 2^24 values of each format and on special values, which tests do not enumerate", "anchors": ["src/internal_modules/roc_audio/pcm_format_gen.py:653-670", "src/internal_modules/roc_audio/pcm_format.cpp:1918-1938", "src/internal_modules/roc_audio/pcm_format.cpp:10155-10166"]}
{"id": "C77", "title": "Names and traits of PCM formats", "statement": "Every PCM format has a name that says what it is, parsing the name gives the format back, and no other string is accepted; traits agree with the name, and the canonical format is the same format with explicit byte order.", "quantifier": "for every format and every string", "why_tests_cant": "tests cannot try every string against the 300 lines of nested comparisons", "anchors": ["src/internal_modules/roc_audio/pcm_format.cpp:13325-14244", "src/internal_modules/roc_audio/pcm_format.cpp:14246-14736"]}
{"id": "C78", "title": "Conversion between samples, durations and bytes", "statement": "Converting a number of samples to a duration and back returns the same number; durations have a small relative error and grow with the number of samples; the number of samples of all channels is a multiple of the number of channels; bytes and frames convert without loss.", "quantifier": "for every sample rate up to 2^20, every number of samples and channels, and every duration", "why_tests_cant": "the arithmetic is done in single precision; whether rounding errors cancel depends on the number, and the first wrong number is above three million", "anchors": ["src/internal_modules/roc_audio/sample_spec.cpp:22-63", "src/internal_modules/roc_audio/sample_spec.cpp:219-348"]}
{"id": "C79", "title": "The PCM encoder puts samples into a frame independently of how they are written", "statement": "For every integer PCM format whose samples take whole bytes, every number of channels, every frame and every sequence of buffers written between begin and end, the frame holds the quantized samples of all buffers one after another until it is full, no matter how they are divided into writes. Each write returns how many samples per channel fit; the rest of the frame is unchanged; the encoder can be used again after end. Calls in the wrong order abort, and nothing else does.", "quantifier": "all formats with whole bytes, numbers of channels, frames, sequences of buffers of finite or infinite samples, sequences of calls", "why_tests_cant": "Tests write a few fixed buffers into frames of a matching size; the space of divisions into writes, formats and frame sizes is unbounded.", "anchors": ["src/internal_modules/roc_audio/pcm_encoder.cpp:31-69", "src/internal_modules/roc_audio/pcm_mapper.cpp:65-91"]}
{"id": "C80", "title": "The PCM decoder returns the samples of a frame in order, whatever is requested", "statement": "For every integer PCM format whose samples take whole bytes and every frame, requests of any sizes to read or skip get the consecutive samples of the frame without loss or repetition; position and available tell what was consumed and what is left. The number of bytes announced by the encoder is decoded to the same number of samples. Samples encoded in any pieces and decoded in any pieces come back in order, each one differing from the clipped original by at most one step of the format.", "quantifier": "all formats with whole bytes, numbers of channels, frames of less than 2^32 samples, sequences of requests, samples", "why_tests_cant": "Tests decode complete frames or a few fixed pieces; offsets, counters with wraparound and rounding depend on unbounded combinations of sizes, formats and values.", "anchors": ["src/internal_modules/roc_audio/pcm_decoder.cpp:30-114", "src/internal_modules/roc_audio/pcm_encoder.cpp:27-29", "src/internal_modules/roc_audio/pcm_mapper.cpp:41-91"]}
{"id": "C81", "title": "Channel mapping of a frame does not depend on the size of the temporary buffer", "statement": "ChannelMapperReader fills a frame of any size with exactly what mapping the whole block of input samples at once would give; the frame gets the duration, the union of flags and the capture timestamp with which the reader below would deliver the whole block, and read returns false only if the reader below does so for the block. ChannelMapperWriter passes on frames whose samples, put together, are exactly the mapping of the whole input frame; each is non-empty, fits into the temporary buffer and has the flags of the input; durations add up to the duration of the input; an unknown capture timestamp stays unknown, a known one advances with the samples, with a bounded error.", "quantifier": "all valid channel sets, all streams and frames, all sizes of the temporary buffer with room for one sample per channel, all sample rates up to 2^24", "why_tests_cant": "Tests use a few frame sizes relative to one buffer size; the claim is about every frame size, buffer size and pair of channel sets, and about errors that add up over many batches.", "anchors": ["src/internal_modules/roc_audio/channel_mapper_reader.cpp:58-111", "src/internal_modules/roc_audio/channel_mapper_writer.cpp:58-101", "src/internal_modules/roc_audio/frame.cpp:87-109"]}
{"id": "C82", "title": "PCM mapping of a frame does not depend on the size of the temporary buffer", "statement": "PcmMapperReader (raw samples below, integer format above) fills a frame with the quantized samples of the stream one after another, whatever the size of the temporary buffer, leaves trailing bytes alone, and sets duration, flags (marked as not raw) and capture timestamp as for the whole block. PcmMapperWriter (integer format above, raw samples below) passes on exactly the samples of the frame in order, in non-empty frames that fit into the temporary buffer and are marked as raw; durations add up; capture timestamps advance with the samples, with a bounded error.", "quantifier": "all integer formats with whole bytes per sample, both endiannesses, all numbers of channels, all streams and frames, all buffers with room for one raw sample per channel", "why_tests_cant": "Every combination of format, frame size and buffer size gives other batch borders; tests try a few.", "anchors": ["src/internal_modules/roc_audio/pcm_mapper_reader.cpp:66-113", "src/internal_modules/roc_audio/pcm_mapper_writer.cpp:66-131"]}
{"id": "C83", "title": "The built-in resampler uses exactly the samples of its window", "statement": "After the built-in resampler was created and a scaling was accepted, every output sample is a sum over all input samples of the window around its position and over no others, in order, each weighted by the table entry for its distance; no assertion fails, no access is outside of a frame or of the table, and every loop ends.", "quantifier": "all profiles, channel counts, sample rates up to 2^24, buffers of at most 2047 samples, accepted multipliers, positions inside of a frame, channels", "why_tests_cant": "Positions are fixed-point numbers with 2^20 values between two samples, and windows depend on rates and multipliers; border cases are hit after hundreds of thousands of samples.", "anchors": ["src/internal_modules/roc_audio/builtin_resampler.cpp:94-116", "src/internal_modules/roc_audio/builtin_resampler.cpp:178-239", "src/internal_modules/roc_audio/builtin_resampler.cpp:399-513"]}
{"id": "C84", "title": "The built-in resampler does not drift", "statement": "Through ResamplerReader, output sample number j is computed at a position that is exactly the sum of the steps of all samples before it, from the blocks of input around that position, whatever the sizes of reads; no more blocks are taken than needed; n_left_to_process tells exactly which point of the input comes next; the step differs from the requested ratio by less than 2^-20 plus 0.24 ppm.", "quantifier": "all histories of reads of any sizes and changes of scaling, all frames of at most 2047 samples per channel, all rates and multipliers", "why_tests_cant": "A drift or a lost sample at a border of blocks shows up only for particular combinations of read sizes, steps and history.", "anchors": ["src/internal_modules/roc_audio/builtin_resampler.cpp:241-298", "src/internal_modules/roc_audio/resampler_reader.cpp:54-117"]}
{"id": "C85", "title": "Pushed resampler outputs every sample once, whatever the division into frames", "statement": "For any sequence of writes of frames of any sizes and of accepted changes of the scaling, the frames that ResamplerWriter passes on are, put together, the output samples at consecutive positions, each computed from the blocks of the whole input in order, up to the point that the input written so far allows. Every frame passed on is non-empty and fits into the output buffer, write always returns, and how the input is divided into frames does not matter.", "quantifier": "all sequences of writes and scaling changes, all frame sizes, all numbers of channels, all output buffer sizes", "why_tests_cant": "Tests push frames of one or two sizes and compare the sound; the interplay of three buffers (input block, three frames of the resampler, output buffer) over arbitrary divisions cannot be enumerated.", "anchors": ["src/internal_modules/roc_audio/resampler_writer.cpp:80-140", "src/internal_modules/roc_audio/builtin_resampler.cpp:241-294"]}
{"id": "C86", "title": "Capture timestamp of a resampled frame is the input time of its first sample", "statement": "If the timestamps of the input follow a clock up to an error E, then the capture timestamp of each frame that a resampler reader returns, or that a resampler writer passes on, is the time of the point of the input stream that the first sample of the frame was computed at, up to E and a small bound that depends on the sizes of frames only and not on how long the stream is, for any history of changes of the scaling.", "quantifier": "all histories of reads or writes and of scaling changes, all rates up to 2^24, all frame sizes, all input timestamps", "why_tests_cant": "Tests check timestamps of short streams with a tolerance of a sample or more; that errors of float conversions and of the fixed-point step do not accumulate over arbitrarily long streams with arbitrary scaling changes needs an invariant.", "anchors": ["src/internal_modules/roc_audio/resampler_reader.cpp:55-151", "src/internal_modules/roc_audio/resampler_writer.cpp:69-178", "src/internal_modules/roc_audio/sample_spec.cpp:48-63", "src/internal_modules/roc_audio/builtin_resampler.cpp:296-298"]}
{"id": "C87", "title": "Receiver and sender report whether they are active", "statement": "In every interleaving of network threads that write packets, the pipeline thread that parses and routes them, and creation and removal of sessions and endpoints, a receiver or sender is reported active while it has a session or a packet that was written and not handled, and idle when it has neither; its counters never become negative, which would abort the process.", "quantifier": "All interleavings of any length, any number of threads, endpoints, packets and sessions, packets that can be parsed or not.", "why_tests_cant": "The counters are changed in several places by several threads; a leak or an underflow shows up only for particular sequences (a malformed packet, an endpoint removed with packets in its queue) and then stays forever.", "anchors": ["src/internal_modules/roc_pipeline/state_tracker.cpp:15-55", "src/internal_modules/roc_pipeline/receiver_endpoint.cpp:191-227", "src/internal_modules/roc_pipeline/sender_endpoint.cpp:174-214", "src/internal_modules/roc_pipeline/receiver_session_group.cpp:407-423", "src/internal_modules/roc_pipeline/sender_slot.cpp:38-43"]}
{"id": "C88", "title": "Pump transfers frames from the right source", "statement": "The pump gives all frames it reads to the sink, in order; they come from the main source while it is active and from the backup source while it is not; it ends when it is stopped, when the main source ends, or in oneshot mode when the main source becomes inactive after it was active; sources are not read while they are paused.", "quantifier": "All sequences of states, errors and frames of both sources, with and without a backup source, both modes, any number of iterations.", "why_tests_cant": "Sources change their states at any time, and restarting, resuming and reading can fail in any combination; tests run a few frames with a main source that is always active.", "anchors": ["src/internal_modules/roc_sndio/pump.cpp:56-165", "src/internal_modules/roc_sndio/idevice.h:41-57", "src/tools/roc_recv/main.cpp:521-524"]}
{"id": "C89", "title": "Frequency estimator computes a filtered proportional-integral response", "statement": "The frequency coefficient is one plus P times the last error plus I times the sum of errors, where errors are differences between latencies filtered with the decimation filter and the target; latencies within d of the target change it at most by (P + I k) times 1.63 d; a latency that stays above or below the target moves it beyond any bound.", "quantifier": "All sequences of measurements of any length, all targets, both profiles.", "why_tests_cant": "The state is two circular buffers, two indices and a counter, with paths that do not advance the indices; the result depends on all measurements made so far, and tests look at the trend of a few sequences.", "anchors": ["src/internal_modules/roc_audio/freq_estimator.cpp:48-154", "src/internal_modules/roc_audio/freq_estimator_decim.h:22-36", "src/internal_modules/roc_audio/freq_estimator_decim.cpp:11-78"]}
{"id": "C90", "title": "Receiver slots never leave a dangling or leaked network port", "statement": "For every sequence of roc_receiver_configure, roc_receiver_bind, roc_receiver_unlink and roc_receiver_query calls, with any outcome of address resolution, port opening and endpoint creation, no open network port writes to a deleted pipeline slot and no pipeline slot writes to a closed port, nothing is removed twice or used after removal, and closing the receiver leaves no port and no pipeline slot. A failed call marks the slot broken, releases everything the slot owns, and the index is usable again after unlink. Provided each interface is bound at most once between unlinks (rebinding and the control interface have proved counterexamples), and querying a slot that is not broken never aborts.", "quantifier": "all histories of calls over any number of slots, all answers of the environment in each call, all orders of destruction", "why_tests_cant": "The defect needs particular failures at particular points of multi-step calls over arbitrary histories; a dangling reference is not visible to a unit test unless a packet arrives in the window.", "anchors": ["src/internal_modules/roc_node/receiver.cpp:45-433", "src/internal_modules/roc_pipeline/receiver_loop.cpp:51-63", "src/internal_modules/roc_pipeline/receiver_slot.cpp:49-210", "src/public_api/include/roc/receiver.h:220-290"]}
{"id": "C91", "title": "Sender slots never leave a dangling or leaked network port, and ports are shared safely", "statement": "For every sequence of roc_sender_configure, roc_sender_connect, roc_sender_unlink and roc_sender_query calls, with any outcome of address resolution, port opening and endpoint creation, when a call returns no pipeline slot writes to a closed port and no open port writes to a deleted pipeline slot, nothing is removed twice or used after removal, and closing the sender leaves no port and no pipeline slot. An interface whose configuration equals that of an already open port of the slot (same address family) is connected through that open port and opens no new one. configure of a connected interface fails (false for an interface that shares a port; proved counterexample).", "quantifier": "all histories of calls over any number of slots, all answers of the environment in each call, all orders of destruction", "why_tests_cant": "Sharing makes one port serve several interfaces, so ownership depends on the whole history of configure and connect calls and on which step of which call failed.", "anchors": ["src/internal_modules/roc_node/sender.cpp:44-542", "src/internal_modules/roc_pipeline/sender_loop.cpp:52-64", "src/internal_modules/roc_pipeline/sender_slot.cpp:49-240", "src/public_api/include/roc/sender.h:195-260"]}
{"id": "C92", "title": "Decimation resampler only omits and repeats single frames, and follows the scaling", "statement": "The output of the decimation resampler is its input with single frames omitted or repeated, at most one such edit per portion of input (16 frames); the length of the output equals the sum of lengths of portions divided by the scaling each was taken with, up to one frame when nothing is pending and two otherwise, plus the errors of rounding; no call with whole frames aborts, no more is returned than asked for, and less only when all input is used up. Scalings within 6% are accepted, beyond 7% rejected. A rejected call of set_scaling has no effect (false: the inner resampler may be switched on; proved counterexample).", "quantifier": "All sequences of set_scaling, begin/end_push_input and pop_output calls of any length, all frame sizes up to 65536 samples, all portions and outcomes of the inner resampler.", "why_tests_cant": "The drift is a floating point accumulator kept over the whole stream and used at points that depend on the sizes asked for; a test hears or counts samples for a few seconds at one scaling.", "anchors": ["src/internal_modules/roc_audio/decimation_resampler.cpp:34-233"]}
{"id": "C93", "title": "Sample spec strings are accepted exactly per the documented grammar and mean what it says", "statement": "A string given as a sample spec (for example to --rate/--io-encoding style options) is accepted exactly when it has the form format/rate/channels of the documented grammar; the format, rate, layout, order and set of channels obtained are those the string denotes, the denotation is unique, and the previous content of the result has no influence. When it is not accepted, the result is empty. The parser returns for every string (false: a format of more than 15 characters overruns a buffer on the stack, a reversed range of tracks and a mask with a bit above 1023 abort; exactly these strings do so). An encoding string is an id from 1 to 127 followed by such a spec.", "quantifier": "all strings of any length, all previous contents of the result", "why_tests_cant": "The language is infinite and the automaton is generated; tests list a few dozen strings and the harmful ones are those nobody listed.", "anchors": ["src/internal_modules/roc_audio/sample_spec_parse.rl:25-280", "src/internal_modules/roc_rtp/encoding.cpp:15-67", "src/internal_modules/roc_audio/channel_tables.cpp:12-51"]}
{"id": "C94", "title": "Printed channels of a set parse back to the same set", "statement": "The text printed for the channels of any non-empty channel set (names of positions for the surround layout, a hexadecimal mask otherwise) is accepted by the sample spec parser and yields the same layout and the same channels; hence sets printed alike have the same channels. This holds for surround sets with channels among the 17 known positions (printing any other aborts) and for the whole text (false for the 128-character buffer used in logs, where different sets are printed alike).", "quantifier": "all channel sets reachable by the operations of ChannelSet, up to 1024 channels", "why_tests_cant": "There are 2^1024 sets; the digits printed depend on the last non-zero byte and its upper half.", "anchors": ["src/internal_modules/roc_audio/channel_set_format.cpp:14-67", "src/internal_modules/roc_audio/sample_spec_parse.rl:25-280", "src/internal_modules/roc_core/string_builder.cpp:152-184"]}
{"id": "C95", "title": "WAV files written are well-formed and hold the samples written", "statement": "After any sequence of writes to the WAV output (at least one not empty), the file is a header with the given number of channels and sample rate, followed by exactly the samples written, in order, each as a 32-bit little-endian float. The sizes in the header are those of the file (false: they start from the uninitialised content of memory, and count every channel as many times as there are channels; proved counterexamples). The same on big-endian processors (false: the size of the format chunk is wrong; proved counterexample). Writes before open and a second open abort, nothing else does.", "quantifier": "all sequences of frames of any length, all contents of uninitialised memory, all numbers of channels and rates", "why_tests_cant": "The test reads the file back with a reader that ignores sizes beyond the end of the file; the content of uninitialised memory and the byte order of the processor are not under the control of a test.", "anchors": ["src/internal_modules/roc_sndio/wav_header.cpp:15-80", "src/internal_modules/roc_sndio/wav_sink.cpp:19-172", "src/internal_modules/roc_core/memory_ops.cpp:15-25"]}
{"id": "C96", "title": "Durations and sizes on the command line are converted exactly", "statement": "A duration is accepted exactly if it is a number in the notation of C (decimal or hexadecimal, optional sign, point and exponent) followed by one of ns, us, ms, s, m, h, and a size exactly if it is such a number without a sign with an optional K, M or G. A whole number of nanoseconds below 2^50, or of bytes below 2^50, is obtained without error in whatever unit and notation it is written; otherwise the error is at most half a unit and two units in the last place of double. Numbers out of range are rejected (false: exactly products that are 2^63, or 2^64 for sizes, after rounding, and a signed NaN, pass the checks and their conversion is undefined behaviour; proved counterexamples with the largest duration and the largest size).", "quantifier": "all strings of any length", "why_tests_cant": "The language of numbers is infinite, exactness is a statement about all rational numbers, and undefined behaviour gives some result on the machine of the test.", "anchors": ["src/internal_modules/roc_core/parse_units.cpp:18-153"]}
{"id": "C97", "title": "Feedback from receivers is shown and used consistently", "statement": "For every history of start, process_feedback and write calls of the feedback monitor: there is one participant exactly while a report that counts is not older than the timeout, and the metrics shown are those of that report; every frame is passed on once and in order; the tuner gets the metrics of that report with every frame, and the resampler gets exactly the factors of the tuner, all within the tolerance; no call aborts if the resampler accepts them. The source changes at most once per cooldown (false: only once per cell of a fixed grid, two changes may be one nanosecond apart). After the timeout the monitor resets its state (false: the last factor stays forever, and the fallback to the packet counter of the sender outlives the receiver that caused it). When the latency is out of bounds the session is terminated (false: nothing happens). A tolerance that the constructor accepts is safe (false: write aborts if the resampler refuses a factor).", "quantifier": "all configurations, all histories of calls, all times, all reports and frames, every estimator and every resampler", "why_tests_cant": "Unit tests run a few reports with one configuration; acceptance of a report depends on the whole history of reports, frames and times, and on the behaviour of the tuner, the estimator and the resampler.", "anchors": ["src/internal_modules/roc_audio/feedback_monitor.cpp", "src/internal_modules/roc_audio/feedback_monitor.h"]}
{"id": "C98", "title": "Hashes of numbers never collide and hashing is defined", "statement": "Two different 32-bit numbers, or two different 64-bit numbers, signed or not, have different hashes. Two byte strings that differ in one byte have different hashes. Hashing in parts gives the hash of the whole (false: not if the hash of the first part is zero, and there is such a string). The hash of a 16-bit number is defined and different for different numbers (false: the multiplication overflows int already for the number 3; where it is defined, hashes differ).", "quantifier": "all numbers of 16, 32 and 64 bits, all byte strings of any length, 32- and 64-bit hash types", "why_tests_cant": "There are 2^128 pairs of numbers. Overflow of int has some result on the machine of the test.", "anchors": ["src/internal_modules/roc_core/hashsum.cpp:16-93"]}
{"id": "C99", "title": "Socket addresses mean what was set, and equal addresses are found in hash maps", "statement": "After a successful call the family and host are those of the text, whatever the object held before; parse_socket_addr accepts exactly IPv4 addresses and IPv6 addresses in brackets; equality is an equivalence and compares family, host and port; printing an address and setting it from the text gives an equal address; multicast addresses are recognized. The port is the one given, or the call fails (false: ports above 65535 are accepted and cut to 16 bits). Equal addresses have equal hashes (false: an object that is set twice to different families keeps bytes of the first address, and the scope of link-local addresses is hashed but not compared; true for addresses set once from text).", "quantifier": "all texts, all ports, all previous contents of the object, all pairs of addresses, any inet_pton and inet_ntop", "why_tests_cant": "Agreement of hash and equality is about all pairs of addresses and all previous contents of the union.", "anchors": ["src/internal_modules/roc_address/target_posix/roc_address/socket_addr.cpp:17-206", "src/internal_modules/roc_address/parse_socket_addr.cpp:17-72"]}
{"id": "C100", "title": "A TCP connection goes through its life in the documented order and cleans up", "statement": "For a user that respects the documented rules (IConn and IConnHandler): callbacks come in the documented order (refused or established once and first, readable and writable only after established, terminated last; a server connection is never refused); readiness reported by is_writable and is_readable is neither lost nor made up; after the owner has closed the port, socket and handles are closed and the destructor does not panic. No call and no callback panics (false: if async_terminate is called from another thread while the event loop handles an error of the established connection, the loop replaces the state Terminating by Broken and the callback that starts the termination aborts the process; this is the only panic). After async_terminate no other callback than connection_terminated is made (false: a termination in the writable callback is followed by the readable callback). If termination does not come in the middle of a callback of the loop, both hold; the termination completes and is reported once; the socket is closed normally if and only if the connection was established, has not failed and was not terminated as a failure; and is_failed tells if it has failed.", "quantifier": "all interleavings of the event loop and of the user at the granularity of atomic accesses, all results of system calls and all poll events, client and server connections", "why_tests_cant": "The order of the two threads is not under the control of a test, and the number of histories is unbounded.", "anchors": ["src/internal_modules/roc_netio/target_libuv/roc_netio/tcp_connection_port.cpp:24-780", "src/internal_modules/roc_netio/target_libuv/roc_netio/iconn_handler.h:23-58", "src/internal_modules/roc_netio/target_libuv/roc_netio/iconn.h:21-75"]}
{"id": "C101", "title": "Packet encodings: registration and selection", "statement": "roc_context_register_encoding never aborts; it succeeds exactly if the identifier is in 1..127 and free, the description is valid as documented (rate, format, and 1 to 1024 tracks or mono or stereo without tracks) and there is memory; then the identifier stands for the given rate and channels and no other identifier changes. A new context knows exactly the two built-in encodings (10: stereo, 11: mono, 44100 Hz). Identifiers stay unique. A sender with a non-zero packet_encoding is given exactly that encoding if it is known, and is rejected otherwise. A zero packet_encoding selects an encoding with the rate and channels of the frames (false: no table that can be made ever has a match, since encodings of a context are 16-bit integers, frames are 32-bit floats and the comparison includes the format; such a sender is always rejected). A registered encoding has the registered format (false: packets carry 16-bit integers although only 32-bit floats can be registered).", "quantifier": "all sequences of registrations with arbitrary arguments, all sender configs", "why_tests_cant": "Identifiers, rates, track counts and histories of registrations are unbounded combinations; that automatic selection never works for any history is a universal statement.", "anchors": ["src/public_api/src/context.cpp:58-103", "src/public_api/src/adapters.cpp:56-91", "src/public_api/src/adapters.cpp:274-375", "src/internal_modules/roc_rtp/encoding_map.cpp:18-113", "src/public_api/include/roc/config.h:640-665"]}
{"id": "C102", "title": "User configuration means what the documentation says", "statement": "Opening a sender or receiver accepts exactly the configs in which every field has a documented value, never aborts, and configures the pipeline with the documented meaning of every field: rate and channels of frames, payload type, durations as given or default, block size of FEC, clock source, latency tuner, resampler. Zero in fec_block_source_packets or fec_block_repair_packets means the default (false: if only one of them is zero, the block gets zero packets of that kind). Durations are used as given (false: 2^63 ns and more become negative). Interfaces, protocols and log levels are converted as listed, and back. An interface config is accepted exactly if the outgoing address and the multicast group are each empty or an address, and these are used as given. Zero sizes in a context config mean 2048 and 4096 bytes. The end-to-end latency is reported as it is, or as zero if unknown.", "quantifier": "all values of all fields, including integers that are not members of the enumerations", "why_tests_cant": "The structs have a dozen fields with up to 2^64 values each; the tests use a few configs.", "anchors": ["src/public_api/src/adapters.cpp:43-702", "src/public_api/include/roc/config.h:84-982", "src/internal_modules/roc_pipeline/config.cpp:15-63"]}
{"id": "C103", "title": "Zero fields of latency, timeout and resampler settings get the documented defaults", "statement": "For a receiver and a sender: values given by the user are kept; a zero backend means network incoming queue; a zero profile means intact on a sender and on a receiver responsive for targets below 30 ms and gradual otherwise; a zero tolerance, if tuning is enabled, is between a half and two times the target, and on a sender larger than on a receiver with the same target; zero timeouts are 4/3 of the target and 2 s, negative ones disable the check, and the watchdog accepts the result at any rate; a zero resampler means built-in for the responsive profile or without Speex, otherwise Speex. A zero target of a receiver means 200 ms and sessions can be created (false: without latency tuning the target is set to -1 and every session is rejected, though the documentation promises a default). Targets of any size are handled (false: from 2^61 ns opening a receiver overflows signed arithmetic). The default tolerance follows the table in the comment of the formula: 8 ms for 1 ms, 20 ms for 10 ms, 1444 ms for 2 s (false: it is below 1.5 ms, below 12.5 ms and above 1.7 s, as logarithms are taken of nanoseconds).", "quantifier": "all values of the settings (targets up to 2^53 ns where stated), any implementation of the logarithm with a relative error below 2^-45, any conversion of durations to samples", "why_tests_cant": "Durations have 2^64 values; the bounds on the tolerance are about a transcendental function.", "anchors": ["src/internal_modules/roc_audio/latency_tuner.cpp:23-258", "src/internal_modules/roc_audio/watchdog.cpp:16-104", "src/internal_modules/roc_audio/resampler_config.cpp:15-32", "src/internal_modules/roc_pipeline/config.cpp:26-63", "src/public_api/include/roc/config.h:455-530"]}
{"id": "C104", "title": "Encoder and decoder: interfaces, packets and frames", "statement": "For a roc_sender_encoder and a roc_receiver_decoder. activate: the first call for an interface succeeds, if there are enough resources, exactly for the protocols the documentation lists for the interface and the FEC scheme (of the encoder, or of the other interface activated on the decoder), and never for another one; an interface is activated at most once. A call that failed can be repeated (false: after a call that failed in the pipeline, every further activate of this interface aborts the process); without such repetition nothing aborts (false: if the latency configuration of an encoder is not usable, e.g. a tuner profile without target latency, the call that completes source and repair returns an error and activating the control interface then aborts; this and repetition are the only ways). Packets of source and repair are produced exactly when all the interfaces of the FEC scheme are activated. pop returns the packets the pipeline wrote for the interface in order, each at most once, and with buffers of the maximum packet size none is lost; with a too small buffer it fails and the packet can be taken later (false: it is gone). push accepts exactly non-empty packets up to the maximum size for activated interfaces (of an encoder only the control interface), and the pipeline gets exactly these in order. Frames are accepted exactly if they are of whole samples of all channels and are passed completely.", "quantifier": "all sequences of calls with arbitrary arguments, all packets the pipeline writes, all results of allocations", "why_tests_cant": "Histories of calls are unbounded; tests activate each interface once, with the right protocol and large buffers.", "anchors": ["src/public_api/src/sender_encoder.cpp:70-360", "src/public_api/src/receiver_decoder.cpp:70-360", "src/internal_modules/roc_node/sender_encoder.cpp:81-218", "src/internal_modules/roc_node/receiver_decoder.cpp:81-203", "src/internal_modules/roc_pipeline/sender_slot.cpp:49-210", "src/internal_modules/roc_pipeline/sender_session.cpp:189-228", "src/internal_modules/roc_pipeline/sender_session.cpp:349-372", "src/internal_modules/roc_pipeline/receiver_slot.cpp:49-235", "src/internal_modules/roc_pipeline/endpoint_helpers.cpp:18-149", "src/internal_modules/roc_core/optional.h:79-101"]}
{"id": "C105", "title": "Latency monitor: measured latency, end of session and scaling", "statement": "The queue latency reported for a session is the duration between the end of the newest packet and the position of the depacketizer on the endless stream (positions less than 2^31 samples apart); the end-to-end latency is playback time minus capture time of the frame. A read ends the session exactly if the measured latency of the configured backend is known and outside the configured bounds (and not excused by stalling) or the resampler refuses the factor; after that nothing is read or changed, before that frames are passed unchanged. Factors given to the resampler start with one, stay within the configured tolerance, come from the tuner fed with exactly the measured metrics, and there are none without tuning. The delay since the last packet is reported (false: if the packet is stamped at or after the present time of the clock, or not stamped, the old delay stays and can keep a session alive that should end). The end-to-end latency is that of the last frame or unknown (false: once the capture time is unknown, the last known value stays for ever). Every read returns (for sessions below 2^32 samples; see C47).", "quantifier": "all histories of reads and reclocks, all states of queue, depacketizer, clock, reader and resampler, all configurations and estimators", "why_tests_cant": "Positions wrap after 2^32 samples, histories are unbounded, and the interplay of stalling, bounds and clock steps needs exact timing.", "anchors": ["src/internal_modules/roc_audio/latency_monitor.cpp:20-213", "src/internal_modules/roc_audio/latency_monitor.h:32-125", "src/internal_modules/roc_audio/latency_tuner.cpp:264-345"]}
{"id": "C106", "title": "UDP port: every packet written is sent once and in order, every datagram received is delivered, and closing completes", "statement": "Packets written to a UDP port from any number of threads are handed to the kernel at most once, and never after a packet whose write call began when their own write had already returned, both when they are sent directly by the writing thread (non-blocking writes) and when they go through the event loop. No wakeup is lost: when the loop becomes idle, every packet was sent or was refused by the kernel. If a non-blocking write can't be performed, the port falls back to a regular asynchronous write (false: the negative error code is taken for success and the packet is dropped silently). Every datagram that is not empty and fits into a packet buffer is given to the current inbound writer, with its bytes and source address; if memory for a buffer is exhausted, datagrams are dropped (false: undefined behavior). async_close ends with exactly one call of the close handler, after all packets were sent, and nothing is received afterwards (false once uv_udp_send has returned an error: the port is never closed). A port used by its rules does not abort. The address is reused only for ports that are not ephemeral. A port with a multicast interface receives only while it is a member of the group.", "quantifier": "for all configurations, all numbers of writing threads, all interleavings of their steps with the event loop, all results of system calls", "why_tests_cant": "Interleavings of several threads with the event loop cannot be enumerated, full socket buffers and failures of libuv calls do not occur in tests, and tests on a loopback device never make a non-blocking send fail.", "anchors": ["src/internal_modules/roc_netio/target_libuv/roc_netio/udp_port.cpp:28-546", "src/internal_modules/roc_netio/target_libuv/roc_netio/udp_port.h:32-175", "src/internal_modules/roc_netio/target_posix/roc_netio/socket_ops.cpp:617-654", "src/internal_modules/roc_netio/target_posix/roc_netio/socket_ops.h:40-49", "src/internal_modules/roc_netio/target_libuv/roc_netio/basic_port.h:27-38"]}
{"id": "C107", "title": "Dynamic array behaves like a list and destroys every object exactly once", "statement": "For every history of operations (push_back, pop_back, resize, clear, grow, grow_exp, element access, with allocations that may fail), core::Array behaves like a list: the same elements in the same order, panics exactly for element access or removal outside of the list, and an operation that returns false leaves the array as it was. Each object is constructed and destroyed exactly once, with or without embedded storage, and no operation touches memory where there is no object. Pushing n elements with exponential growth copies a number of elements linear in n. An element of the array itself may be pushed (false: during growth the object is destroyed before it is copied). Sizes for which there is no memory are refused (false: the multiplication by the element size wraps and a too small block is used; growth by more than 2^63 elements never returns).", "quantifier": "all histories, element types and sizes, embedded capacities, allocation outcomes", "why_tests_cant": "Histories and sizes are unbounded; use of destroyed objects usually goes unnoticed with trivially copyable types; overflow needs sizes near the address space.", "anchors": ["src/internal_modules/roc_core/array.h:40-330"]}
{"id": "C108", "title": "Slices of a shared buffer: bounds, sharing and lifetime", "statement": "For every history of creating, copying, assigning, destroying, reslicing, extending, subslicing and element access of slices: every slice is null and empty, or lies inside of a buffer that was not returned to its pool; a buffer is returned exactly when the last slice that refers to it is gone. reslice, subslice and extend panic exactly for ranges outside of the capacity or the slice, and otherwise give exactly the requested part of the same memory; extend keeps the old elements and points to the first new one (false: the sum of size and increment wraps, then the slice gets shorter silently). A write to an element is seen through all slices that contain it and changes nothing else; other operations don't change other slices. An index outside of the slice panics (false: an index equal to the size is accepted: reads and writes an element that doesn't belong to the slice, or memory outside of the buffer).", "quantifier": "all histories with any number of buffers and slices, all ranges and indices", "why_tests_cant": "Ownership and aliasing depend on the whole history; off-by-one access inside of a larger buffer has no visible effect in tests.", "anchors": ["src/internal_modules/roc_core/slice.h:55-211", "src/internal_modules/roc_core/shared_ptr.h:52-129", "src/internal_modules/roc_core/ref_counted.h:52-75", "src/internal_modules/roc_core/buffer.h:40-63"]}
{"id": "C109", "title": "Network loop completes every task once and owns its ports", "statement": "Threads schedule tasks on NetworkLoop (add a UDP port, a TCP server or a TCP client, start sending or receiving, remove a port, resolve an address) in any order and interleaving, and results of system calls and callbacks come in any order. If the rules of use are followed, nothing aborts and no freed object is used; every task is completed and its owner notified exactly once, after a bounded number of events of the loop, so that schedule_and_wait always returns; a successful add gives an open port of the requested kind that stays usable until its removal is requested, a failed one leaves no open port; a completed removal has closed the port; num_ports is the number of open ports; the destructor returns, and all ports are closed then. The destructor may be called while tasks are waiting (false: a port that is opened by a waiting task after all ports were closed is never closed and the destructor never returns; a waiting removal aborts the process). Other broken rules are reported as errors (false: removing a port twice, accepting a connection after removal was requested, removing a connected client, scheduling a task again and destroying an unfinished task abort the process).", "quantifier": "all histories of scheduled tasks, interleavings with the event loop, outcomes of system calls and callbacks", "why_tests_cant": "Tests use schedule_and_wait from one thread; lost wake-ups, callbacks in unusual order and destruction with tasks in flight depend on interleavings.", "anchors": ["src/internal_modules/roc_netio/target_libuv/roc_netio/network_loop.cpp:100-579", "src/internal_modules/roc_netio/target_libuv/roc_netio/network_task.h:29-67", "src/internal_modules/roc_netio/target_libuv/roc_netio/basic_port.h:27-62"]}
{"id": "C110", "title": "The TCP server gives every connection to its acceptor once and takes it back once", "statement": "A TCP server port gives each accepted connection to the acceptor at most once; it holds exactly one reference to the connection handler for every connection that the acceptor took and that was not removed; when (and only when) the termination of such a connection is completed, the server releases this reference and then calls remove_connection, exactly once. Every connection that is not closed is owned by exactly one list of the server. async_close is completed at once when the server was never listening, otherwise it is started and the owner is notified exactly once; at that time every connection is closed, every handler is released and was removed, and socket and poll handle are gone, so that the port can be destroyed. Without new connections the number of callbacks is bounded, and as long as the close is not completed there is a callback to come or a connection that the user did not terminate. (false: a server whose user asks to close it when it has no connections does not abort - a connection that is taken before async_close runs makes it abort; an acceptor may terminate a connection and return null - the server aborts; a server that is being closed accepts no connections - it does, and the close is never completed if clients go on to connect, even if all of them are refused.)", "quantifier": "For all sequences of calls and of libuv callbacks in any order, all results of system calls, all numbers of connections and handlers, all answers of the acceptor.", "why_tests_cant": "The order in which accept events, terminations, close completions and the close of the server interleave is up to the operating system; tests see the usual order and a handful of connections, and cannot show that no order leaks a reference, notifies twice or hangs.", "anchors": ["src/internal_modules/roc_netio/target_libuv/roc_netio/tcp_server_port.cpp", "src/internal_modules/roc_netio/target_libuv/roc_netio/tcp_server_port.h", "src/internal_modules/roc_netio/target_libuv/roc_netio/iconn_acceptor.h"]}
{"id": "C111", "title": "File and device sources deliver the samples of their input in order", "statement": "WavSource, SndfileSource and SoxSource (file): for every sequence of read, pause, resume and restart and whatever number of samples the library returns per call, the frames returned by read() are consecutive parts of the file from its first sample to its last, the last one filled up with zeros, after which read() reports the end; restart() begins again with the first sample; while a sox source is paused read() returns false and after resume() the stream continues where it was. SoxSource (device): each resume or restart begins a new recording, delivered from its first sample. (false: a WAV file read in frames that are not a whole number of PCM frames is cut off in the middle, a sndfile source aborts for such frames.) (false: a device whose recording had ended delivers samples after pause and resume - it stays ended.) resume() that failed because the device has another sample rate leaves the source paused (false: the next resume() succeeds and delivers samples of the wrong rate). A failed restart() leaves the source usable (false: the next read() or pause() aborts). The parameters of a paused source can be queried (false for devices: aborts).", "quantifier": "all inputs, all sizes of frames, all sizes of the internal buffer, all short reads, all sequences of calls", "why_tests_cant": "Tests read a few generated files with frame sizes that divide evenly and with libraries that return full reads; devices that disappear or change their rate are not available in tests.", "anchors": ["src/internal_modules/roc_sndio/wav_source.cpp:122-160", "src/internal_modules/roc_sndio/target_sox/roc_sndio/sox_source.cpp:122-296", "src/internal_modules/roc_sndio/target_sndfile/roc_sndio/sndfile_source.cpp:95-165"]}
{"id": "C112", "title": "Audio file and device URIs are parsed as documented and survive formatting", "statement": "parse_io_uri accepts a string if and only if it has one of the documented forms (DEVICE_TYPE://NAME, file:///ABS, file://localhost/ABS, file:/ABS, file:REL, file://-, file:-) and its path is a valid percent-encoding; the scheme and the decoded path are those of the form. The equivalent forms give equal URIs. A parsed URI is valid and can be formatted. Formatting a valid URI and parsing the text gives the same URI (false for files whose path is / or begins with //: the text is rejected). An accepted string has no query and no fragment (false: a relative path may begin with ? or #).", "quantifier": "all strings, all schemes and paths", "why_tests_cant": "Tests check a list of strings; the languages are infinite.", "anchors": ["src/internal_modules/roc_address/io_uri.h:67-127", "src/internal_modules/roc_address/io_uri_parse.rl:23-125", "src/internal_modules/roc_address/io_uri_format.cpp:16-34", "src/internal_modules/roc_address/io_uri.cpp:51-96"]}
{"id": "C113", "title": "Audio drivers: the right backend is asked, and the lists of schemes and formats are those of the drivers", "statement": "BackendDispatcher::open_sink / open_source: for a device URI only drivers for devices whose name is the scheme and which support the direction are asked, in order of registration, for the path of the URI, and the first device opened is returned; for a file with a forced format the same holds for drivers for files with the name of the format; for a file without one the backends are asked in order to detect the format; an invalid URI aborts, any other does not. open_default_sink / open_default_source open a device of a default driver that supports the direction (false: any driver that is default or supports the direction is asked). get_supported_schemes and get_supported_formats list every driver name once, in order (false: a name is left out if it is the beginning of a listed one of similar size, such as aiff after aiffc). The WAV backend takes exactly files named .wav or asked as wav. The sndfile backend writes a file in the format asked by name (false: refused for paths without a dot) or in the format of the extension. Every driver registered by the sndfile and sox backends is accepted by name and leads to the format it was registered for; every visible handler of sox is registered (false: exactly once).", "quantifier": "all lists of drivers, all URIs and formats, all outcomes of opening, all sets of formats of libsndfile and sox", "why_tests_cant": "Tests see only the drivers compiled in and present on the machine.", "anchors": ["src/internal_modules/roc_sndio/backend_dispatcher.cpp:19-238", "src/internal_modules/roc_sndio/wav_backend.cpp:21-60", "src/internal_modules/roc_sndio/target_sndfile/roc_sndio/sndfile_sink.cpp:42-120", "src/internal_modules/roc_sndio/target_sndfile/roc_sndio/sndfile_backend.cpp:23-56", "src/internal_modules/roc_sndio/target_sox/roc_sndio/sox_backend.cpp:25-243"]}
{"id": "C114", "title": "The profiler reports the average speed over its window", "statement": "Profiler: for all sequences of frames of any size, each with a non-zero time, get_moving_avg() is the average speed of the samples in the window: all samples until num_chunks chunks are complete, afterwards the last num_chunks-1 chunks, where the oldest chunk is counted by its mean; the value lies between the least and the greatest speed in the window. Splitting frames at chunk borders does not change it, the loop ends, and the ring of chunks is accessed inside its bounds. A profiler is valid if the durations are not negative and a chunk has at least one sample; an invalid configuration is reported by is_valid() (false for a chunk duration of zero: integer division by zero in the constructor). A valid profiler reports a number (false before the first frame, and for an interval shorter than a chunk once the chunk is complete). The value is the number of samples processed per second of work (false: it is the mean of speeds, 6.67 instead of 5 in the witness).", "quantifier": "all chunk lengths, all numbers of chunks, all sequences of frames", "why_tests_cant": "Tests add a few frames and compare with a naive average over a small ring.", "anchors": ["src/internal_modules/roc_audio/profiler.cpp:18-131", "src/internal_modules/roc_audio/profiler.h:22-87"]}
{"id": "C115", "title": "The CSV dumper writes every accepted entry once, in order, and stops cleanly", "statement": "CsvDumper, for any number of threads in write, would_write and stop and the background thread: no two callers are inside the mutex at once, so the ring buffer has one writer; lines reach the file in the order of acceptance, none twice, and at most max_queued entries wait; every entry accepted before stop() is taken from the buffer before the thread ends, and is in the file if no file write failed; after stop() the thread never blocks and ends within a bound; no wake-up is lost; no two entries of one type are accepted in the same interval of max_interval. A write while no other call runs is accepted unless the dumper is stopped, the interval of the type is used up, or the buffer is full (false with a second thread: dropped because the mutex is busy). would_write() tells whether write() would drop the entry (false: not for a full buffer). max_interval zero means no limit (false: panic). A successfully opened dumper is valid and usable (false: file_ is read uninitialised, the allocation of the ring is not checked). A line holds the type and all fields and determines them up to six decimals, if it has at most 254 characters, as for ten fields below 1e16; (false in general: ten timestamps in nanoseconds are cut, and once the text before the last field exceeds 255 characters memory behind the array is written).", "quantifier": "all interleavings of any number of threads, all entries and fields, all failures of file writes, all configurations", "why_tests_cant": "Interleavings of callers with the background thread are not enumerable by tests; the overflow needs large values that no test writes.", "anchors": ["src/internal_modules/roc_core/csv_dumper.cpp:17-171", "src/internal_modules/roc_core/csv_dumper.h:29-110"]}
{"id": "C116", "title": "The heap arena separates its chunks and detects overflows, foreign frees and leaks", "statement": "HeapArena, for any number of arenas and any program that may write up to 8 bytes beyond either end of its memory: allocated memory is disjoint from all memory in use (with canaries), filled with 0x7a, and leaves other memory unchanged; memory returned with intact canaries is accepted, filled with 0x7d, other memory is unchanged; any changed byte among the 8 before and the 8 behind is found on deallocate: a panic if the overflow guard is on, else counted; memory returned to another arena: a panic if the ownership guard is on, else counted and otherwise ignored; num_allocations() is the number of chunks in use, and the destructor reports a leak exactly if it is not zero; allocated_size() is compute_allocated_size() of the requested size and the size of the block; a correct program never aborts and num_guard_failures() stays zero. The link to the owner catches a double free (false: it is not cleared, a second deallocate passes every check while the arena has other chunks). An allocation that can not be satisfied returns null (false for sizes within 32 bytes of SIZE_MAX: the chunk size wraps around and memory outside is written).", "quantifier": "all sequences of allocations, deallocations, writes and guard changes, all sizes, all behaviours of malloc", "why_tests_cant": "Tests corrupt one byte of one chunk; which bytes are covered, in which states, and the absence of false alarms need all of them.", "anchors": ["src/internal_modules/roc_core/heap_arena.cpp:19-161", "src/internal_modules/roc_core/heap_arena.h:22-114", "src/internal_modules/roc_core/memory_ops.cpp:15-67"]}
{"id": "C117", "title": "Receiver slots, sessions, mixer and RTCP reports stay consistent across packets and refreshes", "statement": "For any history of creating and deleting slots, registering encodings, packets of any payload type, RTCP packets, refresh and reclock calls: no operation aborts, in particular the reports that sessions generate always pass the validation in the RTCP reporter (receiver source, time, non-zero rate), whatever payload types come and whenever encodings are registered; the mixer has every session of every slot as input exactly once and num_sessions() is their number; refresh and reclock remove exactly the sessions that have ended, deletion of a slot exactly its sessions, and refresh returns the earliest deadline of all slots; when a slot generates reports there is one for each session whose audio source is known, in order, with the sequence numbers it has seen and the rate of a registered encoding; a packet with a known payload type that belongs to no session starts one, whose source is that of the packet; a packet with unknown payload type changes nothing. Reports also cover repair streams (false: repair packets have no RTP header, so the repair route never gets a source and is never reported). roc_receiver_query() writes the metrics of the first sessions, as many as fit, leaves other elements alone, sets conn_metrics_count to the number written and connection_count to the number of sessions (false for the count if conn_metrics is null: it becomes the number of sessions although nothing was written).", "quantifier": "all histories of operations, all numbers of slots and sessions, all choices of sessions for packets and of ends of sessions, all array sizes", "why_tests_cant": "Tests use one or two sessions and built-in encodings; the abort in report validation would need an unlucky interleaving of payload types and registrations, and consistency of mixer and slots is an invariant over all histories.", "anchors": ["src/internal_modules/roc_pipeline/receiver_source.cpp:76-188", "src/internal_modules/roc_pipeline/receiver_slot.cpp:77-123", "src/internal_modules/roc_pipeline/receiver_session_group.cpp:85-432", "src/internal_modules/roc_pipeline/receiver_session.cpp:281-352", "src/internal_modules/roc_rtp/link_meter.cpp:53-77", "src/internal_modules/roc_packet/router.cpp:51-130", "src/internal_modules/roc_rtcp/reporter.cpp:1007-1042", "src/internal_modules/roc_node/receiver.cpp:268-323", "src/public_api/src/receiver.cpp:150-177"]}
{"id": "C118", "title": "Sender slots get every frame while they are complete, whatever the order of calls", "statement": "For any history of creating and deleting slots of a sender pipeline, adding endpoints, writing frames, reports of receivers, refreshes and queries, with any results of allocations: a slot gets exactly the frames written from the moment when the last endpoint its FEC scheme needs was returned, in whatever order they were added, until it is deleted, each frame once and in order; num_sessions() and is_complete agree with that. Adding an endpoint returns it exactly if the protocol fits interface and FEC scheme and the interface has none yet, otherwise NULL and nothing changes (false after a failure: if the pipeline cannot be constructed by the call that would complete the slot, the endpoint stays in the slot though NULL was returned, so the call can never be repeated and the slot never gets a frame; if it was the feedback monitor that is not valid, adding a control endpoint then aborts the program). Reports of receivers are used exactly if the slot is complete and its control endpoint has an address that is not multicast. refresh() returns the earliest deadline of the slots with control endpoint, or zero. create_slot() returns NULL if the slot cannot be created (false: if the identity of the session cannot be generated, the destructor of the slot aborts). There are no other aborts.", "quantifier": "all histories of calls, all numbers of slots, all FEC schemes and sets of compiled-in schemes, all failures of allocations and constructors", "why_tests_cant": "Tests add endpoints in the usual order, with enough memory and one or two slots; the failures need an allocation or a random number generator to fail at one particular point of a history.", "anchors": ["src/internal_modules/roc_pipeline/sender_sink.cpp:67-124", "src/internal_modules/roc_pipeline/sender_sink.cpp:167-171", "src/internal_modules/roc_pipeline/sender_slot.cpp:17-249", "src/internal_modules/roc_pipeline/sender_session.cpp:18-272", "src/internal_modules/roc_pipeline/sender_session.cpp:326-375", "src/internal_modules/roc_audio/fanout.cpp:16-50", "src/internal_modules/roc_audio/feedback_monitor.cpp:38-69", "src/internal_modules/roc_pipeline/state_tracker.cpp:36-60"]}
{"id": "C119", "title": "Endpoint API: setters fail on bad arguments only, getters return what was set, broken endpoints are refused", "statement": "(1) Every setter of an endpoint (URI, protocol, host, port, resource) succeeds or fails depending on its argument only, exactly if the argument is good per documentation. (2) After any sequence of setters, protocol, host and port getters return what was successfully set last and fail if the last attempt failed or nothing was set; a successful set of one field does not disturb others. (3) An endpoint in which no field is invalid or missing is accepted by bind and connect, and its URI consists of exactly the fields that were set; (4) it is safe to ignore errors of setters: an endpoint with an invalid field is refused by bind and connect (false: after a bad port, set_protocol makes the port valid again, so that the endpoint is accepted with the standard port; holds if the protocol is not set while the port is invalid). (5) A failed set_resource invalidates nothing but the resource (false: if the text begins with a scheme and a colon, the call fails but the protocol of the endpoint is changed). (6) Getters with buffers never write outside of the buffer, succeed exactly if the text fits, and report the needed size whether it fits or not; with no buffer they only report the size (false if there is nothing to get: then the size is left as it was, though documented as always updated).", "quantifier": "all sequences of setter calls with all arguments (no resource beginning like a URI in (2)-(4)), all buffers and sizes", "why_tests_cant": "Tests set each field once and read it back; the state consists of five validity flags that are changed by overlapping setters in any order, and defects (4) and (5) need a failing call followed or preceded by particular other calls.", "anchors": ["src/public_api/src/endpoint.cpp:19-295", "src/public_api/include/roc/endpoint.h:24-321", "src/internal_modules/roc_address/endpoint_uri.cpp:20-330", "src/internal_modules/roc_address/endpoint_uri_parse.rl:30-140", "src/internal_modules/roc_address/endpoint_uri_format.cpp:14-63", "src/internal_modules/roc_core/string_builder.cpp:16-200"]}
{"id": "C120", "title": "Frames written and read through the API reach the pipeline completely, in order and on time, however they are cut into sub-frames", "statement": "roc_sender_write() and roc_receiver_read() refuse NULL and sizes that are not whole samples for all channels, do nothing for zero size, and otherwise: (write) every sequence of buffers is accepted and the pipeline gets all samples in order, cut into non-empty pieces not longer than the scheduling limit, each with its exact duration, no flags, and the capture time of its first sample counted from the call; with the internal clock every buffer waits for exactly as many ticks as there were samples before it (false for 2^32 or more samples per channel: the duration has 32 bits, a multiple of 2^32 aborts the process, and otherwise only the remainder is sent though zero is returned). (read) The buffer holds what the pieces were filled with, up to the first failing one, and is untouched behind; flags are the union, the timestamp is that of the first piece, the duration is the sum. If the pipeline below is a stream of samples, then the samples read do not depend on buffer sizes nor on task scheduling settings. A frame object that was written cannot be written again with automatic duration.", "quantifier": "all sequences of buffers, channel counts, sub-frame limits, scheduling modes, clocks, and pipelines below", "why_tests_cant": "Tests use a few frame sizes at one limit; the cutting into sub-frames depends on the remainder of every frame size by every limit, and the defect needs buffers of 16 GB.", "anchors": ["src/public_api/src/sender.cpp:178-217", "src/public_api/src/receiver.cpp:179-222", "src/internal_modules/roc_pipeline/sender_loop.cpp:207-252", "src/internal_modules/roc_pipeline/receiver_loop.cpp:227-264", "src/internal_modules/roc_pipeline/pipeline_loop.cpp:195-278", "src/internal_modules/roc_pipeline/pipeline_loop.cpp:346-387", "src/internal_modules/roc_audio/frame.cpp:17-110"]}
{"id": "C121", "title": "Pipelines are wired consistently: every stage gets frames it was created for", "statement": "Creating a sender, receiver or transcoder with usable sample specifications never aborts the program: it fails or succeeds, and it succeeds if memory suffices and numeric parameters are accepted. When it succeeds, frames flow from exactly the user's specification to exactly the encoding of packets (sender), from the encoding of packets to exactly the user's specification (receiver), and from input to output (transcoder), each converting stage getting the specification it was created with; a PCM mapper is present iff the user's format is not raw, a channel mapper iff channels differ, a resampler iff rates differ or latency is tuned. (false: a receiver with any output format other than raw aborts, since the mixer is given the format of the user; false: a transcoder ignores formats and hands samples over unconverted; false: TranscoderSink::sample_spec() returns the output specification, whose frames it cannot process if rates or channels differ; false: if the inner resampler of the decimating backend could not be created and rates differ, creation aborts.)", "quantifier": "all sample specifications with any rate, format and channels, all combinations of configuration flags, all results of allocations and of checks in constructors", "why_tests_cant": "The combinations of rates, formats, channels, latency profile, profiling and watchdog, times every possible failing allocation, cannot be enumerated; tests use a few configurations with raw specifications.", "anchors": ["src/internal_modules/roc_pipeline/sender_sink.cpp:17-62", "src/internal_modules/roc_pipeline/sender_session.cpp:42-207", "src/internal_modules/roc_pipeline/receiver_source.cpp:16-71", "src/internal_modules/roc_pipeline/receiver_session.cpp:18-232", "src/internal_modules/roc_pipeline/transcoder_sink.cpp:17-129", "src/internal_modules/roc_pipeline/transcoder_source.cpp:17-88", "src/internal_modules/roc_audio/mixer.cpp:18-37", "src/internal_modules/roc_audio/decimation_resampler.cpp:29-138", "src/internal_modules/roc_audio/resampler_map.cpp:92-113"]}
{"id": "C122", "title": "PulseAudio device passes samples through, in order and without hanging", "statement": "While the device is open, a write gives the server exactly the samples of the frame in order (a proper prefix if the stream failed and was restarted), never hangs and releases the lock of the main loop, and returns within as many rounds as the frame has samples if the server has space. While libpulse reports no errors, reads give the user the recorded samples in order, holes being silence, none lost or repeated across fragments and frames of any sizes. The timeout always stays between 50 ms and 2 s and doubles on each expiry. (false: writable space in bytes is compared with a number of samples, so four times the space is written; false: a frame written or read while the device is paused leaves the lock held, and resume then never returns; false: pausing or restarting a source in the middle of a fragment makes the next read access released memory; false: a source whose server stops sending never restarts and never returns; false: each failed attempt to open leaves a context behind.)", "quantifier": "all frames, fragment sizes, holes, answers of the server and of libpulse, all numbers of waits, wakeups and timeouts, all requested latencies", "why_tests_cant": "Needs a PulseAudio server whose timing and fragmentation is arbitrary; no unit test of the repository opens a PulseAudio device in CI, and released memory or a held lock shows only in rare interleavings.", "anchors": ["src/internal_modules/roc_sndio/target_pulseaudio/roc_sndio/pulseaudio_device.cpp:34-69", "src/internal_modules/roc_sndio/target_pulseaudio/roc_sndio/pulseaudio_device.cpp:126-154", "src/internal_modules/roc_sndio/target_pulseaudio/roc_sndio/pulseaudio_device.cpp:198-252", "src/internal_modules/roc_sndio/target_pulseaudio/roc_sndio/pulseaudio_device.cpp:289-361", "src/internal_modules/roc_sndio/target_pulseaudio/roc_sndio/pulseaudio_device.cpp:664-793"]}
{"id": "C123", "title": "FEC restores every lost packet while enough packets of each block arrive", "statement": "In a stream with k source and r repair packets per block: from the call that starts decoding, and again after the last packet of any block, if whenever a packet of a block is due at least k different packets of this block (source or repair, in any combination) have arrived, and the decoder restores a block from k packets, then every read returns a packet, and these are all source packets of all blocks in order, with none left out, across wraps of the block number. (false: a repair packet that arrives one read later than the position it would restore is useless, the position is skipped for ever; false: if the decoder fails once, it is not asked again until another packet of the block arrives.)", "quantifier": "all block sizes, repair rates, loss and reordering patterns, queues before the start, lengths of the stream and block numbers", "why_tests_cant": "Tests lose a few fixed packets of one or two blocks; the combinations of lost source and repair packets, of arrival order and of what happened in earlier blocks are unbounded.", "anchors": ["src/internal_modules/roc_fec/reader.cpp:62-136", "src/internal_modules/roc_fec/reader.cpp:138-179", "src/internal_modules/roc_fec/reader.cpp:181-257", "src/internal_modules/roc_fec/reader.cpp:277-454"]}
{"id": "C124", "title": "Audio packets survive a lossy network end to end with FEC", "statement": "A sender writes packets of one size through the FEC writer with k source and r repair packets per block, from any first block number. The network may lose packets of both streams in any pattern and deliver them with any delay, but keeps the order inside each stream, and what it delivers belongs to blocks at most w away from the block that is due (w < 32767 and at most the allowed jump of block numbers). If whenever a packet is due at least k of the k + r packets of its block were delivered, and the decoder restores a block from k packets, then the receiver never aborts and never stops, and its j-th read returns the j-th packet written by the sender: the packet itself, or one restored for exactly this position of this block. This holds for ever, across any number of wraps of the block number. (false: if less than k packets of a block were delivered, a lost packet is skipped; false: if blocks are lost so that the next delivered block is further away than the allowed jump, the receiver stops for ever.)", "quantifier": "all block sizes, numbers of repair packets, first block numbers, lengths of the stream, loss patterns and delays of both streams", "why_tests_cant": "Tests run one writer and one reader with a few fixed loss patterns over a few blocks; loss patterns, delays between source and repair streams and wraps of the 16-bit block number over long streams are unbounded.", "anchors": ["src/internal_modules/roc_fec/reader.cpp:62-793", "src/internal_modules/roc_fec/writer.cpp:94-303", "src/internal_modules/roc_packet/sorted_queue.cpp:16-91"]}
{"id": "C125", "title": "Recorded files contain every sample of every frame once and in order", "statement": "Writing frames of any sizes to an opened SoX sink gives SoX every sample of every frame exactly once and in order, in non-empty pieces that fit the buffer, and a frame is given completely before write returns; the sink opens iff the output has the requested rate and channels (44100 Hz for files and stereo if not requested) and a frame has at least one sample, and then reports what was really opened. A libsndfile sink writes in the major format of the driver or extension with the best sub-format the library accepts, and a frame is either in the file completely or the process aborts. (false: samples that SoX does not take, e.g. because the disk is full, are lost without notice; false: a SoX sink that failed to open aborts when opened again and never returns from write; false: libsndfile can not open a path without extension even if the driver is given, ignores the requested sample format so that the first frame aborts, and keeps bits of formats from failed attempts)", "quantifier": "all sequences of frames of all sizes, buffer sizes, configurations, and answers of the libraries", "why_tests_cant": "Tests write a few files with frame sizes related to the buffer; all combinations of frame sizes and buffer sizes, and failures in the middle of a file are not covered.", "anchors": ["src/internal_modules/roc_sndio/target_sox/roc_sndio/sox_sink.cpp:17-89", "src/internal_modules/roc_sndio/target_sox/roc_sndio/sox_sink.cpp:159-256", "src/internal_modules/roc_sndio/target_sndfile/roc_sndio/sndfile_sink.cpp:21-133", "src/internal_modules/roc_sndio/target_sndfile/roc_sndio/sndfile_sink.cpp:137-285"]}
{"id": "C126", "title": "Audio over a lossy network is bit-exact while FEC has enough packets", "statement": "Frames of any sizes are written by the sender, divided into packets and sent with FEC, k source and r repair packets per block. If the network loses packets of both kinds but at least k packets of each block arrive in time, and the decoder restores packets correctly, then the frames read by the receiver, of any sizes, contain exactly the samples that were written, from the first one on: nothing is missing, repeated, swapped or replaced with silence. Every packet that reaches the depacketizer is the one written at that position, whether received or restored. (false: without enough packets of a block; there is silence in the place of the lost packet, and the samples after it stay at their places.)", "quantifier": "for all packetizer configurations, starting sequence numbers, timestamps and block numbers, all sequences of frames written, all block sizes k and r valid for the encoder, all delivery schedules (losses, reordering within a bounded distance of blocks) of any length, and all sequences of frame sizes read", "why_tests_cant": "Tests run one length of stream, one block size and a few loss patterns; block numbers, sequence numbers and timestamps wrap at different places, and the set of loss patterns that still leave k packets in each block is exponential in the length.", "anchors": ["src/internal_modules/roc_audio/packetizer.cpp:75-196", "src/internal_modules/roc_fec/writer.cpp:94-303", "src/internal_modules/roc_fec/reader.cpp:62-793", "src/internal_modules/roc_audio/depacketizer.cpp:60-334"]}
{"id": "C127", "title": "Default buffer sizes of the tools are enough for their packets and frames", "statement": "A source packet can be created exactly if it fits in a packet buffer, otherwise an error is reported. Without --max-packet-size, packets of roc-send that are not longer than its frames fit in its packet buffers, with and without FEC, whatever the lengths are (for rates from 8000 Hz). Packets of up to 11 ms get to roc-recv with default buffers. Without --max-frame-size, roc-recv can start for each frame length and output of up to 12 channels; roc-send can start for frames up to 10 ms of stereo input up to 51200 Hz. (false: a repair packet that does not fit aborts the process instead, and there are buffer sizes, for each payload, for which source packets fit and repair packets abort; packets of 66 ms or more are never created by roc-send with default frame length, and nothing is sent; packets from 12 to 65 ms are sent and always dropped by a default roc-recv; roc-send does not start with --frame-len of 12 ms or more for stereo 44100 Hz, nor with default frame length from 52000 Hz.)", "quantifier": "for all packet lengths, frame lengths up to 2^42 ns, rates, numbers of channels, FEC schemes, buffer sizes and payload sizes, and all sequences of frames written", "why_tests_cant": "Tests use fixed lengths with sizes that fit; the sizes come from float computations over continuous ranges of lengths and rates in three programs, and the abort happens only for two sizes per payload size.", "anchors": ["src/tools/roc_send/main.cpp:235-263", "src/tools/roc_recv/main.cpp:228-256", "src/internal_modules/roc_packet/packet.cpp:189-194", "src/internal_modules/roc_fec/composer.h:36-120", "src/internal_modules/roc_fec/writer.cpp:208-252", "src/internal_modules/roc_audio/packetizer.cpp:172-196", "src/internal_modules/roc_sndio/pump.cpp:15-50", "src/internal_modules/roc_node/context.h:30-41"]}
{"id": "C128", "title": "roc-send starts exactly with the documented combinations of endpoints, and sends to all of them", "statement": "roc-send starts if and only if the --source, --repair and --control options are as its manual says: at least one source; all sources have the same protocol; there is a repair endpoint with the matching protocol for every source if the protocol has FEC, and no repair endpoint otherwise; there is no control endpoint or one per source; --nbsrc and --nbrpr are positive and used only with FEC. Once it has started, every frame goes to every slot, and slot k has exactly the endpoints of the k-th options. Any other combination, and any failure to resolve, bind or construct, ends with an exit code and not with an abort (except a failure to generate a random identity).", "quantifier": "for all lists of URIs (parsed or not, any protocol), all numbers of slots, all compiled-in FEC schemes, and all failures of the environment at every call", "why_tests_cant": "There are infinitely many combinations of endpoints and failures; the outcome depends on checks in four layers (main, node, slot, session) and on their order, and there are no unit tests for the tools.", "anchors": ["src/tools/roc_send/main.cpp:116-153", "src/tools/roc_send/main.cpp:336-433", "src/internal_modules/roc_node/sender.cpp:62-248", "src/internal_modules/roc_node/sender.cpp:329-432", "src/internal_modules/roc_pipeline/sender_slot.cpp:49-249", "src/internal_modules/roc_pipeline/endpoint_helpers.cpp:18-149"]}
{"id": "C129", "title": "Losses told by reception reports", "statement": "When a receiver reports the counters of expected and lost packets of a stream, the sender reads from the reception block the fraction which RFC 3550 demands: with D packets expected and L of them lost since the previous report (L <= D <= 2^15) it is floor(256*L/D), at most 255, over 256, and depends on nothing reported earlier; for any larger counters it is within 1/256 + 2^-22 of L/D; it is zero when nothing was expected or the cumulative loss did not grow. The cumulative loss is the counter limited to 24 bits with sign, and no other field changes. A receiver whose packets were lost reports those losses (false: its meter never fills the counters, so each block tells of no loss whatever is missing).", "quantifier": "all histories of reports, all counters, all contents of the block; for the failure all sequences of packets and reports", "why_tests_cant": "Tests try a few quotients; whether float rounding can ever move a quotient over a step of 1/256 needs an argument about all pairs of counters, and that no sequence of packets makes a receiver report a loss is a claim about all histories.", "anchors": ["src/internal_modules/roc_rtcp/loss_estimator.cpp:14-35", "src/internal_modules/roc_rtcp/reporter.cpp:716-719", "src/internal_modules/roc_rtcp/headers.h:397-448", "src/internal_modules/roc_rtp/link_meter.cpp:99-129", "src/internal_modules/roc_pipeline/receiver_session.cpp:316-321"]}
{"id": "C130", "title": "Concurrent packet queue returns packets in order and loses no wakeup", "statement": "For any number of threads which read from and write to a concurrent packet queue, in any interleaving: packets returned by reads, in the order of returning, are the first packets written, each once, in the order of writing. In blocking mode no read returns without a packet, and while packets are in the queue and some thread is in a read, some thread in a call can go on; a reader sleeps only while the queue is empty or a writer is about to wake it. In non-blocking mode a read which finds no packet was preceded by reads of all packets written so far, and calls of a lone reader and of writers never wait.", "quantifier": "all interleavings of any number of threads and calls", "why_tests_cant": "Concurrency: unboundedly many schedules; a lost wakeup appears only in rare ones.", "anchors": ["src/internal_modules/roc_packet/concurrent_queue.cpp:16-49", "src/internal_modules/roc_packet/concurrent_queue.h:28-54"]}
{"id": "C131", "title": "Reference-counted objects live exactly as long as shared pointers to them", "statement": "After any history of constructions, copies, assignments, resets and destructions of shared pointers (variables or members of objects, members being released with their object) without a fault, an object exists if and only if some shared pointer points to it, and its counter is the number of these pointers. A history of at most 100000 operations with assignments between variables accesses no destroyed object and does not abort. (false: assignments in general are safe; assigning to a variable from a member of the object it alone points to, like p = p->next, releases the old object and with it the new one before the new one is acquired.)", "quantifier": "all histories of operations and all layouts of members", "why_tests_cant": "Life time depends on whole histories and on graphs of objects of any shape and depth; tests use single objects.", "anchors": ["src/internal_modules/roc_core/shared_ptr.h:37-131", "src/internal_modules/roc_core/ref_counted.h:58-65", "src/internal_modules/roc_core/ref_counted_impl.cpp:15-63"]}
{"id": "C132", "title": "Arenas and pools with a shared limit stay within it and account exactly", "statement": "For limited arenas and limited pools which share a memory limiter with a limit, used by any number of threads in any interleaving, with requests that do not overflow: memory in use with its overhead, and what the limiter reports, never exceed the limit; the limiter never aborts; whenever no call is in progress the limiter reports exactly the memory in use, so it can be destroyed when all memory was returned. A request is refused only if it exceeds the limit together with memory in use and memory held by calls in progress; when no other call is in progress it is granted exactly if it fits. (false: a request of any size returns memory or a null pointer; from a limited heap arena a request of 2^64 - 32 bytes aborts, and larger ones are charged less than 32 bytes.)", "quantifier": "all interleavings of any number of threads, all sizes and all answers of the allocators below", "why_tests_cant": "Concurrency and failures of the allocators below in unboundedly many combinations; a leak of the count appears only in some.", "anchors": ["src/internal_modules/roc_core/limited_arena.cpp:19-34", "src/internal_modules/roc_core/limited_pool.cpp:31-45", "src/internal_modules/roc_core/memory_limiter.cpp:31-66"]}
{"id": "C133", "title": "Random numbers stay within their range, and generated UUIDs are well-formed", "statement": "Up to 2^32 results of fast_random in a row, while the state does not become zero, are all different. fast_random_range(from, to) returns a number between both bounds after one call of fast_random, and aborts exactly if from > to. (false: 'debiased'; the comparison is made with 64 bits and never rejects, so the result is the plain remainder, and for lengths which are not a power of two the first number is more frequent than the last one.) uuid_generare writes a text of 36 characters and its terminator into a buffer of at least 37 bytes and nothing behind it: dashes at 8, 13, 18, 23, lower-case hexadecimal digits elsewhere, version digit 4, variant digit 8, 9, a, or b; it aborts for a null pointer or a smaller buffer. Two texts are the same exactly if the random bytes are, apart from the six fixed bits. (false: 122 random bits, i.e. 5.3 * 10^36 UUIDs, as the comment says; the state of the generator has 32 bits, so there are at most 2^32 texts for given clock readings.)", "quantifier": "for all states of the generator, clock readings, bounds, buffers and sizes", "why_tests_cant": "The generator has 2^32 states, and ranges have 2^64 pairs of bounds; a bias of one in 2^32 and missing entropy are invisible in samples.", "anchors": ["src/internal_modules/roc_core/fast_random.cpp", "src/internal_modules/roc_core/uuid.cpp", "src/internal_modules/roc_rtp/identity.cpp"]}
{"id": "C134", "title": "A printer prints the text written to it, line by line, and the rest when it is destroyed", "statement": "After any calls of Printer::writef the lines given to the printing function, each followed by a line feed, and a rest without line feed together are the text written: nothing is lost, reordered, printed twice, or held back once its line is complete. A write succeeds exactly if it fits into 1024 characters together with the rest, and aborts otherwise. The destructor prints the rest as last line if the last text written has no line feed or ends with one. (false: in general; characters of the printed line stay in the buffer behind the rest, and strchr goes on to them. Whenever one text has a complete line and then a shorter beginning of a line, e.g. \"abc\\nd\", the destructor prints characters of the old line, and then passes a size below zero to the printing function and to memmove.)", "quantifier": "for all sequences of texts without null bytes", "why_tests_cant": "Whether the search runs into stale characters depends on the lengths of the line printed before and of the rest; tests print texts which end with a line feed.", "anchors": ["src/internal_modules/roc_core/printer.cpp", "src/internal_modules/roc_core/printer.h"]}
{"id": "C135", "title": "A string buffer always holds a terminated string", "statement": "The constructor of StringBuffer needs no memory of the arena. After any calls of clear, assign, extend, and grow, whatever the arena answers, the buffer holds a string and its terminating zero, and no call aborts: the text of the last successful assign with the characters added by extend, or the empty string after clear and after a failure of assign or extend. len() is its length. Calls fail only if the arena does, and not at all as long as 32 characters are enough. (false: for sizes near SIZE_MAX; extend(SIZE_MAX) wraps around, reports success, and removes the terminating zero.)", "quantifier": "for all sequences of calls, texts, and answers of the arena", "why_tests_cant": "Failures of the arena can come at any call, and contents after a failure depend on what was stored before; tests use an arena that does not fail.", "anchors": ["src/internal_modules/roc_core/string_buffer.cpp", "src/internal_modules/roc_core/string_buffer.h", "src/internal_modules/roc_core/array.h"]}
