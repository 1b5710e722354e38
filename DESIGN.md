# Formal model of roc-toolkit: design

The properties are listed in `properties.jsonl`; `MANIFEST.json` maps each of them to the
theorems that settle it. The model and the proofs are Lean 4 (`lean/`, build with
`lake build`).

## Layout

Every component has a directory `lean/Verif/<Component>/`:

* `Model.lean` - the model, one Lean definition per C++ function. Every definition has a
  comment with the file and lines of `/repo` it models, and any simplification made.
* `Spec.lean` - (where useful) the independent specification: plain lists, sets, natural
  numbers; it does not mention the model.
* `Lemmas.lean` - helper lemmas and invariants.
* `Props.lean` - the property theorems only, each with a comment naming the property
  (`C01` ...), and an `example` showing that its hypotheses are met by a concrete
  non-trivial case.

Naming: `Cnn_...` are the property theorems. The suffix `_partial` marks a theorem that
proves less than the property says; its comment says what is missing. `Cnn_..._fails` are
proofs that the full statement is *false of the code*, by a concrete witness; these come
with a `_partial` theorem that proves the largest part that is true.

## Trusted base

* Lean's kernel, version 4.33.0. The only axioms used are `propext`,
  `Classical.choice`, `Quot.sound`. No `sorry`, `native_decide`, `bv_decide`, no added axioms.
* The faithfulness of the hand translation from C++ to Lean (the comments give the lines).
* The C++ abstract machine being run on the usual targets: two's complement, `size_t` of
  64 bits, arithmetic conversions as in GCC/Clang.

## What is modelled, and what is not

* Integers: values of fixed-width types are `BitVec`/`UIntN` or `Nat`/`Int` with explicit
  reduction modulo 2^n where the code relies on wrap-around or where overflow matters.
  Where a counter is `size_t` and cannot overflow in practice (`Nat`), the comment says so.
* `roc_panic` (abort), undefined behaviour and out-of-bounds accesses are explicit outcomes
  of the model (`none`, `Except.error` or a `panicked` state), so "does not abort" is a theorem.
* Memory: allocation failure is modelled where the code has a branch for it and the property
  mentions it; otherwise allocation succeeds (stated in the comment). Reference counting
  is not modelled except in its own component.
* Floating point is not modelled. Code whose result depends on float rounding is modelled
  with an abstract conversion function or over the integers/rationals; the comment says so.
* Concurrency: models are transition systems whose steps are the atomic operations of the
  code, interleaved arbitrarily (sequentially consistent memory). Weak memory effects are
  not modelled.
* Logging, statistics, and tracing dumps are not modelled.

## Disagreements between code and property

Where the code does not satisfy the property, the theorem `..._fails` exhibits a witness.
They are listed in the section "Findings" at the end.

## Per-property plan

| id | modelled code | proof method |
|----|---------------|--------------|
| C01 | `units.h` diff/lt/le on `BitVec` | arithmetic: wrapped difference equals true difference inside half range |
| C02 | `ntp.cpp` on `Int`/`Nat` with explicit 2^32, 2^64 reduction | arithmetic, division bounds |
| C03 | `sorted_queue.cpp` on lists | invariant (sortedness) by induction over the history; refinement to a sorted set |
| C04, C05 | `interleaver.cpp` as state machine with a permutation per block | invariant: output ++ held is a permutation of input |
| C06, C07 | RTP header codec on byte lists; parser with explicit bounds checks | round trip law; case analysis over every branch |
| C08 | `filter.cpp` state machine | invariant over history; witness for the half-range corner |
| C09 | `sequencer.cpp` | induction over the stream |
| C10 | `link_meter.cpp` sequence number tracking | simulation with unbounded numbers; witness for the second wrap |
| C11 | `packet_counter.cpp` | simulation with unbounded numbers; witness |
| C12 | `ring_queue.h` index arithmetic over an array | refinement to a list; witness at capacity |
| C13 | `mov_stats.h` | wedge invariant; refinement to window statistics; witness |
| C14 | `spsc_byte_buffer.cpp` as a two-thread transition system | inductive invariant over all interleavings |
| C15 | `hashmap_impl.cpp` with bucket lists, current/previous table, rehash position | refinement to a finite map; witness for the abort |
| C16 | `memory_limiter.cpp` compare-and-swap loop, any number of threads | inductive invariant; witness with overflow |
| C17 | `slab_pool_impl.cpp` slots as (slab, index) | invariant: free list and allocated set partition the slots |
| C18 | `mpsc_queue_impl.cpp` at atomic-step granularity | inductive invariant (linked structure) over all interleavings |
| C19 | `seqlock_impl.cpp` at word-step granularity | inductive invariant over all interleavings |
| C20 | `pct.cpp` | round trip by induction on the string |
| C21 | port action of `endpoint_uri_parse.rl`, `EndpointUri::set_port` | arithmetic; witness for truncation |
| C22 | media-line grammar and actions of `parser.rl` | parser model; witness |
| C23 | `roc_rtcp/ntp.cpp` on `BitVec 64`/`Nat` | arithmetic; witness for the overflow corner |
| C24 | bit field helpers and report block accessors of `roc_rtcp/headers.h` | bit-vector/arith lemmas |
| C25 | RTCP traversers on byte lists with explicit bounds | well-founded recursion, bounds invariants; witness for padding |
| C26 | builder state machine producing bytes, traverser | round trip by induction over builder calls |
| C27 | `rtt_estimator.cpp` over `Int` | linear arithmetic, invariant over reports |
| C28 | communicator generation loop | variant function; witnesses of divergence |
| C29 | deadline arithmetic of `communicator.cpp` | invariant (grid) by induction over call times |
| C30 | collision handling of reporter/communicator | state machine; witness |
| C31 | `fec/writer.cpp` | invariant/refinement to block stream |
| C32, C33 | `fec/reader.cpp` with an abstract decoder | invariants; witness |
| C34 | FEC payload id headers | round trip |
| C35, C36, C37 | `depacketizer.cpp` over abstract samples, 32-bit timestamps | refinement to "sample at stream position"; witnesses |
| C38 | `packetizer.cpp` | conservation invariant |
| C39 | `watchdog.cpp` | refinement to unbounded positions; witness at wrap |
| C40 | `mixer.cpp` over integer samples | induction over chunks/inputs; witnesses |
| C41 | `channel_mapper.cpp` | pointwise characterisation by induction |
| C42 | `channel_set.cpp` bit words | refinement to sets of naturals; witness |
| C43 | `router.cpp` | invariant over history |
| C44 | `delayed_reader.cpp` | invariant; witness for zero delay |
| C45 | `pipeline_loop.cpp` at atomic-step granularity | inductive invariant; witness of a lost task |
| C46 | `receiver_session_router.cpp` maps | invariant; witness if any |
| C47 | `latency_tuner.cpp` position loop on 32-bit counters | variant; witness at wrap |
| C48 | `fast_random.cpp` range, shuffle | arithmetic; permutation lemma |
| C49 | `string_list.cpp` packed byte layout | refinement; witness for prefix match |
| C50 | `string_builder.cpp` | invariant |
| C51 | timestamp injector/extractor | arithmetic with abstract sample-to-time conversion |
| C52 | `rate_limiter.cpp` | invariant over call times |
| C53 | `list_impl.cpp` pointer graph | refinement of a heap of nodes to a list |
| C54 | `timer.cpp` as transition system | inductive invariant over interleavings |
| C55 | `string_builder.cpp`, numbers | round trip of decimal and hexadecimal numbers |
| C56, C57 | `channel_mapper_matrix.cpp` with all its tables | state machine with fuel; finite tables by kernel evaluation; witnesses of divergence |
| C58 | `slab_pool_impl.cpp` size limits | invariant; witnesses |
| C59 | `endpoint_uri_parse.rl`, `endpoint_uri_format.cpp` | parser as recursive descent over bytes; round trip; witnesses |
| C60 | `parser.rl` of SDP | parser model; witness |
| C61, C62, C70 | `reporter.cpp` streams, addresses, index | invariants over histories of packets and generations; witnesses |
| C63 | `packetizer.cpp` sizes and padding | invariant; witness |
| C64 | `mixer.cpp` capture timestamps | arithmetic; witnesses |
| C65 | `receiver_session_group.cpp` with the router | invariant; witnesses |
| C66 | `latency_tuner.cpp` bounds and scaling | decision logic |
| C67 | packetizer, sequencer and depacketizer composed | composition of C38, C09, C35 |
| C68, C69 | `control_task_queue.cpp` as a transition system | inductive invariant over histories; witnesses |
| C71, C72 | `fec/reader.cpp` | step lemma for a waiting packet; invariant of a reader that never starts |
| C73, C74 | `audio/pcm_format.cpp` (template `pcm_format_gen.py`), `audio/pcm_mapper.cpp` | one definition per template, parameters of the code as arguments; loop invariant over buffers; arithmetic modulo powers of two |
| C75 | `audio/pcm_format.cpp` (bit-packed codes) | bits of a buffer; witnesses |
| C76 | `audio/pcm_format.cpp` (floating point) | rounding on rationals: exact on short integers, commutes with powers of two |
| C77 | `audio/pcm_format.cpp` (names, traits) | full enumeration of formats, induction over the tree of comparisons for strings |
| C78 | `audio/sample_spec.cpp` | relative error of each rounding, monotone rounding |
| C79, C80 | `audio/pcm_encoder.cpp`, `audio/pcm_decoder.cpp` | induction over calls, on top of the mapping loop of C73 and the rounding of C76 |
| C81, C82 | `audio/channel_mapper_reader.cpp`, `audio/channel_mapper_writer.cpp`, `audio/pcm_mapper_reader.cpp`, `audio/pcm_mapper_writer.cpp` | induction over batches; refinement to one mapping of the whole block; witnesses for buffers that are too small |
| C83, C84 | `audio/builtin_resampler.cpp`, `audio/resampler_reader.cpp` | fixed-point and floating-point arithmetic; loop invariants; refinement of histories to exact positions; witnesses |
| C85, C86 | `audio/resampler_writer.cpp`, `audio/resampler_reader.cpp` (timestamps) | induction over histories of calls with an invariant on three buffers; error of each rounding; witnesses |
| C87 | `pipeline/state_tracker.cpp`, `pipeline/receiver_endpoint.cpp`, `pipeline/sender_endpoint.cpp` (counting) | transition system, invariant over all interleavings; leaks as invariants of all later states |
| C88 | `sndio/pump.cpp` | refinement of the loop to a choice made per iteration; witnesses |
| C89 | `audio/freq_estimator.cpp`, `audio/freq_estimator_decim.cpp` | circular buffers refined to lists; bounds by the norm of the filter; rational arithmetic |
| C90, C91 | `node/receiver.cpp`, `node/sender.cpp` (slots, ports, order of clean-up) | world computed from the requests alone; per-slot invariant with frame rule over all histories; witnesses |
| C92 | `audio/decimation_resampler.cpp` | edit relation and drift invariant over all histories; single precision as rounding of rationals; witness |
| C93, C94 | `audio/sample_spec_parse.rl`, `rtp/encoding.cpp`, `audio/channel_tables.cpp`, `audio/channel_set_format.cpp` | forward and backward simulation of the automaton by a declarative grammar; round trip through bytes and digits; witnesses |
| C95 | `sndio/wav_header.cpp`, `sndio/wav_sink.cpp` | file after any writes computed by induction, read back by an independent reader; witnesses |
| C96 | `core/parse_units.cpp`, `strtod` after the C standard | grammar of numbers related to the scanner in both directions; error analysis of rounding; witnesses |
| C97 | `audio/feedback_monitor.cpp` | histories of calls; the state is a function of the history (invariant), the tuner is simulated by a history of its own calls |
| C98 | `core/hashsum.cpp` | every step is inverted; injectivity of xor-shift by descent; witnesses by computation |
| C99 | `address/socket_addr.cpp`, `address/parse_socket_addr.cpp` | union modelled by byte positions; case analysis over all previous contents |
| C100 | `netio/tcp_connection_port.cpp` | transition system of the event loop and the user thread at the granularity of atomic accesses; one invariant for quiet runs, a weaker one for all runs; witnesses by computation |
| C101, C102 | `public_api/adapters.cpp`, `context.cpp`, `rtp/encoding_map.cpp`, `pipeline/config.cpp` | documented tables of values as specification; case analysis over arbitrary integers; induction on registrations |
| C103 | `audio/latency_tuner.cpp`, `watchdog.cpp`, `resampler_config.cpp`, `pipeline/config.cpp` | case analysis; bounds on logarithms by powers of two for any accurate library; composition with the constructors of C47 and the watchdog |
| C104 | `public_api/sender_encoder.cpp`, `receiver_decoder.cpp`, `node/sender_encoder.cpp`, `receiver_decoder.cpp`, `pipeline/sender_slot.cpp`, `receiver_slot.cpp`, `endpoint_helpers.cpp` | transition system of calls and pipeline events; invariant linking slot, queues and the visible history; refinement of queues to histories |
| C105 | `audio/latency_monitor.cpp` | composition with the tuner of C47 and C66 by simulation; positions on an endless stream; induction on histories |
| C106 | `roc_netio/target_libuv/roc_netio/udp_port.cpp`, `roc_netio/target_posix/roc_netio/socket_ops.cpp` (`socket_try_send_to`) | transition system with any number of writers; invariants on packet counts, places and order; decreasing measure for progress |
| C107 | `core/array.h` | refinement to a list with an explicit memory of constructed objects; potential argument for growth |
| C108 | `core/slice.h`, `shared_ptr.h`, `ref_counted.h` | transition system of buffers and slices; invariant "counter = number of slices"; views as lists |
| C109 | roc_netio/target_libuv/roc_netio/network_loop.cpp, network_task.h, basic_port.h | Interleaving model of threads, loop and libuv; inductive invariant over tasks and ports; ranking function for completion; witnesses for broken rules |
| C110 | `roc_netio/target_libuv/roc_netio/tcp_server_port.cpp`, `tcp_server_port.h`, `iconn_acceptor.h`, `iconn_handler.h` (with the phases of `tcp_connection_port.cpp`) | inductive invariant on the lists, the reference counters and the log of acceptor calls; decreasing measure and progress for the completion of the close; unbounded counterexample run for the delay |
| C111 | `roc_sndio/wav_source.cpp`, `target_sox/roc_sndio/sox_source.cpp`, `target_sndfile/roc_sndio/sndfile_source.cpp` | simulation of a reference source (a list and a cursor) for all call sequences and library outcomes; strong induction on the read loops; witnesses for the failing parts |
| C112 | `roc_address/io_uri.cpp`, `io_uri_parse.rl`, `io_uri_format.cpp` | declarative grammar, parser proved sound and complete for it; round trip by the percent-encoding theorems (C20) |
| C113 | `roc_sndio/backend_dispatcher.cpp`, `backend_map.cpp`, `wav_backend.cpp`, `target_sndfile/roc_sndio/sndfile_backend.cpp`, `sndfile_sink.cpp` (`map_to_sndfile`), `target_sox/roc_sndio/sox_backend.cpp` | first success over lists of drivers; refinement of the byte-level string list (C49); decision logic for names and extensions |
| C114 | `roc_audio/profiler.cpp`, `profiler.h` | invariant of the ring of chunks in terms of prefix sums of the history, for any sequence of frames; exact rational arithmetic |
| C115 | `roc_core/csv_dumper.cpp`, `csv_dumper.h` (with `rate_limiter.cpp`, `spsc_ring_buffer.h`) | transition system over any number of threads, inductive invariants, decreasing rank for termination; byte-level model of `snprintf` into the line array, exact outcome by induction over the fields |
| C116 | `roc_core/heap_arena.cpp`, `heap_arena.h`, `memory_ops.cpp` | invariant over a byte memory and the blocks of `malloc` (disjointness, counters), frame conditions; second, stronger invariant for correct programs |
| C117 | `roc_pipeline/receiver_source.cpp`, `receiver_slot.cpp`, `receiver_session_group.cpp`, `receiver_session.cpp` (reports), `roc_rtp/link_meter.cpp` (write), `roc_packet/router.cpp`, `roc_rtcp/reporter.cpp` (query), `roc_node/receiver.cpp` (metrics), `public_api/src/receiver.cpp` (query) | inductive invariant over all histories of a receiver with any number of slots and sessions; the buffer algorithm of the reports shown equal to a flat map |
| C118 | `roc_pipeline/sender_sink.cpp`, `sender_slot.cpp`, `sender_session.cpp` (pipelines, refresh, metrics, feedback monitor), `roc_audio/fanout.cpp` | inductive invariant that ties every slot to the log of returned endpoints; frames shown equal to a specification over the log; dead slots by an invariant that is kept by all calls |
| C119 | `public_api/src/endpoint.cpp`, `endpoint_uri.cpp`, `endpoint_uri_parse.rl`, `endpoint_uri_format.cpp` | simulation of the API against a documented record of fields; frame lemmas on the parser automaton; C50 for buffers |
| C120 | `public_api/src/sender.cpp`, `receiver.cpp` (write, read), `roc_pipeline/sender_loop.cpp`, `receiver_loop.cpp`, `pipeline_loop.cpp` (sub-frames), `roc_audio/frame.cpp` | induction over the sub-frame loop with a closed form of the division; refinement of reads to a stream |
| C121 pipeline wiring | sender_sink.cpp, sender_session.cpp, receiver_source.cpp, receiver_session.cpp, transcoder_sink.cpp, transcoder_source.cpp, resampler_map.cpp, constructors of stages | outcome logic (abort / invalid / ok) over arbitrary failures; flow relation over lists of stages |
| C122 | roc_sndio/target_pulseaudio/roc_sndio/pulseaudio_device.cpp | state machine over answers of libpulse; invariant “recorded = given ++ pending”, induction over rounds |
| C123 | roc_fec/reader.cpp | invariants of the reader plus “no attempt in vain” (repair is possible again whenever something new arrived), induction over calls; blocks complete by counting positions |
| C124 | `roc_fec/writer.cpp`, `roc_fec/reader.cpp`, `roc_packet/sorted_queue.cpp` composed over a lossy network | simulation: the reader is kept within reach of the block that is due; ghost block numbers are recentred at each call so that wraps of the 16-bit number do not limit the length of the stream |
| C125 | `roc_sndio/target_sox/roc_sndio/sox_sink.cpp`, `target_sndfile/roc_sndio/sndfile_sink.cpp` | closed form of the copy loop by induction over rounds; decision logic of opening over arbitrary answers of the libraries |
| C126 | `packetizer.cpp`, `roc_fec/writer.cpp`, `roc_fec/reader.cpp`, `depacketizer.cpp` composed over a lossy network | C124 gives the packets in order; a chain of timestamps is preserved by each read of the depacketizer; induction over frames read | decoder is a function with hypothesis that it is right |
| C127 | `tools/roc_send/main.cpp`, `tools/roc_recv/main.cpp` (buffer sizes), `packet.cpp` (`approx_size`), `composer.h`, `writer.cpp` (`make_repair_packet_`), `pump.cpp` (constructor) | exact outcome of byte-level composers; monotonicity and relative error of float conversions | pools give buffers of the configured size; allocation succeeds |
| C128 | `tools/roc_send/main.cpp` (endpoints), `roc_node/sender.cpp` (`configure`, `connect`, `has_incomplete`), with `SenderSlots` | exact state after every pass of the three loops, induction over the lists of URIs | other options valid; ports given by the environment |
| C129 | `roc_rtcp/loss_estimator.cpp`, reception block losses in `reporter.cpp`, counters of `roc_rtp/link_meter.cpp`, with `RtcpFields` | monotone rounding against steps of 1/256; induction over histories for the failure | float as rationals of 24 bits; counters far from 2^63 |
| C130 | `roc_packet/concurrent_queue.cpp` | transition system over any number of threads; invariant which counts packets, posts and readers past the semaphore | queue inside is atomic (C18); packets are not written twice |
| C131 | roc_core/shared_ptr.h, ref_counted.h, ref_counted_impl.cpp | invariant over histories, induction on chains of releases | one thread; null pointers and absent pointers are the same |
| C132 | `roc_core/limited_arena.cpp`, `limited_pool.cpp`, with `memory_limiter.cpp` and sizes of `heap_arena.cpp` | transition system over any number of threads, on top of the model of C16; invariant which counts bytes | allocators below are thread-safe and taken as one step; requests do not overflow |
| C133 | roc_core/fast_random.cpp, roc_core/uuid.cpp | inverse of the mixing by bit extensionality and odd factors, counting of residues, evaluation of the text loop for symbolic bytes | one thread; clock readings are a list; memory is a function of offsets |
| C134 | roc_core/printer.cpp | induction on the loop of `flush_` and on writes; specification by concatenation of the lines | formatted texts without null bytes; errors of vsnprintf left out |
| C135 | roc_core/string_buffer.cpp | invariant over histories of calls with any answers of the arena | array as a list with capacity (C107); texts lie outside of the buffer |

<!-- generated below: tools rewrite everything after this line -->

## Findings

Every theorem `..._fails` is a proof that the code, as modelled, does not do what the property says.
The texts are those of the theorems; the lines of the code are in the comments of the model and in the `anchors` of the property.

| theorem | component | what happens |
|---|---|---|
| `C06_payload_type_fails` | RtpCodec | **C06 (payload types outside of the 7-bit range).** Payload types 128..255 abort; but the field is a 32-bit number, and the range check is done after it has been truncated to 8 bits: a packet with payload type 266 is silently sent with payload type 10. |
| `C08_half_range_undefined_fails` | Filter | **C08 fails** in one corner: a packet whose timestamp is exactly half of the range away from the newest one makes the filter negate `INT32_MIN` (undefined behaviour). |
| `C100_last_callback_fails` | TcpConn | **C100** fails for a termination at any time, even if all is done on the thread of the event loop: the user terminates the connection in the callback that tells that it is writable, and then the loop makes the callback that tells that it is readable. |
| `C100_no_abort_fails` | TcpConn | **C100** fails for a termination at any time: a run in which the user respects all rules, and the process aborts. The event loop has seen an error of the established connection, the user calls `async_terminate` from another thread, then the loop replaces the state `Terminating` by `Broken`, and the callback that starts the termination panics. |
| `C101_auto_fails` | ApiConfig | **C101** (negation). Automatic selection never works: whatever is registered, a sender whose `packet_encoding` is zero is rejected. All encodings of a context are 16-bit integers, the format of frames is 32-bit floats, and the comparison of specs includes the format. With stereo frames at 44100 Hz the config differs in nothing but that zero from one that is accepted and means a built-in encoding with the same rate and channels. |
| `C101_format_fails` | ApiConfig | **C101** (negation). An encoding registered with `ROC_FORMAT_PCM_FLOAT32`, the only format there is, is not an encoding with 32-bit floats: packets carry 16-bit integers. |
| `C102_duration_fails` | ApiConfig | **C102** (negation). Durations of 2^63 ns and more, which the type of the fields allows, are accepted and become negative. |
| `C102_fec_fails` | ApiConfig | **C102** (negation). Zero in one of the two fields that give the size of FEC blocks does not mean the default: if the other one is set, the block gets zero packets of that kind. |
| `C103_intact_fails` | Defaults | **C103** (negation). A zero target on a receiver without latency tuning is not replaced by a default: every session is rejected. |
| `C103_overflow_fails` | Defaults | **C103** (negation). Targets from 2^61 ns, which the type of the field allows, overflow signed arithmetic when the receiver is opened with default timeouts. |
| `C103_tolerance_fails` | Defaults | **C103** (negation). The tolerances in the comment of the formula are not what it gives: for targets of 1 ms, 10 ms and 2 s the comment says 8 ms, 20 ms and 1444 ms. For 200 ms it is right. |
| `C104_monitor_fails` | EncoderApi | **C104 fails** for an encoder whose latency configuration does not make a valid feedback monitor (for example a latency tuner profile without target latency, see `Defaults.C103_sender_partial`): the call that completes the source and repair interfaces returns an error, and after it the activation of the control interface aborts the process. |
| `C104_retry_fails` | EncoderApi | **C104 fails** for a second attempt: after a call of `activate` that failed in the pipeline (wrong protocol for the interface, wrong FEC scheme, or no memory), every further call for this interface, with any protocol, aborts the process. Nothing else aborts, if the latency configuration is usable. |
| `C104_small_buffer_fails` | EncoderApi | **C104 fails** for a buffer that is too small: the call returns an error, but the packet is gone: the next call, with a buffer of any size, returns the packet after it. |
| `C105_e2e_fails` | LatencyMonitor | **C105 fails** (end-to-end latency of the last frame): when the capture time is not known any more, the latency of the last frame for which it was known is reported for ever, whatever playback times are reported. |
| `C105_stalling_fails` | LatencyMonitor | **C105 fails** (delay since the last packet): if the last packet was received at or after the time the clock shows (a clock that was set back), or its time is not known, the old value stays. |
| `C106_close_fails` | UdpPort | **C106** (false): closing does not always come to an end. After `uv_udp_send` returned an error once, the counter of pending packets never becomes zero: `async_close` starts, but the handler is never called, and the destructor would abort. |
| `C106_empty_fails` | UdpPort | **C106** (false, outside of the rules): a packet with an empty buffer is sent twice, as zero bytes sent are taken for a failure of the non-blocking write. |
| `C106_fallback_fails` | UdpPort | **C106** (false): "if a non-blocking write can't be performed, the port falls back to a regular asynchronous write" (`udp_port.h:50-53`). When the kernel would block, `write` returns `StatusOK` and the packet is never sent: `try_nonblocking_write_` takes the negative error code for success. |
| `C106_no_buffer_fails` | UdpPort | **C106** (false): without memory for a buffer a received datagram is not just dropped: the callback computes a buffer from a null pointer and uses it. |
| `C106_race_fails` | UdpPort | **C106** (false, outside of the rules): if `async_close` is called while a `write` is in progress that then sends without blocking, nobody starts closing: nothing goes on, and the handler was not called. |
| `C107_alias_fails` | DynArray | **C107 is false** for a reference to an element: `a.push_back(a[0])` reads a destroyed object when the array grows. |
| `C107_hang_fails` | DynArray | **C107 is false** for huge sizes: `grow_exp` of an empty array never returns if more than `2^63` elements are requested, instead of reporting that there is no memory. |
| `C107_overflow_fails` | DynArray | **C107 is false** for sizes that do not fit `size_t`: `grow` succeeds with a block that is too small, and `push_back` writes outside of it. |
| `C108_extend_fails` | Slice | **C108 is false** for a number that overflows `size_t`: `extend` by `2^64 - 1` does not panic, it makes the slice shorter. |
| `C108_index_fails` | Slice | **C108 is false** for an index that is equal to the size: it is not detected; an element that is not in the slice is returned and can be changed, and if the slice ends with the buffer, the access is outside of the buffer. |
| `C109_destroy_add_fails` | NetLoop | **C109** is false for a loop that is destroyed while a task is waiting, although the destructor does not forbid it: the port is opened after all ports were closed. The semaphores are closed, nothing closes the port, and the destructor waits forever: no event of the loop is possible any more. |
| `C109_rules_fails` | NetLoop | **C109** is false for the other rules too. The process is aborted if removal of a port is waiting while the loop is destroyed; if a port is removed twice; if a server accepts a connection after its removal was requested; if a client is removed, or the loop is destroyed, while its connection is open; if a task is scheduled again; if a task is destroyed before it is finished. A port that is started after its removal is undefined behaviour. |
| `C10_first_after_last_fails` | LinkMeter | **C10 fails** for the first number as well: after packet 5, the reordered packet that is really 8 positions earlier (number -3, on the wire 65533) makes the reported first number larger than the reported last number. |
| `C10_wrap_fails` | LinkMeter | **C10 fails**: packets 65535 and 65536 in order, one wrap; the reported number is 65535 although the newest packet is 65536. |
| `C110_delay_fails` | TcpServer | **C110 (close never completes, fails)**: a server that is being closed goes on to accept connections. If clients go on to connect, the close is never completed, though the acceptor takes no connection and every refused one is closed: for any `n` there is a run with `n` further connections after which the owner is not notified. |
| `C110_null_fails` | TcpServer | **C110 (null, fails)**: an acceptor that terminates the connection it was given and returns null makes the server abort. |
| `C110_race_fails` | TcpServer | **C110 (close and accept, fails)**: `async_close` runs later than the user asks for it; a connection that the acceptor takes in between makes it abort, whatever the server did before. |
| `C111_sndfile_odd_frame_fails` | FileSource | C111 fails: with the sndfile source such a frame aborts the process. |
| `C111_sox_query_fails` | FileSource | C111 fails: asking a paused device for its parameters aborts the process. |
| `C111_sox_restart_fails` | FileSource | C111 fails: after a restart of a device that fails, the next read aborts the process; after a restart of a file that fails, the next pause does. |
| `C111_sox_resume_eof_fails` | FileSource | C111 fails: a device whose recording has ended stays ended after a pause and a successful resume, though the device was opened again and has samples: the flag of the end is reset by `restart()` only. |
| `C111_sox_resume_rate_fails` | FileSource | C111 fails: when a paused device can be opened again only with another sample rate, `resume()` fails, but the next `resume()` succeeds, and samples of the wrong rate are delivered: the source was asked for 44100, the samples are those of an input of rate 48000. |
| `C111_wav_odd_frame_fails` | FileSource | C111 fails: a frame that is not a whole number of PCM frames makes the WAV source stop in the middle of the file. A stereo file of eight samples read in frames of five: the first frame ends with a zero that is not in the file, then the stream is reported as ended. |
| `C112_plain_fails` | IoUri | C112 fails for a relative path: `file:?a` and `file:#a` are accepted. |
| `C112_roundtrip_fails` | IoUri | C112 fails for the other paths: the URI of the file system root, and of a path with two leading slashes, are accepted and formatted, but the text is rejected. |
| `C113_default_fails` | Backends | **C113 fails** (default device): a driver that is not a default one is opened although a default one is there and works; and a default driver that supports sources only is asked for a sink. |
| `C113_formats_fails` | Backends | **C113 fails** (formats): the names registered by sox for AIFF files are "aifc", "aiffc", "aiff", "aif"; the list has no "aiff", because the search for it stops at "aiffc". |
| `C113_sndfile_name_fails` | Backends | **C113 fails** (sndfile, by name): FLAC asked by name is refused for the path "/tmp/out", and accepted for "/tmp.d/out". |
| `C113_sox_once_fails` | Backends | **C113 fails** (sox, registered once): a default driver that is renamed is registered a second time, as one that is not default. |
| `C114_empty_fails` | Profiler | **C114 fails** (no frames): before the first sample the average is not a number. |
| `C114_one_chunk_fails` | Profiler | **C114 fails** (one chunk): a profiler whose interval is shorter than a chunk is valid, but as soon as the chunk is complete the average is not a number. |
| `C114_rate_fails` | Profiler | **C114 fails** (samples per second): the average of the speeds of samples is not the number of samples per second of work. Ten samples take one second and ten take three: twenty samples in four seconds are reported as 6.67 samples per second, not 5. |
| `C114_zero_chunk_fails` | Profiler | **C114 fails** (configuration): a chunk duration of zero is not reported as invalid but divides by zero before the check. |
| `C115_construct_fails` | CsvDumper | The constructor does not initialise `file_` before `open_` asks whether it is null, and does not ask whether the ring buffer has memory: it may end the program, or give an object that is valid and ends the program at the first write. |
| `C115_contention_fails` | CsvDumper | Two threads: an entry is dropped although neither the rate limit nor the limit of the buffer is exceeded, because the other thread holds the mutex. |
| `C115_cut_fails` | CsvDumper | An entry of ten points in time is cut: the last of them does not fit. |
| `C115_no_limit_fails` | CsvDumper | `csv_dumper.h:51` says that there is no limit when `max_interval` is zero; the first write of any type ends the program instead. |
| `C115_overflow_fails` | CsvDumper | An entry of two fields writes behind the array: a single field of the type `double` may take more than 255 characters. |
| `C115_would_write_fails` | CsvDumper | `would_write` says yes, the write that follows at once is dropped, because the buffer is full (`csv_dumper.cpp:46` asks the limiter only). |
| `C116_double_free_fails` | HeapArena | The header comment says that the link to the owner catches a double free. It is not cleared: as long as the arena has other memory in use, a second `deallocate` passes all checks and reaches `free`. |
| `C116_huge_fails` | HeapArena | A size close to the maximum wraps around: a small block is allocated, and filled beyond its end. |
| `C117_query_null_fails` | ReceiverRefresh | **C117 fails** (query without array). If `conn_metrics` is null and `conn_metrics_count` points to a number, that number is replaced by the number of sessions (at most its old value), although no elements were written. |
| `C117_repair_fails` | ReceiverRefresh | **C117 fails** (repair packets). There is never a report about the repair packets of a session: the source of the repair stream stays unknown, however many repair packets come, because they carry no RTP header. |
| `C118_monitor_fails` | SenderSlots | **C118 is false for a feedback monitor that is not valid**: if the pipeline of the slot could not be constructed because of its feedback monitor, adding a control endpoint (whose address is not a multicast address) aborts instead of returning an endpoint or NULL. |
| `C118_pipeline_fails` | SenderSlots | **C118 is false for a pipeline that cannot be constructed**: if adding the last endpoint the slot needs fails because its pipeline cannot be constructed, the endpoint is kept in the slot though NULL is returned: no later call can complete the slot, and it never gets a frame, even if memory is available again. |
| `C119_port_fails` | EndpointApi | **C119 is false for an invalid port**: the port is set to something invalid, which is refused; setting the protocol afterwards makes the endpoint valid again, with the standard port, though the documentation says that a field is invalid until it is successfully set. |
| `C119_resource_fails` | EndpointApi | **C119 is false for a resource that begins like a URI**: it is refused, but it changes the protocol of the endpoint; for every endpoint, every protocol, and whatever follows. |
| `C119_size_fails` | EndpointApi | **C119 is false for the size if there is nothing to get**: the documentation says that the size is updated no matter whether the function succeeds or fails; it is not if the URI, host or resource is not set. |
| `C11_wrap_fails` | PacketCounter | **C11 fails** at the first wrap: the range grows from 2^32-1..2^32-1 to 2^32-1..2^32, i.e. by one packet, but the count stays 0. |
| `C11_wrapped_begin_fails` | PacketCounter | **C11 fails** when the number wrapped before the first report: 15 packets, count 0. |
| `C120_huge_fails` | FramePath | **C120 is false for huge buffers**: the duration has 32 bits. A buffer of a multiple of 2^32 samples for each channel aborts the process; with precise scheduling, of any other buffer only the first samples are sent, up to the remainder, though zero is returned. |
| `C121_bits_fails` | Wiring | **C121 (sender, what fails).** A sender whose user asked for a format with a number of bits that is not a multiple of 8 (18-bit and 20-bit formats) aborts when created. |
| `C121_inner_fails` | Wiring | **C121 (decimation, what fails).** If the inner resampler of the decimating backend could not be allocated or is not valid, and rates differ, creation of a sender, receiver or transcoder aborts instead of failing: the outer resampler does not check the inner one. |
| `C121_receiver_fails` | Wiring | **C121 (receiver, what fails).** A receiver whose user asked for any format other than raw aborts when created, whatever the rest of the configuration: the mixer is given the format of the user instead of the raw format, so the PCM mapper is never created. |
| `C121_sink_spec_fails` | Wiring | **C121 (transcoder sink, what fails).** Whenever input and output differ in rate or channels, a transcoder sink reports a specification whose frames it cannot process: no frames of the specification that `sample_spec()` returns flow through it. |
| `C121_transcoder_fails` | Wiring | **C121 (transcoder, what fails).** A transcoder never converts formats: if input and output differ only in format it is a valid object which hands over samples unconverted. |
| `C122_closed_fails` | PulseDevice | **C122 (closed device, what fails).** After `pause`, the first write or read of a frame that is not empty returns with the lock of the main loop still held, and then `resume` never returns, whatever the server does, if it can connect. |
| `C122_leak_fails` | PulseDevice | **C122 (contexts, what fails).** Each attempt to open a device that cannot connect leaves its context behind: after `n + 1` attempts `n` contexts are lost, and closing the device releases not even the last one. |
| `C122_overfill_fails` | PulseDevice | **C122 (sink, sizes, what fails).** The size of writable space is in bytes, but is compared to a number of samples: for a long frame the sink writes four times as much as the server has space for (a sample has four bytes). |
| `C122_stale_fails` | PulseDevice | **C122 (source, what fails).** If a source is paused and resumed, or restarted, while a part of a fragment is not read yet, then the next read accesses memory of the old stream, which was released with it. |
| `C122_starve_fails` | PulseDevice | **C122 (source, what fails).** A source whose server stops sending never restarts the stream, unlike the sink: however many times the wait expires, the read does not return. |
| `C123_late_fails` | FecReader | C123 fails when the repair packet comes too late, even though the lost packet was not yet returned or skipped when the call was made before: with packet 1 of block 7 lost and packet 2 there, the call returns packet 2, and the repair packet that arrives in the next call restores nothing. |
| `C123_once_fails` | FecReader | C123 fails when the decoder does not restore the packet although `k` packets of the block arrived: nothing is returned, and the decoder is not asked again in later calls, until another packet of the block arrives. |
| `C124_gap_fails` | FecFlow | C124 needs the distance between blocks to be at most the limit: a longer gap in the delivery stops the receiver for ever, though later everything is delivered. |
| `C124_lost_fails` | FecFlow | C124 needs `k` packets of every block: with three packets of a block lost (of five), the next call skips them. |
| `C125_snd_fails` | FileSink | **C125 (libsndfile, what fails).** A sink can be created and opened although the user asked for a format other than raw, but then the first frame in that format aborts. A path without an extension can not be opened even if a driver is given that says all about the format. And if an attempt to open fails, bits of the formats that were tried stay: the next attempt with the same object starts from them instead of 32 bit. |
| `C125_sox_again_fails` | FileSink | **C125 (SoX, what fails).** A sink whose output was opened but not accepted can not be opened again, but aborts; and a sink that is not ready because its buffer is empty takes no frame: `write` never returns, however long it runs. |
| `C125_sox_short_fails` | FileSink | **C125 (SoX, what fails).** A sample that SoX does not take (a full disk) is lost without notice: `write` returns as usual, and the next frame follows directly after the part that was taken. |
| `C126_lost_fails` | LossyAudio | C126 needs `k` packets of every block: when the second packet and the repair packet of its block are lost, there is silence in its place. |
| `C127_frames_fails` | BufSizes | C127 fails for longer frames (`roc-send` does not compute the size of frame buffers from the length of frames, as `roc-recv` does): with `--frame-len` of 12 ms or more `roc-send` does not start for stereo input of at least 44100 Hz. With the default length it does not start from 52000 Hz on. |
| `C127_recv_fails` | BufSizes | C127 fails between `roc-send` and `roc-recv` for packets from 12 ms to 65 ms: with the defaults for everything else the sender creates all packets and the receiver drops each of them. |
| `C127_repair_fails` | BufSizes | C127 fails for sizes of the buffer between those of source and repair packets: for each size of the payload there are sizes of the buffer for which source packets are created and the first repair packet aborts the process. |
| `C127_send_fails` | BufSizes | C127 fails for packets longer than frames (the size of packet buffers is computed from the length of frames, `roc_send/main.cpp:250-251`): with the default length of frames and `--packet-len` of 66 ms or more no packet can be created, and `roc-send` sends nothing, whatever it reads, although it reports no error when it starts. |
| `C129_reported_fails` | LossEstimator | **C129 fails** for the receiver itself: whichever packets came and whichever are missing, every block it sends tells of no loss at all. |
| `C12_capacity_fails` | RingQueue | **C12 fails**: pushing `N` elements into a queue of capacity `N` succeeds and leaves an empty queue; all elements are lost. Shown for every capacity. |
| `C12_never_full_fails` | RingQueue | **C12 fails**: the queue never reports that it is full, whatever its state. |
| `C12_pop_back_lifetime_fails` | RingQueue | **C12 fails** for elements with a destructor: `pop_back` after one `push_back` destroys a slot that holds no object (and leaks the element), for every capacity above one. |
| `C131_assign_fails` | SharedPtr | **C131 fails** for an assignment from a member of the object which is released, like `p = p->next`: `reset` (shared_ptr.h:84-90) releases the old object first. Whenever the variable `c` is the only pointer to an object and a member `d` of it is the only pointer to another one, both are destroyed, and then the destroyed object is accessed. |
| `C132_huge_fails` | LimitedAlloc | **C132 fails** for sizes close to the maximum of `size_t`. A request of 2^64 - 32 bytes from a limited heap arena aborts the program ("tried to acquire zero bytes"), instead of returning a null pointer; for larger requests less than 32 bytes are charged. |
| `C133_debias_fails` | Uuid | **C133 fails** for the uniform distribution which the comment claims ("debiased"): the comparison is made with 64 bits and never rejects, so the result is the plain remainder. Of all 2^32 results of `fast_random`, more give the first number of the range than the last one, for every length of the range that is not a power of two. |
| `C133_entropy_fails` | Uuid | **C133 fails** for the number of UUIDs which the comment gives (5.3 * 10^36, 122 random bits): the generator has a state of 32 bits, so for given readings of the clock (which matter only when the state is zero) there are at most 2^32 different texts. |
| `C134_close_fails` | Printer | **C134 fails** for the destructor: characters of the line printed before stay in the buffer behind the rest, and the search for a line feed goes on to them. Whenever one text has a complete line and then a shorter beginning of a line, and the printer is destroyed after it, the destructor prints characters of the old line and then computes a negative size, for `println_` and `memmove`. |
| `C135_extend_fails` | StringBuffer | **C135 fails** for the guarantee that the string is always terminated: the size in `extend` wraps around. After `assign` of a text which is not empty, `extend(SIZE_MAX)` reports success, although it removed the terminating zero from the array; `len` is one less than before. |
| `C13_extend_window_fails` | MovStats | **C13 fails** for the window extension: after extending a window of 2 to 4 and adding three samples, the statistics cover two samples (wrapping at the old length), not three. |
| `C13_max_fails` | MovStats | **C13 fails**: with window 3, after the samples 0 and -1 the reported maximum is -1 (the value 0, still in the window, is taken for the zero that fills the empty buffer). |
| `C14_wrap_fails` | Spsc | With two chunks (three cells) the FIFO breaks when the 32-bit positions wrap: after 2^32 - 2 chunks were written and read, writing 5 and 6 and then reading gives 6. Any chunk count that does not divide 2^32 is affected. |
| `C15_abort_fails` | Hashmap | The property is false for the code: there is a history of valid calls after which the next insertion aborts (and so does every call that has to grow the table, for good). |
| `C16_overflow_fails` | MemoryLimiter | **C16 fails**: with a limit of 100 and 1 byte in use, a request of 2^64 - 1 bytes passes the check because the sum wraps to zero, and is granted. |
| `C19_wrap_fails` | Seqlock | **C19 fails without the bound.** A load of a two-word value that is preempted between the two words while exactly 2^31 stores complete succeeds and returns the first word of one value and the second word of another: no store (and not the initial value) ever was [0, 1]. |
| `C21_port_fails` | EndpointUri | **C21** fails: a number that does not fit into `int` is cut down. One URI gets port 5, another one is accepted as a URI without a port. |
| `C22_nb_ports_fails` | Sdp | **C22** fails for every accepted media field with a number of ports: the port is the number of ports, and the number of ports is zero. |
| `C23_clamp_fails` | RtcpNtp | **C23 fails**: for each of the 2^15 largest values the rounding wraps around, and the delay is shortened to zero instead of being saturated. |
| `C24_delay_fails` | RtcpFields | **C24** fails for the largest delays: they are stored as zero instead of the maximum. |
| `C24_len_fails` | RtcpFields | **C24** fails for long packets: a length above 65535 bytes, which the field could hold, aborts. |
| `C25_region_fails` | RtcpParse | **C25** fails for a padded report that is not the first packet: the iterator gives out the first packet again, here the source 1 instead of 2. |
| `C26_fails` | RtcpBuild | The full statement is false: when the second receiver report is padded, the traverser gives the first one twice (`remove_padding_`, traverser.cpp:145, cuts the slice from the start of the buffer). |
| `C28_empty_fails` | RtcpGen | With reports and SDES disabled, there are no streams and no goodbye, so the packet is empty and the builder panics. |
| `C28_goodbye_fails` | RtcpGen | Goodbye never ends if the first destination has a stream, however large the packet: the loop writes packets to the first destination forever. |
| `C28_goodbye_general_fails` | RtcpGen | The full statement for goodbye is false. |
| `C28_no_xr_fails` | RtcpGen | When extended reports are disabled, generation of reports never ends if the local peer sends only and the first destination has a stream: sending streams are only counted when their DLRR block is written. |
| `C28_reports_fails` | RtcpGen | The full statement for reports is false. |
| `C28_small_buffer_fails` | RtcpGen | When a report about one stream does not fit into a packet but a report about none does, the first generation fails with `StatusNoSpace`, and no later generation ever ends. |
| `C30_collision_fails` | Reporter | A receiver that has no destination yet (or a sender that did not start to send) aborts at the next generation after anybody sends a report with its source. |
| `C30_dangling_fails` | Reporter | If the same time is given to four calls (three queued packets, then generation), a pointer to a destroyed stream is used: the second call rebuilds the index, the third one destroys a stream, the fourth one does not clear the list of pointers. |
| `C30_early_fails` | Reporter | Same for a sender that has a configured address, when the packet comes before it starts to send. |
| `C31_dead_fails` | FecWriter | Whenever a packet with another size is written in the middle of a block, nothing is emitted any more, whatever is written next. |
| `C31_resize_fails` | FecWriter | Sizes whose sum wraps around are accepted. |
| `C31_size_fails` | FecWriter | A packet with another size in the middle of a block: it and all later packets are never emitted, although `write` returns OK. |
| `C31_zero_fails` | FecWriter | Sizes 0 and 0 are accepted by the constructor, and the block never ends. |
| `C33_null_fec_fails` | FecReader | If a part of lost packets of a block is restored, and then one more packet of this block arrives, the next repair attempt uses FEC fields of a restored packet, which has none. |
| `C33_over_max_fails` | FecReader | The sum of the source and repair block sizes is not checked if it happens to be equal to the announced one: after a block with 15 repair packets, a block with 10 source packets makes the decoder start with 25 packets, although its limit is 20. |
| `C33_zero_length_fails` | FecReader | One repair packet with block length 0 (which the LDPC header can carry) aborts the receiver. |
| `C34_block_length_fails` | FecCodec | **C34 (the block length is lost).** A Reed-Solomon packet of a block of 30 symbols is parsed as belonging to a block of 255 symbols, and an LDPC source packet as belonging to a block of 0. |
| `C34_prepare_no_room_fails` | FecCodec | **C34 (repair packets that do not fit).** Unlike every other composer, `prepare` of a repair packet does not check that the payload fits into the buffer: it aborts instead of returning `false`. |
| `C36_empty_payload_fails` | Depacketizer | C36 is false: a packet with an empty payload and the timestamp 2^31 away from the current position aborts the receiver. |
| `C37_gap_fails` | Depacketizer | C37 is false for frames inside a long gap: packets of two samples at positions 0 and 10, one sample takes 5 ns and position 0 was captured at 1000. The second frame begins at position 2, its capture time is 1010, but 1040 is reported. |
| `C39_wrap_fails` | Watchdog | **C39** fails in general: a valid watchdog whose window equals the timeout ends a session of perfectly normal playback after about 27 hours, when the position wraps: the window in which it wraps is longer than the timeout. |
| `C40_clip_fails` | Mixer | **C40** fails: clipping after each addition instead of after the sum. Inputs 1, 1, -1 have the legal sum 1, but the output is 0; and in another order it is 1. |
| `C40_single_fails` | Mixer | **C40** fails with a single input: samples are not clipped, and when the input has no data, what was in the buffer before is output instead of silence. |
| `C42_set_count_max_fails` | ChannelSet | `set_count` aborts when asked for all `max_channels()` channels (channel_set.cpp:205), although a set of 1024 channels is legal and `set_range(0, 1023)` makes one. |
| `C42_superset_fails` | ChannelSet | The set {100} is reported to be a superset of every mask, for example of the stereo mask, although it contains neither of its channels (channel_set.cpp:170-172). |
| `C44_zero_delay_fails` | DelayedReader | **C44 fails** for a delay of zero samples: the first read throws away all queued packets and returns no data, although packets were available and no delay was requested. |
| `C45_lost_wakeup_fails` | PipelineLoop | **C45**, failure. There is a run without any frames (and in which every `try_load` succeeds and tasks are always allowed) after which all operations have returned, task 3 is in the queue, and whatever other tasks are scheduled from then on, none of them is ever executed, nor is task 3: nothing asks the scheduler. `process_tasks` decides that there is nothing left to do before it resets the state, and a task scheduled in between trusts the state. `schedule_and_wait` hangs until the next frame. |
| `C45_stale_state_fails` | PipelineLoop | **C45**, failure of another kind: after all operations have returned and all tasks were executed, the state may be `ProcScheduled` although the scheduler has nothing to do: `schedule_async_task_processing_` stores the state after it asks the scheduler, and `process_tasks` may run in between. Whatever tasks are scheduled from then on, `process_tasks` is never called again unless a frame comes, so that a task that is not executed in place waits for ever. |
| `C46_abort_fails` | SessionRouter | **C46 is false** as stated: a source that is linked to a CNAME, and then to another one, before it has a session, leaves a node without a key in the maps, and the next `add_session` for the source panics. |
| `C46_main_fails` | SessionRouter | **C46**, a limit: session 5 was added for source 2; linking *another* source (1) to a new CNAME takes the session away from source 2. |
| `C47_hang_fails` | LatencyTuner | **C47 is false** for long streams: whatever the configuration, if the position becomes `2^32 - 1`, `advance_stream` does not return. |
| `C47_scale_hang_fails` | LatencyTuner | **C47 is false** for long streams: with a scaling interval of 256 samples, `update_stream` does not return when the position is in the last 256 samples before the wrap. |
| `C47_stall_fails` | LatencyTuner | **C47 is false** for long streams: when the position wraps, tuning stops for a whole cycle: after 4295020000 samples there were 17894667 updates of the estimator, and during the next 4294600000 samples (24.8 hours) there are none, although `update_stream` succeeds. |
| `C49_find_fails` | StringList | **C49 fails**: the list holds only "ab", and a search for "a" succeeds. With both "ab" and "a" stored, a search for "a" returns "ab". |
| `C52_distance_fails` | RateLimiter | **C52 fails**: with period 10, requests at 9 and 10 are both granted. |
| `C53_insert_after_fails` | IntrusiveList | **C53 (misuse that goes unnoticed).** `remove()` leaves the `next` pointer of the removed element in place, and `insert_after` reads it without checking membership of the reference element: after removing `1` from `[1, 2]`, `insert_after(3, 1)` is accepted and puts `3` at the front. |
| `C56_lfe_input_fails` | ChannelMatrix | Mapping a set with only the low frequency channel to stereo never ends either: `next_upmix_table_` alternates between the same two tables (channel_mapper_matrix.cpp:230-254). |
| `C56_lfe_output_fails` | ChannelMatrix | Mapping stereo to an output set that has only the low frequency channel never ends: the builder alternates between the tables `2.1<>1.1` and `3.1<>2.1` forever (channel_mapper_matrix.cpp:98-155). The same happens for an output set none of whose channels is supported by its order, here a top channel in ALSA order. |
| `C57_coverage_fails` | ChannelMatrix | Mapping 7.1.4 to 7.1.2 with a three channel center finds no table and falls back to the diagonal matrix: the four top channels of the input are lost, and the two top channels of the output stay silent, although tables for 7.1.4 to 7.1.2 and for 7.1.2 with either center exist. |
| `C58_equal_limits_fails` | SlabPool | Equal limits that are no multiple of the slot size make the constructor abort. |
| `C58_small_max_fails` | SlabPool | A limit below the size of one slot is exceeded. |
| `C59_host_query_fails` | EndpointUri | **C59** fails for a named host followed by a query: the text `rtsp://host?query` is parsed with the host `query`. |
| `C59_path_fails` | EndpointUri | **C59** fails for a relative path, which `set_path` accepts: it becomes a part of the host. |
| `C60_payload_ids_fails` | Sdp | **C60** fails: larger numbers and negative numbers are accepted and give other ids. |
| `C61_faithful_fails` | Reporter | When one received stream is replaced by another known one, a report about the old stream is sent, with the data of the new one. |
| `C62_dest_fails` | Reporter | If a packet comes before the participant starts to send, it does not send reports to the configured address afterwards, even though it sends. |
| `C63_flush_fails` | Packetizer | C63 is false: one written sample and a flush make a packet with 3524 bytes of padding. The composer rejects it, and the shipper aborts. |
| `C64_large_fails` | Mixer | **C64** fails for a frame larger than the temporary buffer: the timestamp is that of the last part, not of the first sample. |
| `C64_missing_fails` | Mixer | **C64** fails when an input has no timestamp (yet): its missing timestamp counts as zero, and the output timestamp is half of the right one. |
| `C65_no_cname_fails` | SessionRouter | **C65 is false** in general: one RTCP packet with a sender report and without a CNAME makes the receiver panic. |
| `C65_orphan_fails` | SessionRouter | **C65**, a limit: when two sessions get the same CNAME, the group keeps the older session, but no lookup returns it: it gets no packets any more. |
| `C69_cancel_lost_fails` | TaskQueue | A cancellation that comes while the task runs is lost if the task then pauses: it stays paused, nothing is reported, and the thread sleeps for ever. This history follows all the rules. |
| `C69_pause_twice_fails` | TaskQueue | A task that pauses, is resumed, and pauses again aborts the program. |
| `C69_resume_cancelled_fails` | TaskQueue | Resuming a task that was cancelled, or that was never scheduled, aborts the program. |
| `C69_resume_completed_fails` | TaskQueue | Resuming a task that has completed runs it again. |
| `C69_resume_running_fails` | TaskQueue | A task that is resumed while it runs and then completes is run a second time, though it was scheduled once. |
| `C69_still_linked_fails` | TaskQueue | A task that was paused, resumed and completed is still linked in the queue of paused tasks: destroying it aborts the program (roc_core/list_impl.h, `ListNode::~ListNode`). This history follows all the rules. |
| `C70_replaced_fails` | Reporter | If one received stream is replaced by another known one, the new one is not reported. |
| `C70_zero_timestamp_fails` | Reporter | If the first sender report has a zero timestamp, the stream is not reported even after reports with proper timestamps come. |
| `C72_other_size_fails` | FecReader | Sizes that were set before the start are never forgotten. If a packet from the middle of a block of 3 packets comes first, and then the sender switches to blocks of 5 packets, then decoding never starts, whatever else arrives. |
| `C74_nearest_fails` | PcmFormat | Between unsigned formats bits are cut off, so the level is not always the nearest: 16 bits `0x80ff`, which is level 255, becomes 8 bits `0x80`, which is level 0, though level 1 stands for 256. The same level of signed format is rounded. |
| `C75_read_narrow_fails` | PcmFormat | Reading to fewer bits is wrong: if a sample begins in the middle of a byte, the bits of the sample in front of it are not cleared, and the rounding sees a value out of range. Here the second 18-bit sample is 260, which is 65 in 16 bits, but the result is the largest level. |
| `C75_write18_fails` | PcmFormat | Writing 18-bit samples is wrong: the bits of an octet that go to the next byte are shifted by the wrong number (`bit_index` in place of `8 - bit_index`). The 18-bit level of the sample is 1, but the level in the output is 0. |
| `C75_write20_fails` | PcmFormat | Writing 20-bit samples is wrong: the upper bits of a negative value are not cut off, and they overwrite the end of the sample in front. The first sample is 1, and it is read back as 31, in place of 16. |
| `C76_nan_fails` | PcmFormat | A sample that is not a number is not silenced: both comparisons with the bounds are false, and its conversion to an integer is undefined behaviour, for every integer format. This is the only such sample. |
| `C78_roundtrip_fails` | SampleTime | Without the bound it is wrong, for every rate: 16777216 and 16777217 samples, which is less than six minutes at 48000 per second, have the same duration, because the number of samples is converted to `float` first. So no function whatsoever gives both of them back. |
| `C79_unreported_fails` | PcmCoder | It is false that the samples which a write does not report leave the frame alone: if the size of the frame is not a multiple of the size of a sample with all channels, a part of a sample is written at the end. Here: 16-bit stereo, a frame of 6 bytes, two samples, one is reported, and all 6 bytes are changed. |
| `C81_empty_fails` | Batching | It is false that an empty frame can be read through a channel mapper: it aborts, because the duration of a frame cannot be set to zero. |
| `C81_small_buffer_read_fails` | Batching | It is false that a frame can be read through any temporary buffer: if the buffer is smaller than one sample for all channels, and the reader below accepts empty frames, the loop never ends. |
| `C81_small_buffer_write_fails` | Batching | It is false that a frame can be written through any temporary buffer: if the buffer is smaller than one sample for all channels, the first batch is empty, and the duration of zero aborts. |
| `C82_empty_fails` | Batching | It is false that an empty frame, or one too small for a sample of each channel, can be read through a PCM mapper: it aborts, because the duration of a frame cannot be set to zero. |
| `C82_small_buffer_read_fails` | Batching | It is false that a frame can be read through any temporary buffer: if the buffer is smaller than one raw sample for all channels, and the reader below accepts empty frames, the loop never ends. |
| `C82_small_buffer_write_fails` | Batching | It is false that a frame can be written through any temporary buffer: if the buffer is smaller than one raw sample for all channels, the first batch is empty, and the duration of zero aborts. |
| `C83_create_fails` | BuiltinResampler | **C83 fails** before any output: a resampler with a frame larger than a buffer aborts in the constructor (high quality, stereo, from 44100 to 8000, and buffers of 1024 samples). |
| `C83_edge_fails` | BuiltinResampler | **C83 fails** at the one position that is left out, where the right end of the window is exactly the end of the current frame: the sample after the last one of the current frame is used, instead of the first sample of the next frame. This position is reached: from 48000 to 48000 with a multiplier above one by 2⁻²⁰, at output sample number 232998 (see C84). |
| `C83_fraction_fails` | BuiltinResampler | **C83 fails** for interpolation. The fraction used to interpolate between entries of the table is computed once for each side of the window, but it is different for each sample, because the step in the table is not a whole number of entries: at scaling 1 the third sample of the window is weighted with a fraction that is off by more than half an entry. |
| `C83_nan_fails` | BuiltinResampler | **C83 fails** for a multiplier that is not a number: it passes all checks, and its conversion to fixed-point is undefined behaviour. |
| `C83_upsampling_fails` | BuiltinResampler | **C83 fails** for higher output rates: when the output rate is at least 3/2 of the input rate and the scaling is not above one, every resampler that can be created and every scaling that is accepted abort at the first output sample. |
| `C84_failed_read_fails` | BuiltinResampler | **C84 fails** after a failed read. Requests 0, 1, 2, 3 to the reader below succeed, request 4 fails, and request 5 succeeds. The next output sample is made of block 3, of what the failed request has left in the buffer, and of block 5; the sample before was made of blocks 1, 2 and 3. |
| `C84_left_fails` | BuiltinResampler | **C84 fails** for frames of more than 2047 samples: the value behind `n_left_to_process` wraps around (high quality, mono, from 192000 to 8000: 512 instead of 4608). |
| `C84_zero_step_fails` | BuiltinResampler | **C84 fails** to make progress for a very small multiplier: it is accepted, but the step becomes zero, and all output is made of the first three blocks. |
| `C85_channels_fails` | ResamplerWriter | **C85 fails** when the size of the output buffer is not a multiple of the number of channels: samples are written after its end. The size is the capacity of the buffer given by the factory, it is not rounded to the number of channels (`resampler_writer.cpp:58`); 6 channels and a buffer of 1024 samples are enough, and one frame of 300 samples per channel. |
| `C85_zero_step_fails` | ResamplerWriter | **C85 fails** for a scaling so small that the step is zero (`C84_zero_step_fails` has one that is accepted): once the resampler has its first three blocks, `write` fills the output buffer again and again with the same sample and never returns, whatever frame is written. |
| `C86_no_timestamp_fails` | ResamplerTime | **C86 fails** when some input block has no timestamp: the timestamp of the block before is used as if there was no block between, so the output is 0.5 ms too early (blocks of 24 samples at 48000). |
| `C86_rejected_fails` | ResamplerTime | **C86 fails** after a change of the scaling that was rejected: it is remembered all the same, so the resampler goes on with 1, and frames of 480 samples have timestamps that are 10 ms too early. |
| `C87_bad_packet_fails` | StateTracker | **C87 fails** after a packet that cannot be parsed: it is counted when it is written, and not when it is thrown away. From then on, whatever happens, the receiver or sender is never idle again (so a backup source of `roc-recv` is never played), although all packets are handled and all sessions are removed. |
| `C87_unlink_fails` | StateTracker | **C87 fails** also after an endpoint was removed while a packet was in its queue. |
| `C88_busy_fails` | Pump | **C88 fails** when the backup source is empty: while the main source is inactive, the pump restarts and reads the backup source again and again, without end and without giving anything to the sink (whose clock would make it wait). |
| `C88_one_fails` | Pump | **C88 fails** when the backup source ends: it is not paused, and the main source is read. |
| `C88_oneshot_fails` | Pump | **C88 fails** in oneshot mode without a backup source (`roc-recv --oneshot`): an inactive main source that gives silence makes the pump end after one frame, before the main source was active even once. |
| `C88_paused_fails` | Pump | **C88 fails** when the backup source ends: the main source was paused, and if it is active at the next iteration, it is read without being resumed. |
| `C89_skipped_fails` | FreqEstimator | **C89 fails** if it is to say that the filter works on consecutive measurements: whatever was measured as the tenth, twentieth, … one has no influence on any filtered value after that (its place in the buffer is taken by the next measurement). |
| `C90_control_window_fails` | NodeSlots | **C90 fails** between the requests of one call once the control interface is used: `unlink` first removes the ports, so the pipeline slot, still running, holds the outbound writer of a removed port until it is deleted. |
| `C90_query_fails` | NodeSlots | **C90 fails** for `roc_receiver_query` (and the same code is in the sender, `C91_query_fails`): after a failed `bind` the slot is still in the map, its handle is NULL, and `query` panics. |
| `C90_rebind_fails` | NodeSlots | **C90 fails** for a second `bind` of an interface: `bind` does not check that the interface is bound already. The second call (all answers of the environment are good; the uri names another port) opens a second port and forgets the first one, then the pipeline refuses the second endpoint and the slot is cleaned up: the first port stays open with a reference to the deleted pipeline slot, and neither `unlink` nor closing of the receiver removes it. |
| `C91_configure_fails` | NodeSlots | **C91 fails** for `configure` of a connected interface: "returns a negative value if slot is already bound or connected" (sender.h:214), but when the interface shares the port of another one, `configure` returns success, and the new configuration has no effect on the open port. |
| `C91_control_window_fails` | NodeSlots | **C91 fails** between the requests of one call once the control interface is used: `unlink` first deletes the pipeline slot, so the port, still receiving, holds the inbound writer of a deleted endpoint until it is removed. |
| `C91_query_fails` | NodeSlots | **C91 fails** for `roc_sender_query` after a failed `connect`, as `C90_query_fails`. |
| `C92_failed_scaling_fails` | Decimation | **C92 fails** for `set_scaling` that returns false: it is not without effect. If the inner resampler does not agree with the rates, samples that are pushed later go to it nevertheless. |
| `C93_abort_fails` | SpecParse | **C93 fails**: a reversed range aborts the program. |
| `C93_long_mask_fails` | SpecParse | **C93 fails**: a mask of 257 digits aborts the program. |
| `C93_overflow_fails` | SpecParse | **C93 fails**: a format of 16 characters overruns a buffer on the stack. |
| `C93_valid_fails` | SpecParse | **C93 fails** for validity: a mask of zeros is accepted, and gives a layout with no channels. |
| `C94_surround_fails` | SpecParse | **C94 fails** beyond the table of positions: printing a surround set with channel 17 or above aborts. |
| `C94_truncated_fails` | SpecParse | **C94 fails** in the buffer of `channel_set_to_str`: different sets are printed alike. |
| `C95_big_endian_fails` | WavFile | **C95 fails** on a big-endian host: the size of the format is wrong. |
| `C95_channels_fails` | WavFile | **C95 fails** for several channels: the header claims as many times the data as there are channels, even if the memory happened to be zero. |
| `C95_memory_fails` | WavFile | **C95 fails** for one channel too: memory from the heap arena is filled with 0x7a (`memory_ops.cpp:15-25`, `heap_arena.cpp:68`), and the number of samples starts from that. |
| `C96_max_fails` | ParseUnits | **C96 fails** for the largest duration: converting it is undefined behaviour. |
| `C96_nan_fails` | ParseUnits | **C96 fails** for a NaN: it passes all checks, and converting it is undefined behaviour. |
| `C96_size_max_fails` | ParseUnits | **C96 fails** for the largest size: converting it is undefined behaviour. |
| `C97_bounds_fails` | Feedback | **C97 fails** (bounds). When the reported latency is out of bounds, nothing happens: the user sees the participant and all frames are passed on, though the tuner says that the session is to be terminated. |
| `C97_cooldown_fails` | Feedback | **C97 fails** (cooldown). The source may change twice within a nanosecond: with a cooldown of 50, reports of two receivers at the times 109 and 110 are both taken, and the user sees the metrics of each. |
| `C97_counter_fails` | Feedback | **C97 fails** (counter of packets). When a receiver that reports no counter is gone for longer than the timeout, and another receiver that does report its counter comes, its counter is still replaced by the counter of the sender. |
| `C97_refused_fails` | Feedback | **C97 fails** (abort). With a tolerance of 0.2, which is accepted, and the decimation resampler for two channels, a report about a latency within the limits makes `write` abort when the estimator asks for 1.1. |
| `C97_reset_fails` | Feedback | **C97 fails** (reset). After the timeout the resampler keeps the last factor forever: it is not set to one again, however many frames are written. |
| `C98_int16_fails` | Hashsum | **C98 fails** (16 bits). The hash of small 16-bit numbers is undefined behaviour, by overflow of `int`. |
| `C98_parts_fails` | Hashsum | **C98 fails** (parts). There is a byte string with the hash zero, and what is added after it is hashed as if it was the first part. |
| `C99_port_fails` | SocketAddr | **C99 fails** (port). A port out of range is accepted, and another port is used. |
| `C99_reuse_fails` | SocketAddr | **C99 fails** (reuse). An object that was set to an IPv4 address and then to an IPv6 address is equal to a fresh object with that IPv6 address, but has another hash: its flow label is the IPv4 address. |
| `C99_scope_fails` | SocketAddr | **C99 fails** (scope). Packets with the same link-local address and port that come from two interfaces have equal addresses with different hashes. |

### Found while reading, not proved

These were seen in the code while it was modelled. They are outside of the models, so there is no theorem for them.

* `roc_rtcp/reporter.cpp`: an RRTR block that comes in a later packet than the reception block does not rebuild the index, so no DLRR is sent until another event does; `detect_timeouts_` does not end for a timeout that is not positive.
* `roc_pipeline/receiver_session_group.cpp:99`, `sender_session.cpp:255`: abort if generation of reports fails, for example with the status of `C28_small_buffer_fails`.
* `roc_packet/shipper.cpp:28-51`: aborts if a packet cannot be composed (see `C63_flush_fails`).

## Axioms

`#print axioms` of every property theorem gives a subset of `propext`, `Classical.choice`, `Quot.sound`:

* `Classical.choice`, `Quot.sound`, `propext` (564 theorems); all theorems that are not listed below.
* `Quot.sound`, `propext` (157 theorems); all theorems that are not listed below.
* `propext` (58 theorems): `ApiConfig.C102_context`, `CsvDumper.C115_construct_fails`, `CsvDumper.C115_contention_fails`, `CsvDumper.C115_cut_fails`, `CsvDumper.C115_exclusive`, `CsvDumper.C115_overflow_fails`, `CsvDumper.C115_would_write_fails`, `Defaults.C103_resampler`, `DelayedReader.C44_zero_delay_fails`, `DynArray.C107_alias_fails`, `DynArray.C107_overflow_fails`, `FecFlow.C124_gap_fails`, `FecFlow.C124_lost_fails`, `FecReader.C123_late_fails`, `FecReader.C123_once_fails`, `FecReader.C33_null_fec_fails`, `FecReader.C33_over_max_fails`, `FecReader.C33_zero_length_fails`, `FileSink.C125_snd_write`, `FileSource.C111_wav_odd_frame_fails`, `Filter.C08_half_range_undefined_fails`, `Hashsum.C98_int16_fails`, `LinkMeter.C10_first_after_last_fails`, `LinkMeter.C10_wrap_fails`, `LossyAudio.C126_lost_fails`, `MemoryLimiter.C16_overflow_fails`, `PacketCounter.C11_wrap_fails`, `PacketCounter.C11_wrapped_begin_fails`, `PcmFormat.C75_read_narrow_fails`, `PcmFormat.C75_write18_fails`, `PcmFormat.C75_write20_fails`, `PulseDevice.C122_closed_fails`, `PulseDevice.C122_resume_again`, `Pump.C88_choice`, `Pump.C88_one_fails`, `Pump.C88_oneshot_fails`, `Pump.C88_order`, `Pump.C88_paused_fails`, `Pump.C88_result`, `RateLimiter.C52_bad_period`, `Reporter.C30_dangling_fails`, `Reporter.C61_faithful_fails`, `RingQueue.C12_pop_back_lifetime_fails`, `Slice.C108_extend_fails`, `Slice.C108_index_fails`, `SocketAddr.C99_auto`, `SocketAddr.C99_equal`, `SocketAddr.C99_equivalence`, `SocketAddr.C99_saddr`, `StringList.C49_find_fails`, `TcpConn.C100_last_callback_fails`, `TcpConn.C100_no_abort_fails`, `Timer.C54_not_early`, `UdpPort.C106_empty_fails`, `UdpPort.C106_member`, `UdpPort.C106_no_buffer_fails`, `UdpPort.C106_race_fails`, `WavFile.C95_order`.
* none (22 theorems): `Depacketizer.C36_empty_payload_fails`, `Depacketizer.C37_gap_fails`, `FecCodec.C34_block_length_fails`, `FecWriter.C31_dead_fails`, `FecWriter.C31_resize_fails`, `FecWriter.C31_size_fails`, `FecWriter.C31_zero_fails`, `FileSource.C111_sndfile_odd_frame_fails`, `FileSource.C111_sox_query_fails`, `FileSource.C111_sox_restart_fails`, `FileSource.C111_sox_resume_eof_fails`, `FileSource.C111_sox_resume_rate_fails`, `Filter.C08_half_range_wraps`, `Hashsum.C98_parts_fails`, `MovStats.C13_extend_window_fails`, `MovStats.C13_max_fails`, `RateLimiter.C52_distance_fails`, `SessionRouter.C46_abort_fails`, `SessionRouter.C46_main_fails`, `SlabPool.C58_equal_limits_fails`, `SlabPool.C58_small_max_fails`, `TsMapping.C51_double_detected`.
* `Quot.sound` (1 theorems): `Interleaver.C48_empty_interval_aborts`.
