/-
Construction of pipelines: which stages are created, with which sample specifications
and in which order, and which constructors abort.

Sources: `roc_pipeline/sender_sink.cpp`, `roc_pipeline/sender_session.cpp`,
`roc_pipeline/receiver_source.cpp`, `roc_pipeline/receiver_session.cpp`,
`roc_pipeline/transcoder_sink.cpp`, `roc_pipeline/transcoder_source.cpp`,
`roc_audio/resampler_map.cpp` and the constructors of the stages in `roc_audio`.

Simplifications: channel sets are a type `C` with a predicate for `ChannelSet::is_valid`.
A format is invalid, the raw format, or some other PCM format with the bits per sample.
Results of allocations, of foreign code and of checks of numeric configuration are
fields of `Env` and arbitrary. Packet stages (router, interleaver, FEC, queues, filters,
meters) are one result `packets`: their own constructors are not part of this model.
-/

namespace Verif.Wiring

/-- Sample format and PCM format of `SampleSpec` (`roc_audio/sample_spec.h:243-247`).
`bad` stands for every combination rejected by `is_valid`. -/
inductive Fmt where
  | bad
  | raw
  | pcm (bits : Nat)
  deriving DecidableEq, Repr

/-- `SampleSpec` (`roc_audio/sample_spec.h:243-247`). -/
structure Spec (C : Type) where
  rate : Nat
  fmt : Fmt
  chans : C
  deriving DecidableEq, Repr

/-- Outcome of construction: `roc_panic`, an object with `is_valid() == false` (or no
object), or a valid object. (Part of the model of roc_pipeline/receiver_session.cpp:18-232, sender_session.cpp:42-228.) -/
inductive Res (α : Type) where
  | abort
  | invalid
  | ok (a : α)
  deriving Repr

/-- Sequencing of constructors: every pipeline returns as soon as an object is not valid
(`receiver_session.cpp:27-231`). -/
def Res.bind {α β : Type} (x : Res α) (f : α → Res β) : Res β :=
  match x with
  | .abort => .abort
  | .invalid => .invalid
  | .ok a => f a

/-- `if (!x || !x->is_valid()) return` (`receiver_session.cpp:156-158`). -/
def check (b : Bool) : Res Unit := if b then .ok () else .invalid

/-- `roc_panic_if_not(b)` (`roc_core/panic.h:20-50`). -/
def need (b : Bool) : Res Unit := if b then .ok () else .abort

/-- Kinds of stages; frames go through all of them. (Part of the model of roc_pipeline/receiver_session.cpp:18-232, sender_session.cpp:42-228.) -/
inductive Kind where
  | profiler | pcmMapper | monitor | resampler | chanMapper | packetizer
  | depacketizer | watchdog | mixer
  deriving DecidableEq, Repr

/-- A constructed stage, in order of the flow of data. `conv`: gets frames of one
specification and produces another. `pass`: hands over frames as they are and was
told a specification of these frames. (Part of the model of roc_pipeline/receiver_session.cpp:18-232, sender_session.cpp:42-228.) -/
inductive Stage (C : Type) where
  | conv (k : Kind) (inp out : Spec C)
  | pass (k : Kind) (told : Spec C)
  deriving Repr

/-- Kind of a stage. (Part of the model of roc_pipeline/receiver_session.cpp:18-232, sender_session.cpp:42-228.) -/
def Stage.kind {C : Type} : Stage C → Kind
  | .conv k _ _ => k
  | .pass k _ => k

/-- Everything that is decided outside: configuration (`intact`: the latency profile is
`LatencyTunerProfile_Intact`; `profiling`: `enable_profiling`; `watch`: a timeout of the
watchdog is not negative; `dec`: the backend is `ResamplerBackend_SpeexDec`), and results
of allocations and of checks. `packets`: stages of packets, payload codec and sequencer;
`pktz`: the packet length is fine; `inner`: the inner resampler was allocated;
`innerOk`, `resampOk`: the constructor of inner and outer resampler finished;
`scale`: `set_scaling` accepts. (Part of the model of roc_pipeline/receiver_session.cpp:18-232, sender_session.cpp:42-228.) -/
structure Env where
  intact : Bool
  profiling : Bool
  watch : Bool
  dec : Bool
  packets : Bool
  pktz : Bool
  mixBuf : Bool
  pcmBuf : Bool
  profOk : Bool
  watchOk : Bool
  chanBuf : Bool
  backend : Bool
  alloc : Bool
  resampOk : Bool
  inner : Bool
  innerOk : Bool
  scale : Bool
  resampBuf : Bool
  tuner : Bool
  deriving Repr

section
variable {C : Type} [DecidableEq C] (vc : C → Bool)

/-- `SampleSpec::is_valid` (`roc_audio/sample_spec.cpp:133-137`). -/
def Spec.valid (s : Spec C) : Bool := s.fmt != .bad && s.rate != 0 && vc s.chans

/-- `SampleSpec::is_raw` (`roc_audio/sample_spec.cpp:144-146`). -/
def Spec.isRaw (s : Spec C) : Bool := s.fmt == .raw

/-- Bits of a sample, `PcmMapper::input_bit_count(1)` (`roc_audio/pcm_mapper.cpp`). The
raw format has 32 bits (`roc_audio/sample.h:20-25`). -/
def Fmt.bits : Fmt → Nat
  | .bad => 0
  | .raw => 32
  | .pcm b => b

/-- `SampleSpec(rate, Sample_RawFormat, channel_set)` (`roc_audio/sample_spec.cpp:92-104`). -/
def mkRaw (rate : Nat) (ch : C) : Res (Spec C) :=
  (need (rate != 0)).bind fun _ => (need (vc ch)).bind fun _ => .ok ⟨rate, .raw, ch⟩

/-- `PcmMapperWriter::PcmMapperWriter` (`roc_audio/pcm_mapper_writer.cpp:18-60`) and
`PcmMapperReader::PcmMapperReader` (`roc_audio/pcm_mapper_reader.cpp:18-60`). -/
def pcmMapper (e : Env) (inp out : Spec C) : Res (Stage C) :=
  (need (inp.valid vc && out.valid vc)).bind fun _ =>
  (need (inp.rate == out.rate && inp.chans == out.chans)).bind fun _ =>
  (need (inp.fmt.bits % 8 == 0 && out.fmt.bits % 8 == 0)).bind fun _ =>
  (check e.pcmBuf).bind fun _ =>
  .ok (.conv .pcmMapper inp out)

/-- `ChannelMapperWriter::ChannelMapperWriter` (`roc_audio/channel_mapper_writer.cpp:18-52`)
and `ChannelMapperReader::ChannelMapperReader`
(`roc_audio/channel_mapper_reader.cpp:17-53`). -/
def chanMapper (e : Env) (inp out : Spec C) : Res (Stage C) :=
  (need (inp.valid vc && out.valid vc && inp.isRaw && out.isRaw)).bind fun _ =>
  (need (inp.rate == out.rate)).bind fun _ =>
  (check e.chanBuf).bind fun _ =>
  .ok (.conv .chanMapper inp out)

/-- The checks of specifications in constructors of resamplers, which make them invalid
(`roc_audio/builtin_resampler.cpp:141-160`, `decimation_resampler.cpp:57-72`,
`speex_resampler.cpp:63-80`). -/
def resampSpecs (inp out : Spec C) : Bool :=
  inp.valid vc && out.valid vc && inp.isRaw && out.isRaw && inp.chans == out.chans

/-- `ResamplerMap::new_resampler` (`roc_audio/resampler_map.cpp:86-106`): the object that
is returned is valid. The constructor of `DecimationResampler`
(`decimation_resampler.cpp:29-95`) does not look at the inner resampler. -/
def newResampler (e : Env) (inp out : Spec C) : Res Unit :=
  (check e.backend).bind fun _ =>
  (check e.alloc).bind fun _ =>
  check (resampSpecs vc inp out && e.resampOk)

/-- `set_scaling` of the resampler; `DecimationResampler::set_scaling`
(`roc_audio/decimation_resampler.cpp:104-138`) dereferences the inner resampler, which
aborts if it is null (`roc_core/shared_ptr.h:98-103`) or not valid
(`speex_resampler.cpp:125-126`), if rates are not equal. -/
def setScaling (e : Env) (inp out : Spec C) : Res Unit :=
  (need (!(e.dec && inp.rate != out.rate) || e.inner)).bind fun _ =>
  (need (!(e.dec && inp.rate != out.rate) || (resampSpecs vc inp out && e.innerOk))).bind
    fun _ =>
  check e.scale

/-- `new_resampler` followed by `ResamplerWriter::ResamplerWriter`
(`roc_audio/resampler_writer.cpp:17-62`) or `ResamplerReader::ResamplerReader`
(`roc_audio/resampler_reader.cpp:16-53`; it has no buffer: `resampBuf` is true). -/
def resampler (e : Env) (inp out : Spec C) : Res (Stage C) :=
  (newResampler vc e inp out).bind fun _ =>
  (need (inp.valid vc && out.valid vc && inp.isRaw && out.isRaw)).bind fun _ =>
  (need (inp.chans == out.chans)).bind fun _ =>
  (setScaling vc e inp out).bind fun _ =>
  (check e.resampBuf).bind fun _ =>
  .ok (.conv .resampler inp out)

/-- `ProfilingWriter`, `ProfilingReader` (`roc_audio/profiling_writer.cpp:17-27`,
`profiling_reader.cpp:17-27`): conversions of the profiler abort for an invalid
specification (`sample_spec.cpp:219-224`). -/
def profiler (e : Env) (s : Spec C) : Res (Stage C) :=
  (need (s.valid vc)).bind fun _ => (check e.profOk).bind fun _ => .ok (.pass .profiler s)

/-- `FeedbackMonitor::FeedbackMonitor` (`roc_audio/feedback_monitor.cpp:18-49,190-199`) and
`LatencyMonitor::LatencyMonitor` (`roc_audio/latency_monitor.cpp:20-52,188-197`): scaling
needs the resampler `rs` (input and output specifications). -/
def monitor (e : Env) (rs : Option (Spec C × Spec C)) (told : Spec C) : Res (Stage C) :=
  (need (told.valid vc)).bind fun _ =>
  (check e.tuner).bind fun _ =>
  (if e.intact then (Res.ok () : Res Unit)
   else match rs with
     | none => Res.abort
     | some (i, o) => setScaling vc e i o).bind fun _ =>
  .ok (.pass .monitor told)

/-- Frame part of `SenderSink::SenderSink` (`roc_pipeline/sender_sink.cpp:32-62`): stages
above the fanout. -/
def senderSink (e : Env) (input : Spec C) : Res (List (Stage C)) :=
  (if input.isRaw then .ok []
   else (mkRaw vc input.rate input.chans).bind fun o =>
     (pcmMapper vc e input o).bind fun s => .ok [s]).bind fun l =>
  if e.profiling then (profiler vc e input).bind fun s => .ok (s :: l) else .ok l

/-- `SenderSession::create_transport_pipeline` (`roc_pipeline/sender_session.cpp:42-207`):
stages below the fanout, created from the packetizer upwards. -/
def senderSession (e : Env) (input pkt : Spec C) : Res (List (Stage C)) :=
  (check e.packets).bind fun _ =>
  (mkRaw vc pkt.rate pkt.chans).bind fun pin =>
  (need (pin.valid vc && pin.isRaw)).bind fun _ =>
  (check e.pktz).bind fun _ =>
  (if pkt.chans != input.chans then
     (mkRaw vc pkt.rate input.chans).bind fun i =>
     (mkRaw vc pkt.rate pkt.chans).bind fun o =>
     (chanMapper vc e i o).bind fun s => .ok [s, .conv .packetizer pin pkt]
   else .ok [.conv .packetizer pin pkt]).bind fun l =>
  (if !e.intact || pkt.rate != input.rate then
     (mkRaw vc input.rate input.chans).bind fun i =>
     (mkRaw vc pkt.rate input.chans).bind fun o =>
     (resampler vc e i o).bind fun s => .ok (s :: l, some (i, o))
   else .ok (l, none)).bind fun (l, rs) =>
  (monitor vc e rs input).bind fun s => .ok (s :: l)

/-- A sender with one session: `SenderSink` and a slot (`sender_sink.cpp:32-62`,
`sender_session.cpp:42-207`). -/
def sender (e : Env) (input pkt : Spec C) : Res (List (Stage C)) :=
  (senderSink vc e input).bind fun l =>
  (senderSession vc e input pkt).bind fun m => .ok (l ++ m)

/-- `ReceiverSource::ReceiverSource` (`roc_pipeline/receiver_source.cpp:16-71`): the mixer
(`roc_audio/mixer.cpp:18-37`) and the stages above. -/
def receiverSource (e : Env) (output : Spec C) : Res (List (Stage C)) :=
  (need (output.valid vc && output.isRaw)).bind fun _ =>
  (check e.mixBuf).bind fun _ =>
  (if output.isRaw then .ok [.pass .mixer output]
   else (mkRaw vc output.rate output.chans).bind fun i =>
     (pcmMapper vc e i output).bind fun s => .ok [.pass .mixer output, s]).bind fun l =>
  if e.profiling then (profiler vc e output).bind fun s => .ok (l ++ [s]) else .ok l

/-- `ReceiverSession::ReceiverSession` (`roc_pipeline/receiver_session.cpp:18-232`). -/
def receiverSession (e : Env) (pkt output : Spec C) : Res (List (Stage C)) :=
  (check e.packets).bind fun _ =>
  (mkRaw vc pkt.rate pkt.chans).bind fun o =>
  (need (o.valid vc && o.isRaw)).bind fun _ =>
  (if e.watch then (check e.watchOk).bind fun _ =>
     .ok [.conv .depacketizer pkt o, .pass .watchdog o]
   else .ok [.conv .depacketizer pkt o]).bind fun l =>
  (if pkt.chans != output.chans then
     (mkRaw vc pkt.rate pkt.chans).bind fun i =>
     (mkRaw vc pkt.rate output.chans).bind fun o =>
     (chanMapper vc e i o).bind fun s => .ok (l ++ [s])
   else .ok l).bind fun l =>
  (if !e.intact || pkt.rate != output.rate then
     (mkRaw vc pkt.rate output.chans).bind fun i =>
     (mkRaw vc output.rate output.chans).bind fun o =>
     (resampler vc e i o).bind fun s => .ok (l ++ [s], some (i, o))
   else .ok (l, none)).bind fun (l, rs) =>
  (monitor vc e rs output).bind fun s => .ok (l ++ [s])

/-- A receiver with one session (`receiver_source.cpp:16-71`, `receiver_session.cpp:18-232`). -/
def receiver (e : Env) (pkt output : Spec C) : Res (List (Stage C)) :=
  (receiverSource vc e output).bind fun l =>
  (receiverSession vc e pkt output).bind fun m => .ok (m ++ l)

/-- `TranscoderSink::TranscoderSink` (`roc_pipeline/transcoder_sink.cpp:17-90`). -/
def transcoderSink (e : Env) (input output : Spec C) : Res (List (Stage C)) :=
  (if input.chans != output.chans then
     (mkRaw vc output.rate input.chans).bind fun i =>
     (mkRaw vc output.rate output.chans).bind fun o =>
     (chanMapper vc e i o).bind fun s => .ok [s]
   else .ok []).bind fun l =>
  (if input.rate != output.rate then
     (mkRaw vc input.rate input.chans).bind fun i =>
     (mkRaw vc output.rate input.chans).bind fun o =>
     (resampler vc e i o).bind fun s => .ok (s :: l)
   else .ok l).bind fun l =>
  if e.profiling then (profiler vc e input).bind fun s => .ok (s :: l) else .ok l

/-- `TranscoderSource::TranscoderSource` (`roc_pipeline/transcoder_source.cpp:17-88`). -/
def transcoderSource (e : Env) (input output : Spec C) : Res (List (Stage C)) :=
  (if input.chans != output.chans then
     (mkRaw vc input.rate input.chans).bind fun i =>
     (mkRaw vc input.rate output.chans).bind fun o =>
     (chanMapper vc e i o).bind fun s => .ok [s]
   else .ok []).bind fun l =>
  (if input.rate != output.rate then
     (mkRaw vc input.rate output.chans).bind fun i =>
     (mkRaw vc output.rate output.chans).bind fun o =>
     (resampler vc e i o).bind fun s => .ok (l ++ [s])
   else .ok l).bind fun l =>
  if e.profiling then (profiler vc e output).bind fun s => .ok (l ++ [s]) else .ok l

omit [DecidableEq C] in
/-- `TranscoderSink::sample_spec` (`roc_pipeline/transcoder_sink.cpp:124-126`). -/
def transcoderSinkSpec (_input output : Spec C) : Spec C := output

omit [DecidableEq C] in
/-- `SenderSink::sample_spec` (`roc_pipeline/sender_sink.cpp:155-157`). -/
def senderSinkSpec (input : Spec C) : Spec C := input

end

end Verif.Wiring
