import Verif.SpecParse.Model
import Verif.PcmNames.Model
import Verif.SocketAddr.Model

/-!
# Public configuration structs and the table of encodings

Model of `src/public_api/src/adapters.cpp`, of `roc_context_register_encoding` (`src/public_api/src/context.cpp`) and of
`src/internal_modules/roc_rtp/encoding_map.cpp`, with the constructors in `src/internal_modules/roc_pipeline/config.cpp`.

Enumerations coming from the user are arbitrary integers. A function that returns false leaves its output argument partly
written; all callers drop the output then, so it is left out. Null pointers, log messages, the mutex and packet flags are left
out. Codec constructors are left out: they are set exactly if the format is a PCM format.
-/

namespace Verif.ApiConfig

open Verif.ChannelSet Verif.SpecParse

/-- `roc_media_encoding` (roc/config.h:358-383). -/
structure Media where
  rate : Nat
  format : Int
  channels : Int
  tracks : Nat

/-- `PcmFormat_Float32` (pcm_format.h:183). -/
def f32 : Nat := 73

/-- `PcmFormat_SInt16_Be` (pcm_format.h:42). -/
def s16be : Nat := 8

/-- `ChanMask_Surround_Mono`, `ChanMask_Surround_Stereo` (channel_defs.h:158, 195): center; left and right. -/
def maskMono : BitVec 32 := 0x004

/-- See `maskMono`. (roc_audio/channel_defs.h:195) -/
def maskStereo : BitVec 32 := 0x011

/-- `in_tracks - 1` (adapters.cpp:358) for `unsigned int`. -/
def pred32 (tracks : Nat) : Nat := (tracks + 4294967295) % 4294967296

/-- `channel_set_from_user` (adapters.cpp:349-375); the values are those of `roc_channel_layout` (config.h:332-353). -/
def channelsFromUser (out : CSet) (ch : Int) (tracks : Nat) : Out CSet :=
  let out := out.clear
  if ch = 1 then
    (ofOption (out.setLayout .multitrack)).bind fun o => ofOption ((o.setOrder .none).setRange 0 (pred32 tracks))
  else if ch = 2 then
    (ofOption (out.setLayout .surround)).bind fun o => .ok ((o.setOrder .smpte).setMask maskMono)
  else if ch = 3 then
    (ofOption (out.setLayout .surround)).bind fun o => .ok ((o.setOrder .smpte).setMask maskStereo)
  else .no

/-- `sample_format_from_user` (adapters.cpp:335-346); `net`: `is_network`. -/
def formatFromUser (out : SSpec) (format : Int) (net : Bool) : Out SSpec :=
  if format = 1 then .ok { out with fmt := if net then s16be else f32 } else .no

/-- `sample_spec_from_user` (adapters.cpp:274-332). -/
def specFromUser (out : SSpec) (m : Media) (net : Bool) : Out SSpec :=
  if m.rate ≠ 0 then
    (formatFromUser { out with rate := m.rate } m.format net).bind fun out =>
      if m.channels ≠ 0 then
        if m.channels = 1 ∧ m.tracks = 0 then .no
        else if m.channels = 1 ∧ m.tracks > maxChannels then .no
        else if m.channels ≠ 1 ∧ m.tracks ≠ 0 then .no
        else (channelsFromUser out.chs m.channels m.tracks).bind fun c => .ok { out with chs := c }
      else .no
  else .no

/-- `SampleSpec::SampleSpec()` (sample_spec.cpp:85-90). -/
def emptySpec : SSpec := ⟨0, 0, .empty⟩

/-- `SampleSpec::is_valid` (sample_spec.cpp:133-137). -/
def specValid (s : SSpec) : Bool := s.fmt ≠ 0 && s.rate ≠ 0 && s.chs.isValid

/-- `get_pcm_canon_format` (sample_spec.cpp:65-72). -/
def canon (f : Nat) : Nat := if f = 0 then 0 else ((PcmNames.traits f).map (·.canon)).getD 0

/-- `SampleSpec::operator==` (sample_spec.cpp:122-127). -/
def specEq (a b : SSpec) : Bool :=
  decide ((a.fmt = 0) = (b.fmt = 0)) && (decide (a.fmt = 0) || decide (a.fmt = b.fmt) || decide (canon a.fmt = canon b.fmt))
    && decide (a.rate = b.rate) && a.chs.eq b.chs

/-- `rtp::Encoding` (roc_rtp/encoding.h:27-53). -/
structure Enc where
  pt : Nat
  spec : SSpec

/-- `find_by_pt` (encoding_map.cpp:43-51). The nodes are listed in the order in which they were added. -/
def findPt (l : List Enc) (pt : Nat) : Option Enc := l.find? fun e => e.pt = pt

/-- `find_by_spec` (encoding_map.cpp:53-64). -/
def findSpec (l : List Enc) (s : SSpec) : Option Enc := l.find? fun e => specEq e.spec s

/-- `add_encoding` (encoding_map.cpp:66-107); `alloc`: both allocations succeed. -/
def addEncoding (alloc : Bool) (l : List Enc) (e : Enc) : Out (List Enc) :=
  if e.pt = 0 then .panic
  else if specValid e.spec = false then .panic
  else if e.spec.fmt = 0 then .panic
  else if (findPt l e.pt).isSome then .no
  else if alloc = false then .no
  else .ok (l ++ [e])

/-- `add_builtin_` (encoding_map.cpp:108-112). -/
def addBuiltin (alloc : Bool) (l : List Enc) (pt : Nat) (mask : BitVec 32) : Out (List Enc) :=
  (ofOption (CSet.make .surround .smpte mask)).bind fun c =>
    match addEncoding alloc l ⟨pt, ⟨s16be, 44100, c⟩⟩ with
    | .no => .panic
    | r => r

/-- Constructor of the map (encoding_map.cpp:18-41). -/
def initial (alloc : Bool) : Out (List Enc) :=
  (addBuiltin alloc [] 11 maskMono).bind fun l => addBuiltin alloc l 10 maskStereo

/-- `roc_context_register_encoding` (context.cpp:58-103); `.no`: a negative value is returned, the map is not changed. -/
def register (alloc : Bool) (l : List Enc) (id : Int) (m : Media) : Out (List Enc) :=
  if id < 1 ∨ id > 127 then .no
  else (specFromUser emptySpec m true).bind fun s => addEncoding alloc l ⟨id.toNat, s⟩

/-- `FecScheme` (roc_packet/fec.h:23-32). -/
inductive Fec
  | none
  | rs8m
  | ldpc
deriving DecidableEq

/-- `LatencyTunerBackend` (latency_tuner.h:29-43). -/
inductive TBackend
  | default
  | niq
  | e2e
deriving DecidableEq

/-- `LatencyTunerProfile` (latency_tuner.h:48-62). -/
inductive TProfile
  | default
  | intact
  | responsive
  | gradual
deriving DecidableEq

/-- `ResamplerBackend` (resampler_config.h:21-41). -/
inductive RBackend
  | default
  | builtin
  | speex
  | speexdec
deriving DecidableEq

/-- `ResamplerProfile` (resampler_config.h:44-53). -/
inductive RProfile
  | low
  | medium
  | high
deriving DecidableEq

/-- `address::Interface` (interface.h:19-37) without the invalid one. -/
inductive Iface
  | consolidated
  | audioSource
  | audioRepair
  | audioControl
deriving DecidableEq

/-- `address::Protocol` (protocol.h:19-43). -/
inductive Proto
  | none
  | rtsp
  | rtp
  | rtpRs8mSource
  | rs8mRepair
  | rtpLdpcSource
  | ldpcRepair
  | rtcp
deriving DecidableEq

/-- `LogLevel` (roc_core/log.h:43-50). -/
inductive Level
  | none
  | error
  | info
  | note
  | debug
  | trace
deriving DecidableEq

/-- `clock_source_from_user` (adapters.cpp:378-391): the value of `enable_timing`. -/
def clockFromUser (n : Int) : Option Bool :=
  if n = 0 ∨ n = 1 then some false else if n = 2 then some true else none

/-- `latency_tuner_backend_from_user` (adapters.cpp:394-407). -/
def tbackendFromUser (n : Int) : Option TBackend := if n = 0 then some .default else if n = 2 then some .niq else none

/-- `latency_tuner_profile_from_user` (adapters.cpp:410-431). -/
def tprofileFromUser (n : Int) : Option TProfile :=
  if n = 0 then some .default else if n = 1 then some .intact else if n = 2 then some .responsive else if n = 3 then some .gradual else none

/-- `resampler_backend_from_user` (adapters.cpp:434-454). -/
def rbackendFromUser (n : Int) : Option RBackend :=
  if n = 0 then some .default else if n = 1 then some .builtin else if n = 2 then some .speex else if n = 3 then some .speexdec else none

/-- `resampler_profile_from_user` (adapters.cpp:457-474). -/
def rprofileFromUser (n : Int) : Option RProfile :=
  if n = 3 then some .low else if n = 0 ∨ n = 2 then some .medium else if n = 1 then some .high else none

/-- `packet_encoding_from_user` (adapters.cpp:477-490): it never fails; other values are converted to `unsigned`. -/
def ptFromUser (n : Int) : Nat := if n = 11 then 11 else if n = 10 then 10 else (n % 4294967296).toNat

/-- `fec_encoding_from_user` (adapters.cpp:493-510). -/
def fecFromUser (n : Int) : Option Fec :=
  if n = -1 then some .none else if n = 0 ∨ n = 1 then some .rs8m else if n = 2 then some .ldpc else none

/-- `interface_from_user` (adapters.cpp:513-533). -/
def ifaceFromUser (n : Int) : Option Iface :=
  if n = 1 then some .consolidated else if n = 11 then some .audioSource else if n = 12 then some .audioRepair
  else if n = 13 then some .audioControl else none

/-- `proto_from_user` (adapters.cpp:536-568). -/
def protoFromUser (n : Int) : Option Proto :=
  if n = 10 then some .rtsp else if n = 20 then some .rtp else if n = 30 then some .rtpRs8mSource else if n = 31 then some .rs8mRepair
  else if n = 32 then some .rtpLdpcSource else if n = 33 then some .ldpcRepair else if n = 70 then some .rtcp else none

/-- `proto_to_user` (adapters.cpp:570-605). -/
def protoToUser : Proto → Option Int
  | .rtsp => some 10
  | .rtp => some 20
  | .rtpRs8mSource => some 30
  | .rs8mRepair => some 31
  | .rtpLdpcSource => some 32
  | .ldpcRepair => some 33
  | .rtcp => some 70
  | .none => Option.none

/-- `log_level_from_user` (adapters.cpp:656-678). -/
def levelFromUser (n : Int) : Level :=
  if n = 0 then .none else if n = 1 then .error else if n = 2 then .info else if n = 3 then .note else if n = 4 then .debug
  else if n = 5 then .trace else .error

/-- `log_level_to_user` (adapters.cpp:680-702). -/
def levelToUser : Level → Int
  | .none => 0
  | .error => 1
  | .info => 2
  | .note => 3
  | .debug => 4
  | .trace => 5

/-- Conversion of `unsigned long long` to `nanoseconds_t` (`long long`). (Part of the model of public_api/src/adapters.cpp:43-702.) -/
def toNs (n : Nat) : Int := if n < 9223372036854775808 then n else (n : Int) - 18446744073709551616

/-- `roc_sender_config` (roc/config.h:638-796). -/
structure SenderIn where
  frame : Media
  packetEncoding : Int
  packetLength : Nat
  interleaving : Nat
  fec : Int
  fecSource : Nat
  fecRepair : Nat
  clock : Int
  tbackend : Int
  tprofile : Int
  rbackend : Int
  rprofile : Int
  target : Nat
  tolerance : Nat

/-- The fields of `SenderSinkConfig` (pipeline/config.h:58-108) that are set from the user config. -/
structure SinkCfg where
  spec : SSpec
  pt : Nat
  packetLength : Int
  target : Int
  tolerance : Int
  timing : Bool
  autoDuration : Bool
  autoCts : Bool
  interleaving : Bool
  fec : Fec
  nSource : Nat
  nRepair : Nat
  tbackend : TBackend
  tprofile : TProfile
  rbackend : RBackend
  rprofile : RProfile

/-- `SenderSinkConfig()` (pipeline/config.cpp:15-24) and the constructors of its members (fec/writer.h:38-41, codec_config.h:35-40,
latency_tuner.h:118-126, resampler_config.h:63-66). -/
def sinkDefault (spec : SSpec) : SinkCfg :=
  { spec := spec, pt := 10, packetLength := 5000000, target := 0, tolerance := 0, timing := false, autoDuration := false, autoCts := false,
    interleaving := false, fec := .none, nSource := 18, nRepair := 10, tbackend := .default, tprofile := .default, rbackend := .default,
    rprofile := .medium }

/-- `return false` if a conversion fails. (Part of the model of public_api/src/adapters.cpp:43-702.) -/
def need {α : Type} : Option α → Out α
  | some a => .ok a
  | none => .no

/-- Selection of the payload type in `sender_config_from_user` (adapters.cpp:64-91). -/
def selectPt (l : List Enc) (spec : SSpec) (n : Int) : Out Nat :=
  if n ≠ 0 then
    if (findPt l (ptFromUser n)).isSome then .ok (ptFromUser n) else .no
  else (need (findSpec l spec)).bind fun e => .ok e.pt

/-- `sender_config_from_user` (adapters.cpp:56-161); `l`: the encodings of the context, `spec0`: `DefaultSampleSpec`. -/
def senderFromUser (l : List Enc) (spec0 : SSpec) (c : SenderIn) : Out SinkCfg :=
  let out := sinkDefault spec0
  (specFromUser out.spec c.frame false).bind fun spec =>
  let out := { out with spec := spec }
  (selectPt l out.spec c.packetEncoding).bind fun pt =>
  let out := { out with pt := pt }
  let out := if c.packetLength ≠ 0 then { out with packetLength := toNs c.packetLength } else out
  let out := if c.target ≠ 0 then { out with target := toNs c.target } else out
  let out := if c.tolerance ≠ 0 then { out with tolerance := toNs c.tolerance } else out
  let out := { out with timing := false, autoDuration := true, autoCts := true }
  let out := { out with interleaving := decide (c.interleaving ≠ 0) }
  (need (fecFromUser c.fec)).bind fun fec =>
  let out := { out with fec := fec }
  let out := if c.fecSource ≠ 0 ∨ c.fecRepair ≠ 0 then { out with nSource := c.fecSource, nRepair := c.fecRepair } else out
  (need (clockFromUser c.clock)).bind fun timing =>
  let out := { out with timing := timing }
  (need (tbackendFromUser c.tbackend)).bind fun tb =>
  let out := { out with tbackend := tb }
  (need (tprofileFromUser c.tprofile)).bind fun tp =>
  let out := { out with tprofile := tp }
  (need (rbackendFromUser c.rbackend)).bind fun rb =>
  let out := { out with rbackend := rb }
  (need (rprofileFromUser c.rprofile)).bind fun rp =>
  .ok { out with rprofile := rp }

/-- `roc_receiver_config` (roc/config.h:806-913). -/
structure ReceiverIn where
  frame : Media
  clock : Int
  tbackend : Int
  tprofile : Int
  rbackend : Int
  rprofile : Int
  target : Nat
  tolerance : Nat
  noPlayback : Int
  choppy : Int

/-- The fields of `ReceiverSourceConfig` (pipeline/config.h:119-194) that are set from the user config. -/
structure SourceCfg where
  spec : SSpec
  target : Int
  tolerance : Int
  noPlayback : Int
  choppy : Int
  timing : Bool
  autoReclock : Bool
  tbackend : TBackend
  tprofile : TProfile
  rbackend : RBackend
  rprofile : RProfile

/-- `ReceiverSourceConfig()` (pipeline/config.cpp:37-64) and the constructors of its members (latency_tuner.h:118-126, watchdog.h:78-86,
resampler_config.h:63-66). -/
def sourceDefault (spec : SSpec) : SourceCfg :=
  { spec := spec, target := 0, tolerance := 0, noPlayback := 0, choppy := 0, timing := false, autoReclock := false, tbackend := .default,
    tprofile := .default, rbackend := .default, rprofile := .medium }

/-- `receiver_config_from_user` (adapters.cpp:164-235). -/
def receiverFromUser (spec0 : SSpec) (c : ReceiverIn) : Out SourceCfg :=
  let out := sourceDefault spec0
  let out := if c.target ≠ 0 then { out with target := toNs c.target } else out
  let out := if c.tolerance ≠ 0 then { out with tolerance := toNs c.tolerance } else out
  let out := if c.noPlayback ≠ 0 then { out with noPlayback := c.noPlayback } else out
  let out := if c.choppy ≠ 0 then { out with choppy := c.choppy } else out
  let out := { out with timing := false, autoReclock := true }
  (specFromUser out.spec c.frame false).bind fun spec =>
  let out := { out with spec := spec }
  (need (clockFromUser c.clock)).bind fun timing =>
  let out := { out with timing := timing }
  (need (tbackendFromUser c.tbackend)).bind fun tb =>
  let out := { out with tbackend := tb }
  (need (tprofileFromUser c.tprofile)).bind fun tp =>
  let out := { out with tprofile := tp }
  (need (rbackendFromUser c.rbackend)).bind fun rb =>
  let out := { out with rbackend := rb }
  (need (rprofileFromUser c.rprofile)).bind fun rp =>
  .ok { out with rprofile := rp }

/-- `roc_context_config` (config.h:610-628) to `ContextConfig` (node/context.h:30-41): `context_config_from_user` (adapters.cpp:43-53).
The pair is the maximum packet size and the maximum frame size. -/
def contextFromUser (packet frame : Nat) : Nat × Nat :=
  (if packet ≠ 0 then packet else 2048, if frame ≠ 0 then frame else 4096)

/-- `roc_interface_config` (config.h:927-982): two arrays of 48 characters and an integer. -/
structure IfaceIn where
  outgoing : List Char
  multicast : List Char
  reuse : Int

/-- `UdpConfig` (udp_port.h:32-63) as written by `interface_config_from_user`. -/
structure UdpCfg where
  bind : SocketAddr.Addr
  multicast : List Char
  reuse : Bool

/-- A string in an array of characters: the characters before the first zero; a read past the end of the array is `overflow`. (Part of the model of public_api/src/adapters.cpp:43-702.) -/
def cstring : List Char → Out (List Char)
  | [] => .overflow
  | c :: l => if c = '\x00' then .ok [] else (cstring l).bind fun s => .ok (c :: s)

/-- `interface_config_from_user` (adapters.cpp:237-271) on a new `UdpConfig`; `multicast_interface` has 64 characters. -/
def ifaceConfigFromUser (lib : SocketAddr.Libc) (c : IfaceIn) : Out UdpCfg :=
  let out : UdpCfg := ⟨.empty, [], false⟩
  (if c.outgoing.getD 0 '\x00' ≠ '\x00' then
    (cstring c.outgoing).bind fun s => (need (out.bind.setAuto lib s 0)).bind fun a => .ok { out with bind := a }
  else .ok out).bind fun out =>
  (if c.multicast.getD 0 '\x00' ≠ '\x00' then
    (cstring c.multicast).bind fun s =>
      if s.length ≥ 64 then .no
      else (need (SocketAddr.Addr.empty.setAuto lib s 0)).bind fun _ => .ok { out with multicast := s }
  else .ok out).bind fun out =>
  .ok { out with reuse := decide (c.reuse ≠ 0) }

/-- `receiver_participant_metrics_to_user` and `sender_participant_metrics_to_user` (adapters.cpp:618-629, 642-653): the field `e2e_latency`. -/
def e2eToUser (ns : Int) : Nat := if ns > 0 then ns.toNat else 0

end Verif.ApiConfig
