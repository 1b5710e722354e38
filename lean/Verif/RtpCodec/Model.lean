import Verif.Bytes.Basic

/-!
# RTP packet composer and parser

Model of `src/internal_modules/roc_rtp/headers.h`, `composer.cpp` and `parser.cpp`, on top of the
slices of `Verif.Bytes`. The packet owns one buffer; slices refer to it. Both the inner composer and
the inner parser are null, which is how RTP composers and parsers are always created
(roc_pipeline/sender_endpoint.cpp:40, receiver_endpoint.cpp:43). Logging is not modelled. Sizes are
unbounded naturals.
-/

namespace Verif.RtpCodec
open Verif.Bytes

/-- Outcome of a call: abort (or an access outside of a slice), `false`, or `true` with a result. (Part of the model of roc_rtp/composer.cpp:22-164, parser.cpp:21-115.) -/
inductive Out (α : Type) where
  | panic
  | reject
  | ok (a : α)
deriving DecidableEq, Repr

/-- A step that may panic. (Part of the model of roc_rtp/composer.cpp:22-164, parser.cpp:21-115.) -/
def need {α β : Type} (o : Option α) (k : α → Out β) : Out β :=
  match o with
  | none => .panic
  | some a => k a

/-- Continue after a successful step. (Part of the model of roc_rtp/composer.cpp:22-164, parser.cpp:21-115.) -/
def Out.bind {α β : Type} (o : Out α) (k : α → Out β) : Out β :=
  match o with
  | .panic => .panic
  | .reject => .reject
  | .ok a => k a

/-- `class Header` (roc_rtp/headers.h:103-116), multi-byte fields in host order. -/
structure Header where
  flags : BitVec 8
  mpt : BitVec 8
  seqnum : BitVec 16
  timestamp : BitVec 32
  ssrc : BitVec 32
deriving DecidableEq, Repr

/-- `sizeof(Header)` (headers.h:121). -/
def headerLen : Nat := 12

/-- `sizeof(ExtentionHeader)` (headers.h:240-258). -/
def extLen : Nat := 4

/-- Interpreting 12 bytes as a header (headers.h:103-116 with the conversions of 181-209). -/
def Header.load (b : List Byte) : Option Header :=
  match b with
  | f :: m :: s0 :: s1 :: t0 :: t1 :: t2 :: t3 :: r0 :: r1 :: r2 :: r3 :: [] =>
    some { flags := f, mpt := m, seqnum := BitVec.ofNat 16 (beNat [s0, s1]),
           timestamp := BitVec.ofNat 32 (beNat [t0, t1, t2, t3]),
           ssrc := BitVec.ofNat 32 (beNat [r0, r1, r2, r3]) }
  | _ => none

/-- Memory image of a header (headers.h:103-116 with the conversions of 181-209). -/
def Header.store (h : Header) : List Byte :=
  [h.flags, h.mpt] ++ toBe 2 h.seqnum.toNat ++ toBe 4 h.timestamp.toNat ++ toBe 4 h.ssrc.toNat

/-- `Header::clear` (headers.h:126-128). -/
def Header.clear : Header := ⟨0, 0, 0, 0, 0⟩

/-- `Header::version` (headers.h:131-133). -/
def Header.version (h : Header) : BitVec 8 := (h.flags >>> 6) &&& 0x3#8

/-- `Header::set_version` (headers.h:136-140); the panic cannot happen for `V2`. -/
def Header.setVersion (h : Header) (v : BitVec 8) : Header :=
  { h with flags := (h.flags &&& ~~~ (0x3#8 <<< 6)) ||| (v <<< 6) }

/-- `Header::has_padding` (headers.h:143-145). -/
def Header.hasPadding (h : Header) : Bool := (h.flags &&& (0x1#8 <<< 5)) != 0#8

/-- `Header::set_padding` (headers.h:148-151). -/
def Header.setPadding (h : Header) (v : Bool) : Header :=
  { h with flags := (h.flags &&& ~~~ (0x1#8 <<< 5)) ||| ((if v then 1#8 else 0#8) <<< 5) }

/-- `Header::has_extension` (headers.h:154-156). -/
def Header.hasExtension (h : Header) : Bool := (h.flags &&& (0x1#8 <<< 4)) != 0#8

/-- `Header::payload_type` (headers.h:159-161). -/
def Header.payloadType (h : Header) : BitVec 8 := (h.mpt >>> 0) &&& 0x7f#8

/-- `Header::set_payload_type` (headers.h:164-168); `none` is a panic. -/
def Header.setPayloadType (h : Header) (pt : BitVec 8) : Option Header :=
  if pt &&& 0x7f#8 ≠ pt then none
  else some { h with mpt := (h.mpt &&& ~~~ (0x7f#8 <<< 0)) ||| (pt <<< 0) }

/-- `Header::marker` (headers.h:171-173). -/
def Header.marker (h : Header) : Bool := (h.mpt &&& (0x1#8 <<< 7)) != 0#8

/-- `Header::set_marker` (headers.h:176-179). -/
def Header.setMarker (h : Header) (m : Bool) : Header :=
  { h with mpt := (h.mpt &&& ~~~ (0x1#8 <<< 7)) ||| ((if m then 1#8 else 0#8) <<< 7) }

/-- `Header::num_csrc` (headers.h:212-214). -/
def Header.numCsrc (h : Header) : BitVec 8 := (h.flags >>> 0) &&& 0xf#8

/-- `Header::header_size` (headers.h:120-123). -/
def Header.size (h : Header) : Nat := headerLen + h.numCsrc.toNat * 4

/-- `ExtentionHeader::data_size` (headers.h:255-257). -/
def extDataSize (b : List Byte) : Nat := beNat (rdAt b 2 2) <<< 2

/-- RTP part of a packet (roc_packet/rtp.h:24-89; `duration` and `capture_timestamp` are not touched by
the codec). `payload_type` is an `unsigned int`. A null slice is `none`. -/
structure Rtp where
  source : BitVec 32 := 0
  seqnum : BitVec 16 := 0
  timestamp : BitVec 32 := 0
  marker : Bool := false
  payloadType : BitVec 32 := 0
  header : Option Slice := none
  payload : Option Slice := none
  padding : Option Slice := none
deriving DecidableEq, Repr

/-- `FlagRTP` (roc_packet/packet.h:47). -/
def flagRTP : BitVec 32 := 2

/-- `Packet::add_flags` (roc_packet/packet.cpp:20-25); `none` is a panic. -/
def addFlags (flags fl : BitVec 32) : Option (BitVec 32) :=
  if flags &&& fl ≠ 0 then none else some (flags ||| fl)

/-- The padding part of `Parser::parse` (parser.cpp:62-88): payload end and padding size. -/
def parsePadding (m : List Byte) (buf : Slice) (h : Header) (begin : Nat) : Out (Nat × Nat) :=
  if h.hasPadding then
    if begin = buf.len then .reject
    else need (buf.rd m (buf.len - 1) 1) fun b =>
      let padSize := beNat b
      if padSize = 0 then .reject
      else if buf.len - begin < padSize then .reject
      else .ok (buf.len - padSize, padSize)
  else .ok (buf.len, 0)

/-- The rest of `Parser::parse` (parser.cpp:90-114). `enc` is the encoding map: packet flags by
payload type. -/
def parseFields (enc : Nat → Option (BitVec 32)) (flags : BitVec 32) (buf : Slice) (h : Header)
    (begin pend padSize : Nat) : Out (BitVec 32 × Rtp) :=
  need (addFlags flags flagRTP) fun flags =>
  need (buf.subslice 0 begin) fun header =>
  need (buf.subslice begin pend) fun payload =>
  need (if padSize ≠ 0 then (buf.subslice pend (pend + padSize)).map some else some none) fun padding =>
  let rtp : Rtp :=
    { source := h.ssrc, seqnum := h.seqnum, timestamp := h.timestamp, marker := h.marker,
      payloadType := h.payloadType.setWidth 32, header := some header, payload := some payload,
      padding := padding }
  match enc h.payloadType.toNat with
  | none => .ok (flags, rtp)
  | some fl => need (addFlags flags fl) fun flags => .ok (flags, rtp)

/-- `Parser::parse` (parser.cpp:21-115). -/
def parse (enc : Nat → Option (BitVec 32)) (flags : BitVec 32) (m : List Byte) (buf : Slice) :
    Out (BitVec 32 × Rtp) :=
  if buf.len < headerLen then .reject
  else need ((buf.rd m 0 headerLen).bind Header.load) fun h =>
  if h.version ≠ 2 then .reject
  else
    let hs := h.size
    let hs1 := if h.hasExtension then hs + extLen else hs
    if buf.len < hs1 then .reject
    else need (if h.hasExtension then (buf.rd m hs extLen).map (fun e => hs1 + extDataSize e) else some hs1)
      fun hs2 =>
    if buf.len < hs2 then .reject
    else (parsePadding m buf h hs2).bind fun (pend, padSize) =>
      parseFields enc flags buf h hs2 pend padSize

/-- `AlignOps::pad_as` (roc_core/align_ops.cpp:38-49). -/
def padAs (size alignment : Nat) : Nat :=
  if alignment = 0 then 0
  else
    let n := size / alignment * alignment
    (if n < size then n + alignment else n) - size

/-- `Composer::align` (composer.cpp:22-46); addresses are relative to the beginning of the buffer, which
is assumed to be aligned. -/
def align (m : List Byte) (buf : Slice) (headerSize alignment : Nat) : Out Slice :=
  if buf.off % alignment ≠ 0 then .panic
  else
    let padding := padAs (headerSize + headerLen) alignment
    if buf.capacity m < padding then .reject
    else need (buf.reslice m padding padding) .ok

/-- `Composer::prepare` (composer.cpp:48-87): packet flags, RTP part and buffer after the call. -/
def prepare (flags : BitVec 32) (rtp : Rtp) (m : List Byte) (buf : Slice) (payloadSize : Nat) :
    Out (BitVec 32 × Rtp × Slice) :=
  need (buf.subslice 0 0) fun header =>
  if header.capacity m < headerLen then .reject
  else need (header.reslice m 0 headerLen) fun header =>
  need (header.subslice header.len header.len) fun payload =>
  if payload.capacity m < payloadSize then .reject
  else need (payload.reslice m 0 payloadSize) fun payload =>
  need (addFlags flags flagRTP) fun flags =>
  need (buf.reslice m 0 (header.len + payload.len)) fun buf =>
  .ok (flags, { rtp with header := some header, payload := some payload }, buf)

/-- `Composer::pad` (composer.cpp:89-117). -/
def pad (flags : BitVec 32) (rtp : Rtp) (paddingSize : Nat) : Out Rtp :=
  if flags &&& flagRTP = 0 then .panic
  else if rtp.padding.isSome then .panic
  else
    -- a null payload slice has zero size; subslicing it keeps it null
    match rtp.payload with
    | none => if 0 < paddingSize then .reject else .ok rtp
    | some p =>
      if p.len < paddingSize then .reject
      else need (p.subslice (p.len - paddingSize) p.len) fun padding =>
        need (p.subslice 0 (p.len - paddingSize)) fun payload =>
        .ok { rtp with padding := some padding, payload := some payload }

/-- The header written by `Composer::compose` (composer.cpp:131-137). The payload type is converted to
`uint8_t` by the argument of `set_payload_type`. -/
def composeHeader (rtp : Rtp) : Option Header :=
  let h := Header.clear.setVersion 2
  let h := { h with ssrc := rtp.source }
  let h := { h with seqnum := rtp.seqnum }
  let h := { h with timestamp := rtp.timestamp }
  let h := h.setMarker rtp.marker
  h.setPayloadType (rtp.payloadType.setWidth 8)

/-- `Composer::compose` (composer.cpp:119-164): the buffer after the call. -/
def compose (flags : BitVec 32) (rtp : Rtp) (m : List Byte) : Out (List Byte) :=
  if flags &&& flagRTP = 0 then .panic
  else need rtp.header fun hs =>
    if hs.len ≠ headerLen then .panic
    else need (composeHeader rtp) fun h =>
      match rtp.padding with
      | none => .ok (wrAt m hs.off h.store)
      | some p =>
        if p.len > 0 then
          let m := wrAt m hs.off (h.setPadding true).store
          if p.len > 255 then .reject
          else
            let m := if p.len > 1 then wrAt m p.off (List.replicate (p.len - 1) 0) else m
            .ok (wrAt m (p.off + (p.len - 1)) [BitVec.ofNat 8 p.len])
        else .ok (wrAt m hs.off h.store)

end Verif.RtpCodec
