import Verif.RtpCodec.Model

/-!
# FECFRAME payload ids, composer and parser

Model of `src/internal_modules/roc_fec/headers.h`, `composer.h` and `parser.h`. The two stacks that the
code builds are modelled (roc_pipeline/sender_endpoint.cpp:48-90, receiver_endpoint.cpp:50-92): a
payload id footer around an RTP packet (source packets), and a payload id header in front of opaque
bytes (repair packets).
-/

namespace Verif.FecCodec
open Verif.Bytes Verif.RtpCodec

/-- The payload id classes (roc_fec/headers.h:49-109, 124-188, 203-267). -/
inductive Kind where
  | ldpcSource
  | ldpcRepair
  | rs8m
deriving DecidableEq, Repr

/-- `sizeof(PayloadID)` (headers.h:50-58, 125-136, 204-212; the structures are packed). -/
def Kind.size : Kind → Nat
  | .ldpcSource => 6
  | .ldpcRepair => 8
  | .rs8m => 6

/-- Fields of a payload id. (Part of the model of roc_fec/composer.h:66-164.) -/
structure Ids where
  esi : Nat
  sbn : Nat
  k : Nat
  n : Nat
deriving DecidableEq, Repr

/-- The setters, on 16-bit arguments (headers.h:76-108, 154-187, 230-266); `none` is a panic. The
structure is cleared before and every byte is set. -/
def Kind.store (kind : Kind) (ids : Ids) : Option (List Byte) :=
  match kind with
  | .ldpcSource => some (toBe 2 ids.sbn ++ toBe 2 ids.esi ++ toBe 2 ids.k)
  | .ldpcRepair => some (toBe 2 ids.sbn ++ toBe 2 ids.esi ++ toBe 2 ids.k ++ toBe 2 ids.n)
  | .rs8m =>
    if ids.esi >>> 8 ≠ 0 then none
    else if ids.sbn >>> 24 ≠ 0 then none
    else some (toBe 3 ids.sbn ++ [BitVec.ofNat 8 ids.esi] ++ toBe 2 ids.k)

/-- The getters (headers.h:71-104, 149-182, 225-262). -/
def Kind.load (kind : Kind) (b : List Byte) : Ids :=
  match kind with
  | .ldpcSource => ⟨beNat (rdAt b 2 2), beNat (rdAt b 0 2), beNat (rdAt b 4 2), 0⟩
  | .ldpcRepair => ⟨beNat (rdAt b 2 2), beNat (rdAt b 0 2), beNat (rdAt b 4 2), beNat (rdAt b 6 2)⟩
  | .rs8m => ⟨beNat (rdAt b 3 1), beNat (rdAt b 0 3), beNat (rdAt b 4 2), 255⟩

/-- FEC part of a packet (roc_packet/fec.h; `size_t` fields are naturals, the block number is 16 bits). (roc_packet/fec.h:35-81) -/
structure Fec where
  esi : Nat := 0
  sbn : BitVec 16 := 0
  k : Nat := 0
  n : Nat := 0
  payloadId : Option Slice := none
  payload : Option Slice := none
deriving DecidableEq, Repr

/-- `FlagFEC`, `FlagRepair` (roc_packet/packet.h:48, 51). -/
def flagFEC : BitVec 32 := 4
/-- `FlagRepair` of packets (roc_packet/packet.h:51). -/
def flagRepair : BitVec 32 := 32

/-- Writing the payload id: `Composer::compose` (composer.h:133-157). -/
def composeId (kind : Kind) (flags : BitVec 32) (fec : Fec) (m : List Byte) : Out (List Byte) :=
  if flags &&& flagFEC = 0 then .panic
  else need fec.payloadId fun s =>
    if s.len ≠ kind.size then .panic
    else if fec.esi >>> 16 ≠ 0 then .panic
    else if fec.k >>> 16 ≠ 0 then .panic
    else if fec.n >>> 16 ≠ 0 then .panic
    else need (kind.store ⟨fec.esi, fec.sbn.toNat, fec.k, fec.n⟩) fun b => .ok (wrAt m s.off b)

/-- `Composer::prepare` of a repair packet: payload id header, no inner composer, type `Repair`
(composer.h:66-120). -/
def prepareRepair (kind : Kind) (flags : BitVec 32) (fec : Fec) (m : List Byte) (buf : Slice) (payloadSize : Nat) :
    Out (BitVec 32 × Fec × Slice) :=
  need (buf.subslice 0 0) fun pid =>
  if pid.capacity m < kind.size then .reject
  else need (pid.reslice m 0 kind.size) fun pid =>
  need (pid.subslice pid.len pid.len) fun payload =>
  need (payload.reslice m 0 payloadSize) fun payload =>
  need (addFlags flags flagRepair) fun flags =>
  need (addFlags flags flagFEC) fun flags =>
  need (buf.reslice m 0 (pid.len + payload.len)) fun buf =>
  .ok (flags, { fec with payloadId := some pid, payload := some payload }, buf)

/-- `Composer::prepare` of a source packet: RTP inner composer, payload id footer, type `Source`
(composer.h:66-120). -/
def prepareSource (kind : Kind) (flags : BitVec 32) (fec : Fec) (rtp : Rtp) (m : List Byte) (buf : Slice)
    (payloadSize : Nat) : Out (BitVec 32 × Fec × Rtp × Slice) :=
  need (buf.subslice 0 0) fun pid =>
  need (pid.subslice pid.len pid.len) fun payload =>
  (RtpCodec.prepare flags rtp m payload payloadSize).bind fun (flags, rtp, payload) =>
  need (payload.subslice payload.len payload.len) fun pid =>
  if pid.capacity m < kind.size then .reject
  else need (pid.reslice m 0 kind.size) fun pid =>
  need (addFlags flags flagFEC) fun flags =>
  need (buf.reslice m 0 (pid.len + payload.len)) fun buf =>
  .ok (flags, { fec with payloadId := some pid, payload := some payload }, rtp, buf)

/-- `Composer::compose` of a source packet (composer.h:133-164). -/
def composeSource (kind : Kind) (flags : BitVec 32) (fec : Fec) (rtp : Rtp) (m : List Byte) : Out (List Byte) :=
  (composeId kind flags fec m).bind fun m => RtpCodec.compose flags rtp m

/-- `Parser::parse` of a repair packet: payload id header, no inner parser (parser.h:36-76). -/
def parseRepair (kind : Kind) (flags : BitVec 32) (m : List Byte) (buf : Slice) : Out (BitVec 32 × Fec) :=
  if buf.len < kind.size then .reject
  else need (buf.rd m 0 kind.size) fun b =>
  need (addFlags flags flagRepair) fun flags =>
  need (addFlags flags flagFEC) fun flags =>
  let ids := kind.load b
  need (buf.subslice kind.size buf.len) fun payload =>
  .ok (flags, { esi := ids.esi, sbn := BitVec.ofNat 16 ids.sbn, k := ids.k, n := ids.n, payload := some payload })

/-- `Parser::parse` of a source packet: payload id footer, RTP inner parser (parser.h:36-76). -/
def parseSource (kind : Kind) (enc : Nat → Option (BitVec 32)) (flags : BitVec 32) (m : List Byte) (buf : Slice) :
    Out (BitVec 32 × Fec × Rtp) :=
  if buf.len < kind.size then .reject
  else need (buf.rd m (buf.len - kind.size) kind.size) fun b =>
  need (addFlags flags flagFEC) fun flags =>
  let ids := kind.load b
  need (buf.subslice 0 (buf.len - kind.size)) fun payload =>
  (RtpCodec.parse enc flags m payload).bind fun (flags, rtp) =>
  .ok (flags, { esi := ids.esi, sbn := BitVec.ofNat 16 ids.sbn, k := ids.k, n := ids.n, payload := some payload }, rtp)

end Verif.FecCodec
