import Verif.RtpCodec.Model

/-!
# Specification: the RTP packet format of RFC 3550 5.1 and 5.3.1

Independent of the parser: a packet is a concatenation of five regions.
-/

namespace Verif.RtpCodec
open Verif.Bytes

/-- A packet split into its regions. -/
structure Regions where
  fixed : List Byte
  csrc : List Byte
  ext : List Byte
  payload : List Byte
  padding : List Byte

/-- First octet: version (2 bits), padding, extension, CSRC count (4 bits). -/
def Regions.octet0 (r : Regions) : Nat := beNat (r.fixed.take 1)

/-- Second octet: marker, payload type (7 bits). -/
def Regions.octet1 (r : Regions) : Nat := beNat ((r.fixed.drop 1).take 1)

def Regions.seqnum (r : Regions) : Nat := beNat ((r.fixed.drop 2).take 2)
def Regions.timestamp (r : Regions) : Nat := beNat ((r.fixed.drop 4).take 4)
def Regions.ssrc (r : Regions) : Nat := beNat ((r.fixed.drop 8).take 4)

/-- The regions form a well-formed packet. -/
structure Regions.WellFormed (r : Regions) : Prop where
  fixed : r.fixed.length = 12
  version : r.octet0 / 64 = 2
  /-- the CSRC list has as many 32-bit entries as the count field says -/
  csrc : r.csrc.length = 4 * (r.octet0 % 16)
  /-- without the X bit there is no extension -/
  noExt : r.octet0 / 16 % 2 = 0 → r.ext = []
  /-- with the X bit: 16 bits defined by profile, 16 bits of length, so many 32-bit words -/
  ext : r.octet0 / 16 % 2 = 1 → 4 ≤ r.ext.length ∧ r.ext.length = 4 + 4 * beNat ((r.ext.drop 2).take 2)
  /-- without the P bit there is no padding -/
  noPad : r.octet0 / 32 % 2 = 0 → r.padding = []
  /-- with the P bit the last octet is the non-zero length of the padding -/
  pad : r.octet0 / 32 % 2 = 1 → r.padding.length ≠ 0 ∧
    beNat (r.padding.drop (r.padding.length - 1)) = r.padding.length

/-- The packet as sent. -/
def Regions.wire (r : Regions) : List Byte := r.fixed ++ r.csrc ++ r.ext ++ r.payload ++ r.padding

/-- What a receiver should see of a packet received at offset `off` of a buffer. -/
def Regions.seen (r : Regions) (off : Nat) : Rtp where
  source := BitVec.ofNat 32 r.ssrc
  seqnum := BitVec.ofNat 16 r.seqnum
  timestamp := BitVec.ofNat 32 r.timestamp
  marker := decide (r.octet1 / 128 = 1)
  payloadType := BitVec.ofNat 32 (r.octet1 % 128)
  header := some ⟨off, r.fixed.length + r.csrc.length + r.ext.length⟩
  payload := some ⟨off + (r.fixed.length + r.csrc.length + r.ext.length), r.payload.length⟩
  padding := if r.padding = [] then none else
    some ⟨off + (r.fixed.length + r.csrc.length + r.ext.length + r.payload.length), r.padding.length⟩

end Verif.RtpCodec
