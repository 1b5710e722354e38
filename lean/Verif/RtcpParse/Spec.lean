import Verif.RtcpParse.Model

/-! What property C25 means for compound packets. -/

namespace Verif.RtcpParse

open Verif.Bytes Verif.RtcpFields

/-- There is a whole packet with this header at this position. -/
structure PacketAt (b : Bytes) (p : Nat) (h : Header) : Prop where
  header : header? b p = some h
  version : h.version = 2
  fits : p + h.len ≤ b.length

/-- Following the length fields from one position leads to another. -/
inductive Walk (b : Bytes) : Nat → Nat → Prop where
  | refl (p : Nat) : Walk b p p
  | step {p q : Nat} {h : Header} : PacketAt b p h → Walk b (p + h.len) q → Walk b p q

/-- Packet type as a number (RFC 3550, RFC 3611). -/
def Kind.type : Kind → Nat
  | .sr => 200
  | .rr => 201
  | .sdes => 202
  | .bye => 203
  | .xr => 207

/-- A region is inside of another. -/
def Slice.Inside (s : Slice) (off len : Nat) : Prop := off ≤ s.off ∧ s.off + s.len ≤ off + len

/-- The visited packets are packets of the compound packet, in order, and what is given out is inside of the buffer. -/
structure Sound (b : Bytes) (vs : List Visit) : Prop where
  each : ∀ v ∈ vs, ∃ h, PacketAt b v.pos h ∧ Walk b 0 v.pos ∧ v.len = h.len ∧ h.type = v.kind.type ∧
    Slice.Inside (v.exposed b) 0 b.length
  order : vs.Pairwise (fun x y => x.pos + x.len ≤ y.pos)

/-- Without error every packet of known type was visited and the packets fill the buffer. -/
structure Complete (b : Bytes) (vs : List Visit) : Prop where
  filled : Walk b 0 b.length
  all : ∀ p h, Walk b 0 p → PacketAt b p h → (∃ k : Kind, h.type = k.type) → ∃ v ∈ vs, v.pos = p

end Verif.RtcpParse

/-! What property C25 means for the packets inside. -/

namespace Verif.RtcpParse

open Verif.Bytes Verif.RtcpFields

/-- The inner buffer is the packet without its padding. -/
def Trimmed (b inner : Bytes) : Prop :=
  ∃ h, header? b 0 = some h ∧ h.len ≤ b.length ∧
    ((h.padding = false ∧ inner = b) ∨
     (h.padding = true ∧ ∃ p, byte? b (h.len - 1) = some p ∧ 1 ≤ p ∧ inner.length + p = h.len ∧ inner = b.take inner.length))

/-- Regions are after the fixed part, inside of the buffer, ordered and not overlapping. -/
def Regions (inner : Bytes) (fixed : Nat) (rs : List Slice) : Prop :=
  (∀ r ∈ rs, fixed ≤ r.off ∧ r.off + r.len ≤ inner.length) ∧ rs.Pairwise (fun x y => x.off + x.len ≤ y.off)

/-- The element is a chunk. -/
def SdesEv.isChunk : SdesEv → Bool
  | .chunk _ => true
  | _ => false

/-- The element is a source. -/
def ByeEv.isSsrc : ByeEv → Bool
  | .ssrc _ => true
  | _ => false

/-- There is a whole XR block of this type and length at this position. -/
structure BlockAt (b : Bytes) (p t l : Nat) : Prop where
  type : byte? b p = some t
  len : ∃ w, word? b (p + 2) 2 = some w ∧ l = (w + 1) * 4
  fits : p + l ≤ b.length

/-- Following the lengths of blocks from one position leads to another. -/
inductive XWalk (b : Bytes) : Nat → Nat → Prop where
  | refl (p : Nat) : XWalk b p p
  | step {p q t l : Nat} : BlockAt b p t l → XWalk b (p + l) q → XWalk b p q

end Verif.RtcpParse
