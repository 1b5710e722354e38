import Verif.RtcpBuild.Model

/-! What property C26 means: packets as the user of the builder sees them, the calls that make them, and a reader that
uses the traversers only. -/

namespace Verif.RtcpBuild

open Verif.Bytes Verif.RtcpFields Verif.RtcpParse

/-- SDES chunk: source and items (type and text). -/
structure Chunk where
  ssrc : Nat
  items : List (Nat × Bytes)
deriving DecidableEq

/-- XR block: its type, the type specific byte, and the bytes after the header; a DLRR block has a list of subblocks. -/
structure XBlock where
  kind : XrKind
  spec : Byte
  parts : List Bytes
deriving DecidableEq

/-- Packet inside of a compound packet. Fields of reports are given by their bytes. -/
inductive Pkt where
  | sr (body : Bytes) (reports : List Bytes)
  | rr (body : Bytes) (reports : List Bytes)
  | sdes (chunks : List Chunk)
  | bye (ssrcs : List Nat) (reason : Option Bytes)
  | xr (body : Bytes) (blocks : List XBlock)
deriving DecidableEq

/-- Compound packet; `pad` is the size of padding or zero. -/
structure Compound where
  pkts : List Pkt
  pad : Nat

/-- XR block types (RFC 3611, RFC 6776, RFC 6843). -/
def xrType : XrKind → Nat
  | .rrtr => 4
  | .dlrr => 5
  | .measurement => 14
  | .delay => 16
  | .queue => 220

/-- Size of the bytes after the header of a block of fixed size. -/
def xrBody : XrKind → Nat
  | .rrtr => 8
  | .dlrr => 0
  | .measurement => 28
  | .delay => 24
  | .queue => 12

/-- Header of a new XR block: type, type specific byte, zero length. -/
def xrHead (b : XBlock) : Bytes := [BitVec.ofNat 8 (xrType b.kind), b.spec, 0, 0]

/-- Calls that add a chunk. -/
def Chunk.calls (c : Chunk) : List Call := .beginChunk c.ssrc :: c.items.map (fun i => .item i.1 i.2) ++ [.endChunk]

/-- Calls that add an XR block. -/
def XBlock.calls (b : XBlock) : List Call :=
  if b.kind = .dlrr then .beginDlrr (xrHead b) :: b.parts.map .dlrrReport ++ [.endDlrr]
  else [.xrBlock (xrHead b ++ b.parts.flatten)]

/-- Calls that add a reason. -/
def reasonCalls : Option Bytes → List Call
  | none => []
  | some x => [.byeReason x]

/-- Calls that add a packet. -/
def Pkt.calls : Pkt → List Call
  | .sr body rs => .beginSr (resetHeader 200 ++ body) :: rs.map .srReport ++ [.endSr]
  | .rr body rs => .beginRr (resetHeader 201 ++ body) :: rs.map .rrReport ++ [.endRr]
  | .sdes cs => .beginSdes :: cs.flatMap Chunk.calls ++ [.endSdes]
  | .bye ss r => .beginBye :: ss.map .byeSsrc ++ reasonCalls r ++ [.endBye]
  | .xr body bs => .beginXr (resetHeader 207 ++ body) :: bs.flatMap XBlock.calls ++ [.endXr]

/-- Calls that make a compound packet. -/
def Compound.calls (c : Compound) : List Call := c.pkts.flatMap Pkt.calls ++ (if c.pad = 0 then [] else [.padding c.pad])

/-- SDES item type of CNAME. -/
abbrev cname : Nat := 1

/-- Rules for a text: it is a C string of at most 255 bytes. -/
def TextOk (t : Bytes) : Prop := t.length ≤ 255 ∧ ∀ x ∈ t, x ≠ 0

/-- Rules for a chunk. -/
structure ChunkOk (c : Chunk) : Prop where
  ssrc : c.ssrc < 2 ^ 32
  items : ∀ i ∈ c.items, 0 < i.1 ∧ i.1 < 256 ∧ TextOk i.2
  cnameText : ∀ i ∈ c.items, i.1 = cname → i.2 ≠ []
  cnameOnce : c.items.countP (fun i => i.1 = cname) = 1

/-- Rules for an XR block. -/
structure BlockOk (b : XBlock) : Prop where
  dlrr : b.kind = .dlrr → ∀ p ∈ b.parts, p.length = 12
  fixed : b.kind ≠ .dlrr → ∃ p, b.parts = [p] ∧ p.length = xrBody b.kind

/-- Size of a chunk, with zeros up to a multiple of four, at least one. -/
def Chunk.size (c : Chunk) : Nat := (4 + (c.items.map (fun i => 2 + i.2.length)).sum) / 4 * 4 + 4

/-- Size of an XR block. -/
def XBlock.size (b : XBlock) : Nat := 4 + (b.parts.map (·.length)).sum

/-- Size of a reason, with its length byte, rounded up to a multiple of four. -/
def reasonSize : Option Bytes → Nat
  | none => 0
  | some x => (1 + x.length + 3) / 4 * 4

/-- Size of a packet. -/
def Pkt.size : Pkt → Nat
  | .sr _ rs => 28 + 24 * rs.length
  | .rr _ rs => 8 + 24 * rs.length
  | .sdes cs => 4 + (cs.map Chunk.size).sum
  | .bye ss r => 4 + 4 * ss.length + reasonSize r
  | .xr _ bs => 8 + (bs.map XBlock.size).sum

/-- Size of a compound packet. -/
def Compound.size (c : Compound) : Nat := (c.pkts.map Pkt.size).sum + c.pad

/-- Rules for a packet (builder.h:28-34, headers.h). -/
def PktOk : Pkt → Prop
  | .sr body rs => body.length = 24 ∧ rs.length ≤ 31 ∧ ∀ r ∈ rs, r.length = 24
  | .rr body rs => body.length = 4 ∧ rs.length ≤ 31 ∧ ∀ r ∈ rs, r.length = 24
  | .sdes cs => cs.length ≤ 31 ∧ (∀ c ∈ cs, ChunkOk c)
  | .bye ss r => 1 ≤ ss.length ∧ ss.length ≤ 31 ∧ (∀ s ∈ ss, s < 2 ^ 32) ∧ (∀ x, r = some x → TextOk x)
  | .xr body bs => body.length = 4 ∧ (∀ b ∈ bs, BlockOk b)

/-- SR or RR. -/
def Pkt.isReport : Pkt → Bool
  | .sr .. => true
  | .rr .. => true
  | _ => false

/-- SDES. -/
def Pkt.isSdes : Pkt → Bool
  | .sdes _ => true
  | _ => false

/-- XR. -/
def Pkt.isXr : Pkt → Bool
  | .xr .. => true
  | _ => false

/-- Has an SDES chunk. -/
def Pkt.hasChunk : Pkt → Bool
  | .sdes cs => !cs.isEmpty
  | _ => false

/-- Rules for a compound packet (builder.h:28-40). -/
structure Legal (cfg : Config) (c : Compound) : Prop where
  nonempty : c.pkts ≠ []
  pkts : ∀ p ∈ c.pkts, PktOk p
  size : ∀ p ∈ c.pkts, p.size ≤ 65535
  reports : cfg.enableSrRr = true → ∃ p ps, c.pkts = p :: ps ∧ p.isReport = true
  noReports : cfg.enableSrRr = false → ∀ p ∈ c.pkts, p.isReport = false
  sdes : cfg.enableSdes = true → ∃ p ∈ c.pkts, p.hasChunk = true
  noSdes : cfg.enableSdes = false → ∀ p ∈ c.pkts, p.isSdes = false
  noXr : cfg.enableXr = false → ∀ p ∈ c.pkts, p.isXr = false
  pad : c.pad % 4 = 0 ∧ c.pad ≤ 255
  padSize : ∀ p, c.pkts.getLast? = some p → p.size + c.pad ≤ 65535

/-! ## Reader -/

/-- Bytes of items of equal size. -/
def split (b : Bytes) (off size n : Nat) : List Bytes := (List.range n).map (fun i => rdAt b (off + size * i) size)

/-- Items before the first chunk, and chunks. -/
def groupFrom : List SdesEv → List (Nat × Bytes) × List Chunk
  | [] => ([], [])
  | .item t x :: es => ((t, x) :: (groupFrom es).1, (groupFrom es).2)
  | .chunk s :: es => ([], ⟨s, (groupFrom es).1⟩ :: (groupFrom es).2)

/-- Chunks from the elements of an SDES iterator; `none` if an item comes before the first chunk. -/
def group (es : List SdesEv) : Option (List Chunk) := if (groupFrom es).1 = [] then some (groupFrom es).2 else none

/-- Source given by an element of a BYE iterator. -/
def ssrcOf : ByeEv → Option Nat
  | .ssrc s => some s
  | .reason _ => none

/-- Reason among the elements of a BYE iterator. -/
def reasonOf : List ByeEv → Option Bytes
  | [] => none
  | .reason x :: _ => some x
  | .ssrc _ :: es => reasonOf es

/-- XR block as read by a user. -/
def readBlock (b : Bytes) (v : XrVisit) : XBlock :=
  ⟨v.kind, BitVec.ofNat 8 (fld b (v.pos + 1) 1),
   if v.kind = .dlrr then split b (v.pos + 4) 12 ((v.len - 4) / 12) else [rdAt b (v.pos + 4) (v.size - 4)]⟩

/-- Packet as read by a user from a visit of the compound iterator; `none` if something is rejected or an
iterator reports an error. -/
def readPkt (b : Bytes) (v : Visit) : Option Pkt :=
  let sub := rdAt b v.slice.off v.slice.len
  match v.kind with
  | .sr => some (.sr (rdAt b (v.slice.off + 4) 24) (split b (v.slice.off + 28) 24 (fld b v.slice.off 1 % 32)))
  | .rr => some (.rr (rdAt b (v.slice.off + 4) 4) (split b (v.slice.off + 8) 24 (fld b v.slice.off 1 % 32)))
  | .sdes =>
    match parseInner sub 202 4 with
    | some (some (inner, count)) =>
      match sdesInit.run inner count (inner.length / 2 + 1) with
      | some (evs, false) => (group (evs.map (·.1))).map .sdes
      | _ => none
    | _ => none
  | .bye =>
    match parseInner sub 203 4 with
    | some (some (inner, count)) =>
      match byeInit.run inner count inner.length with
      | some (evs, false) =>
        some (.bye ((evs.map (·.1)).filterMap ssrcOf) (reasonOf (evs.map (·.1))))
      | _ => none
    | _ => none
  | .xr =>
    match parseInner sub 207 8 with
    | some (some (inner, _)) =>
      match xrInit.run inner (inner.length / 4 + 1) with
      | some (vs, false) => some (.xr (rdAt inner 4 4) (vs.map (readBlock inner)))
      | _ => none
    | _ => none

/-- All packets of a compound packet as read by a user. -/
def readAll (b : Bytes) : Option (List Pkt) :=
  match iterInit.run b (b.length / 4 + 1) with
  | some (vs, false) => vs.mapM (readPkt b)
  | _ => none

end Verif.RtcpBuild
