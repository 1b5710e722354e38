import Verif.RtcpFields.Model

/-!
# Traversal of compound RTCP packets

Model of `src/internal_modules/roc_rtcp/traverser.cpp`, `sdes_traverser.cpp`, `bye_traverser.cpp` and
`xr_traverser.cpp`. A buffer is a list of bytes. Every read of the buffer is checked: `none` is a read outside of
the buffer (in the code, a panic of `core::Slice` or undefined behaviour). The inner traversers get a copy of
the bytes of their slice, so their positions count from the start of the packet, as in the code.
-/

namespace Verif.RtcpParse

open Verif.Bytes Verif.RtcpFields

/-- Contents of a buffer. (Part of the model of roc_rtcp/traverser.cpp:33-216.) -/
abbrev Bytes := List Byte

/-- Reading of one byte (slice.h:192-196). -/
def byte? (b : Bytes) (i : Nat) : Option Nat := (b[i]?).map (·.toNat)

/-- Reading of a big endian member of `n` bytes. (Part of the model of roc_rtcp/traverser.cpp:33-216.) -/
def word? (b : Bytes) (off n : Nat) : Option Nat := if off + n ≤ b.length then some (fld b off n) else none

/-- Reading of all fields of a packet header (headers.h:126-238). -/
def header? (b : Bytes) (pos : Nat) : Option Header :=
  if pos + 4 ≤ b.length then some (readHeader (rdAt b pos 4)) else none

/-! ## Compound packet -/

/-- Packet types that are known to the traverser (traverser.cpp:102-131). -/
inductive Kind where
  | sr | rr | sdes | bye | xr
deriving DecidableEq, Repr

/-- Packet visited by the iterator: position, length, and the slice given to the user. (Part of the model of roc_rtcp/traverser.cpp:33-216.) -/
structure Visit where
  kind : Kind
  pos : Nat
  len : Nat
  slice : Slice
deriving DecidableEq

/-- What one iteration of the loop in `next_packet_` does with the packet at `pos` (traverser.cpp:83-131). -/
inductive Look where
  /-- end of iteration with error -/
  | stop
  /-- packet is skipped, with error or without -/
  | skip (len : Nat) (err : Bool)
  | found (v : Visit)

/-- `remove_padding_` (traverser.cpp:138-148); the inner `none` is `false`. -/
def removePadding (b : Bytes) (pos : Nat) (h : Header) : Option (Option Slice) :=
  if h.padding then
    match byte? b (pos + (h.len - 1)) with
    | none => none
    | some p => if p < 1 ∨ p > h.len - 4 then some none
      else if h.len - p ≤ b.length then some (some ⟨0, h.len - p⟩) else none
  else some (some ⟨pos, h.len⟩)

/-- `check_sr_` and `check_rr_` after `remove_padding_` (traverser.cpp:103-118, 150-174); `size` is the size of
the fixed part. -/
def lookReport (b : Bytes) (pos : Nat) (h : Header) (kind : Kind) (size : Nat) : Option Look :=
  match removePadding b pos h with
  | none => none
  | some none => some (.skip h.len true)
  | some (some s) =>
    match byte? b s.off with
    | none => none
    | some c => if size + (c % 32) * 24 > s.len then some (.skip h.len true) else some (.found ⟨kind, pos, h.len, s⟩)

/-- One iteration of the loop (traverser.cpp:76-134). -/
def look (b : Bytes) (pos : Nat) : Option Look :=
  if pos + 4 > b.length then some .stop
  else match header? b pos with
    | none => none
    | some h =>
      if h.version ≠ 2 then some .stop
      else if pos + h.len > b.length then some .stop
      else if h.type = 200 then lookReport b pos h .sr 28
      else if h.type = 201 then lookReport b pos h .rr 8
      else if h.type = 202 then some (.found ⟨.sdes, pos, h.len, ⟨pos, h.len⟩⟩)
      else if h.type = 203 then some (.found ⟨.bye, pos, h.len, ⟨pos, h.len⟩⟩)
      else if h.type = 207 then some (.found ⟨.xr, pos, h.len, ⟨pos, h.len⟩⟩)
      else some (.skip h.len false)

/-- Loop of `next_packet_` (traverser.cpp:69-135): the packet found or END, and the error flag. A packet of
length zero would loop forever; it is `none` here and never happens. -/
def nextPacket (b : Bytes) (pos : Nat) (err : Bool) : Option (Option Visit × Bool) :=
  if hp : pos ≥ b.length then
    if pos = b.length then some (none, err) else some (none, true)
  else match look b pos with
    | none => none
    | some .stop => some (none, true)
    | some (.found v) => some (some v, err)
    | some (.skip len e) => if hl : 0 < len then nextPacket b (pos + len) (err || e) else none
termination_by b.length - pos

/-- The iterator: `none` before the first call (traverser.cpp:40-47). -/
structure Iter where
  cur : Option Visit
  ended : Bool
  err : Bool

/-- `iter` (traverser.cpp:33-47). -/
def iterInit : Iter := ⟨none, false, false⟩

/-- Position where the search for the next packet starts (traverser.cpp:63-66). -/
def Iter.from (it : Iter) : Nat :=
  match it.cur with
  | none => 0
  | some v => v.pos + v.len

/-- `next` (traverser.cpp:49-136). -/
def Iter.next (b : Bytes) (it : Iter) : Option Iter :=
  if it.ended then some it
  else match nextPacket b it.from it.err with
    | none => none
    | some (some v, e) => some ⟨some v, false, e⟩
    | some (none, e) => some ⟨it.cur, true, e⟩

/-- The usual loop `while (iter.next() != END)`: packets visited, in order, and `error()` at the end. `none` if
there is a read outside of the buffer or END is not reached in `n` calls. (Part of the model of roc_rtcp/traverser.cpp:33-216.) -/
def Iter.run (b : Bytes) : Nat → Iter → Option (List Visit × Bool)
  | 0, _ => none
  | n + 1, it =>
    match it.next b with
    | none => none
    | some it' =>
      if it'.ended then some ([], it'.err)
      else match it'.cur with
        | none => none
        | some v => (Iter.run b n it').map (fun r => (v :: r.1, r.2))

/-- Memory given out for a visited packet: `get_sr` and `get_rr` give the fixed part and as many blocks as the
counter at the start of the slice says, the others give the slice (traverser.cpp:176-216, headers.h:72-82). -/
def Visit.exposed (b : Bytes) (v : Visit) : Slice :=
  match v.kind with
  | .sr => ⟨v.slice.off, 28 + (fld b v.slice.off 1 % 32) * 24⟩
  | .rr => ⟨v.slice.off, 8 + (fld b v.slice.off 1 % 32) * 24⟩
  | _ => v.slice

/-! ## Common part of `parse` of the inner traversers -/

/-- `parse` of the inner traversers (sdes_traverser.cpp:23-56, bye_traverser.cpp:25-58, xr_traverser.cpp:22-46):
buffer without padding and counter, `some none` is `false`. The size of the fixed part is 4, 4 and 8; the check
of the counter against 31 can't fail. -/
def parseInner (b : Bytes) (type size : Nat) : Option (Option (Bytes × Nat)) :=
  if b.length < size then some none
  else match header? b 0 with
    | none => none
    | some h =>
      if h.type ≠ type then some none
      else if h.len > b.length then some none
      else if h.padding then
        match byte? b (h.len - 1) with
        | none => none
        | some p =>
          -- the subtraction is modulo 2^64: with a packet shorter than the fixed part it gives a huge number
          if p < 1 ∨ p > (h.len + 2 ^ 64 - size) % 2 ^ 64 then some none
          else if p ≤ h.len then some (some (b.take (h.len - p), h.counter)) else none
      else some (some (b, h.counter))

/-! ## SDES -/

/-- State of an SDES iterator (sdes_traverser.h). (roc_rtcp/sdes_traverser.h:25-74) -/
inductive SdesSt where
  | begin | chunk | item | fin
deriving DecidableEq, Repr

/-- SDES iterator (sdes_traverser.cpp:71-83). -/
structure SdesIt where
  st : SdesSt
  pos : Nat
  idx : Nat
  itemLen : Nat
  err : Bool
  ssrc : Nat
  type : Nat
  text : Bytes

/-- Constructor of the iterator (sdes_traverser.cpp:71-83). -/
def sdesInit : SdesIt := ⟨.begin, 0, 0, 0, false, 0, 0, []⟩

/-- Skipping of zeros (sdes_traverser.cpp:127-130). -/
def skipPad (size pos : Nat) : Nat :=
  if pos + 1 < size ∧ (pos + 1) % 4 ≠ 0 then skipPad size (pos + 1) else pos + 1
termination_by size - pos

/-- C string that was copied with a limit of 255 bytes (sdes_traverser.cpp:206-219, bye_traverser.cpp:181-193). -/
def cstr (b : Bytes) (off len : Nat) : Bytes :=
  (rdAt b off (min (min len (b.length - off)) 255)).takeWhile (· ≠ 0)

/-- Part of `next_element_` for a chunk (sdes_traverser.cpp:157-174, 200-204). -/
def sdesChunk (b : Bytes) (count : Nat) (it : SdesIt) : Option SdesIt :=
  if it.idx = count then some { it with st := .fin }
  else if it.pos + 4 > b.length then some { it with st := .fin, err := true }
  else match word? b it.pos 4 with
    | none => none
    | some v => some { it with st := .chunk, ssrc := v }

/-- Part of `next_element_` for an item (sdes_traverser.cpp:120-155, 206-219). -/
def sdesItem (b : Bytes) (count : Nat) (it : SdesIt) : Option SdesIt :=
  if it.pos = b.length then sdesChunk b count { it with idx := it.idx + 1 }
  else match byte? b it.pos with
    | none => none
    | some t =>
      if t = 0 then sdesChunk b count { it with pos := skipPad b.length it.pos, idx := it.idx + 1 }
      else if it.pos + 2 > b.length then some { it with st := .fin, err := true }
      else match byte? b (it.pos + 1) with
        | none => none
        | some n =>
          if it.pos + (2 + n) > b.length then some { it with st := .fin, err := true }
          else some { it with st := .item, itemLen := 2 + n, type := t, text := cstr b (it.pos + 2) n }

/-- `next` (sdes_traverser.cpp:85-177). -/
def SdesIt.next (b : Bytes) (count : Nat) (it : SdesIt) : Option SdesIt :=
  match it.st with
  | .fin => some it
  | .begin =>
    if it.pos + 4 > b.length then some { it with st := .fin, err := true }
    else sdesChunk b count { it with pos := it.pos + 4 }
  | .chunk => sdesItem b count { it with pos := it.pos + 4 }
  | .item => sdesItem b count { it with pos := it.pos + it.itemLen }

/-- Element given out by an iterator (sdes_traverser.cpp:179-198). -/
inductive SdesEv where
  | chunk (ssrc : Nat)
  | item (type : Nat) (text : Bytes)
deriving DecidableEq

/-- Element at the current position and its region (sdes_traverser.cpp:179-198). -/
def SdesIt.event (it : SdesIt) : Option (SdesEv × Slice) :=
  match it.st with
  | .chunk => some (.chunk it.ssrc, ⟨it.pos, 4⟩)
  | .item => some (.item it.type it.text, ⟨it.pos, it.itemLen⟩)
  | _ => none

/-- `while (iter.next() != END)`, as for compound packets. (roc_rtcp/sdes_traverser.h:25-74) -/
def SdesIt.run (b : Bytes) (count : Nat) : Nat → SdesIt → Option (List (SdesEv × Slice) × Bool)
  | 0, _ => none
  | n + 1, it =>
    match it.next b count with
    | none => none
    | some it' =>
      match it'.event with
      | none => some ([], it'.err)
      | some e => (SdesIt.run b count n it').map (fun r => (e :: r.1, r.2))

/-! ## BYE -/

/-- State of a BYE iterator (bye_traverser.h). (roc_rtcp/bye_traverser.h:25-72) -/
inductive ByeSt where
  | begin | ssrc | reason | fin
deriving DecidableEq, Repr

/-- BYE iterator (bye_traverser.cpp:73-82). -/
structure ByeIt where
  st : ByeSt
  pos : Nat
  idx : Nat
  err : Bool
  ssrc : Nat
  reasonLen : Nat
  reason : Bytes

/-- Constructor (bye_traverser.cpp:73-82). -/
def byeInit : ByeIt := ⟨.begin, 0, 0, false, 0, 0, []⟩

/-- Part of `next_element_` after the position is advanced (bye_traverser.cpp:116-152, 175-193). -/
def byeElem (b : Bytes) (count : Nat) (it : ByeIt) : Option ByeIt :=
  if it.idx = count then
    if it.pos < b.length then
      if it.pos + 1 > b.length then some { it with st := .fin, err := true }
      else match byte? b it.pos with
        | none => none
        | some n =>
          if it.pos + 1 + n > b.length then some { it with st := .fin, err := true }
          else some { it with st := .reason, reasonLen := 1 + n, reason := cstr b (it.pos + 1) n }
    else some { it with st := .fin }
  else if it.pos + 4 > b.length then some { it with st := .fin, err := true }
  else match word? b it.pos 4 with
    | none => none
    | some v => some { it with st := .ssrc, ssrc := v }

/-- `next` (bye_traverser.cpp:84-159). -/
def ByeIt.next (b : Bytes) (count : Nat) (it : ByeIt) : Option ByeIt :=
  match it.st with
  | .fin => some it
  | .begin =>
    if it.pos + 4 > b.length then some { it with st := .fin, err := true }
    else byeElem b count { it with pos := it.pos + 4 }
  | .ssrc => byeElem b count { it with idx := it.idx + 1, pos := it.pos + 4 }
  | .reason => some { it with st := .fin }

/-- Element given out by an iterator (bye_traverser.cpp:161-173). -/
inductive ByeEv where
  | ssrc (v : Nat)
  | reason (text : Bytes)
deriving DecidableEq

/-- Element at the current position and its region (bye_traverser.cpp:161-173). -/
def ByeIt.event (it : ByeIt) : Option (ByeEv × Slice) :=
  match it.st with
  | .ssrc => some (.ssrc it.ssrc, ⟨it.pos, 4⟩)
  | .reason => some (.reason it.reason, ⟨it.pos, it.reasonLen⟩)
  | _ => none

/-- `while (iter.next() != END)`. (roc_rtcp/bye_traverser.h:25-72) -/
def ByeIt.run (b : Bytes) (count : Nat) : Nat → ByeIt → Option (List (ByeEv × Slice) × Bool)
  | 0, _ => none
  | n + 1, it =>
    match it.next b count with
    | none => none
    | some it' =>
      match it'.event with
      | none => some ([], it'.err)
      | some e => (ByeIt.run b count n it').map (fun r => (e :: r.1, r.2))

/-! ## XR -/

/-- Known blocks of an XR packet (xr_traverser.cpp:143-187). -/
inductive XrKind where
  | rrtr | dlrr | measurement | delay | queue
deriving DecidableEq, Repr

/-- Block visited by the iterator. (roc_rtcp/xr_traverser.cpp:22-235) -/
structure XrVisit where
  kind : XrKind
  pos : Nat
  len : Nat
deriving DecidableEq

/-- Size of the structure of a block; for DLRR with as many subblocks as the length field says
(headers.h:1174-1756, 1322-1325). -/
def XrVisit.size (v : XrVisit) : Nat :=
  match v.kind with
  | .rrtr => 12
  | .dlrr => 4 + (v.len - 4) / 12 * 12
  | .measurement => 32
  | .delay => 28
  | .queue => 16

/-- Checks of a block (xr_traverser.cpp:194-235). -/
def XrVisit.check (v : XrVisit) : Bool :=
  match v.kind with
  | .queue => v.len = v.size
  | _ => v.len ≥ v.size

/-- Block types (headers.h:1075-1085, xr_traverser.cpp:143-187). -/
def xrKind (type : Nat) : Option XrKind :=
  if type = 4 then some .rrtr
  else if type = 5 then some .dlrr
  else if type = 14 then some .measurement
  else if type = 16 then some .delay
  else if type = 220 then some .queue
  else none

/-- What one iteration of the loop does with the block at `pos`. (roc_rtcp/xr_traverser.cpp:22-235) -/
inductive XrLook where
  | stop
  | skip (len : Nat) (err : Bool)
  | found (v : XrVisit)

/-- One iteration of the loop (xr_traverser.cpp:125-190). -/
def xrLook (b : Bytes) (pos : Nat) : Option XrLook :=
  if pos + 4 > b.length then some .stop
  else match byte? b pos, word? b (pos + 2) 2 with
    | some t, some l =>
      if pos + (l + 1) * 4 > b.length then some .stop
      else match xrKind t with
        | none => some (.skip ((l + 1) * 4) false)
        | some k => if (XrVisit.mk k pos ((l + 1) * 4)).check then some (.found ⟨k, pos, (l + 1) * 4⟩)
          else some (.skip ((l + 1) * 4) true)
    | _, _ => none

/-- Loop of `next_block_` (xr_traverser.cpp:118-191). -/
def nextBlock (b : Bytes) (pos : Nat) (err : Bool) : Option (Option XrVisit × Bool) :=
  if hp : pos ≥ b.length then
    if pos = b.length then some (none, err) else some (none, true)
  else match xrLook b pos with
    | none => none
    | some .stop => some (none, true)
    | some (.found v) => some (some v, err)
    | some (.skip len e) => if hl : 0 < len then nextBlock b (pos + len) (err || e) else none
termination_by b.length - pos

/-- XR iterator (xr_traverser.cpp:78-85). -/
structure XrIt where
  cur : Option XrVisit
  ended : Bool
  err : Bool

/-- Constructor (xr_traverser.cpp:78-85). -/
def xrInit : XrIt := ⟨none, false, false⟩

/-- `next` (xr_traverser.cpp:87-192). -/
def XrIt.next (b : Bytes) (it : XrIt) : Option XrIt :=
  if it.ended then some it
  else match it.cur with
    | none => if 8 > b.length then some ⟨none, true, true⟩
      else match nextBlock b 8 it.err with
        | none => none
        | some (some v, e) => some ⟨some v, false, e⟩
        | some (none, e) => some ⟨none, true, e⟩
    | some w => match nextBlock b (w.pos + w.len) it.err with
        | none => none
        | some (some v, e) => some ⟨some v, false, e⟩
        | some (none, e) => some ⟨some w, true, e⟩

/-- `while (iter.next() != END)`, also the loop that counts blocks (xr_traverser.cpp:50-53). -/
def XrIt.run (b : Bytes) : Nat → XrIt → Option (List XrVisit × Bool)
  | 0, _ => none
  | n + 1, it =>
    match it.next b with
    | none => none
    | some it' =>
      if it'.ended then some ([], it'.err)
      else match it'.cur with
        | none => none
        | some v => (XrIt.run b n it').map (fun r => (v :: r.1, r.2))

end Verif.RtcpParse
