import Verif.RtcpParse.Model

/-!
# Builder of compound RTCP packets

Model of `src/internal_modules/roc_rtcp/builder.cpp`. The memory after the finished packets is the packet
under construction, so the builder is the bytes of finished packets and the bytes of the current one. `none` is
a panic. Structures given by the caller are their bytes.
-/

namespace Verif.RtcpBuild

open Verif.Bytes Verif.RtcpFields Verif.RtcpParse

/-- `rtcp::Config`, part used by the builder (config.h). (roc_rtcp/config.h:24-50) -/
structure Config where
  enableSrRr : Bool
  enableSdes : Bool
  enableXr : Bool

/-- `State` (builder.h:163-178). -/
inductive St where
  | top | srHead | srReport | rrHead | rrReport | xrHead | dlrrHead | dlrrReport | sdesHead | sdesChunk
  | byeHead | byeSsrc | byeReason | last
deriving DecidableEq

/-- Members of the builder (builder.h:180-194). -/
structure Bld where
  st : St
  /-- capacity of the slice -/
  cap : Nat
  /-- `result_slice_` -/
  done : Bytes
  /-- `cur_pkt_slice_` while a packet is built -/
  cur : Bytes
  /-- `cur_pkt_header_`, as offset from the beginning -/
  hdrOff : Option Nat
  /-- `cur_xr_block_header_`, as offset from the beginning of the packet -/
  xrOff : Nat
  srWritten : Bool
  rrWritten : Bool
  cnameWritten : Bool
  truncated : Bool

/-- Constructor (builder.cpp:15-30). -/
def init (cap : Nat) : Bld := ⟨.top, cap, [], [], none, 0, false, false, false, false⟩

/-- `is_ok` (builder.cpp:50-52). -/
def Bld.ok (s : Bld) : Bool := !s.truncated

/-- `begin_packet_` and the copy of the header (builder.cpp:461-479, 62-67). -/
def beginPacket (s : Bld) (m : Bytes) : Bld :=
  if s.truncated then s
  else if s.cap - s.done.length < m.length then { s with truncated := true, cur := [] }
  else { s with cur := m, hdrOff := some s.done.length }

/-- `add_block_` and the copy of the block (builder.cpp:481-492, 76-81). -/
def addBlock (s : Bld) (m : Bytes) : Bld :=
  if s.truncated then s
  else if s.cap - (s.done.length + s.cur.length) < m.length then { s with truncated := true }
  else { s with cur := s.cur ++ m }

/-- Change of the header of the current packet; nothing happens after truncation. (Part of the model of roc_rtcp/builder.h:41-178.) -/
def editHdr (s : Bld) (f : Bytes → Option Bytes) : Option Bld :=
  if s.truncated then some s else (f s.cur).map (fun c => { s with cur := c })

/-- `inc_counter` (headers.h:183-185). -/
def incCounter (m : Bytes) : Option Bytes := setCounter m (counter m + 1)

/-- Update of length and counter after a report (builder.cpp:83-84, 125-126). -/
def countReport (m : Bytes) : Option Bytes := (setLenBytes m m.length).bind incCounter

/-- `end_packet_` (builder.cpp:494-505). -/
def endPacket (s : Bld) : Option Bld :=
  if s.truncated then some s
  else if s.cur.length < 4 ∨ s.cur.length % 4 ≠ 0 then none
  else (setLenBytes s.cur s.cur.length).map (fun c => { s with done := s.done ++ c, cur := [] })

/-- `padding_len` (headers.h:66-69). -/
def paddingLen (size min : Nat) : Nat := min + (4 - (size + min) % 4) % 4

/-- Bytes of an SDES item (builder.cpp:200-206). -/
def itemBytes (type : Nat) (text : Bytes) : Bytes := BitVec.ofNat 8 type :: BitVec.ofNat 8 text.length :: text

/-- Bytes of a BYE reason (builder.cpp:287-295). -/
def reasonBytes (text : Bytes) : Bytes :=
  BitVec.ofNat 8 text.length :: text ++ List.replicate (paddingLen (1 + text.length) 0) 0

/-- Addition of an XR block of fixed size (builder.cpp:327-334, 382-390, 396-404, 410-418). -/
def addXrBlock (s : Bld) (m : Bytes) : Option Bld :=
  if s.st ≠ .xrHead then none
  else
    let s' := addBlock s m
    if s'.truncated then some s'
    else (setLenBytes m m.length).map (fun m' => { s' with cur := s.cur ++ m', xrOff := s.cur.length })

/-- Calls of the builder. (Part of the model of roc_rtcp/builder.h:41-178.) -/
inductive Call where
  | beginSr (m : Bytes) | srReport (m : Bytes) | endSr
  | beginRr (m : Bytes) | rrReport (m : Bytes) | endRr
  | beginSdes | beginChunk (ssrc : Nat) | item (type : Nat) (text : Bytes) | endChunk | endSdes
  | beginBye | byeSsrc (ssrc : Nat) | byeReason (text : Bytes) | endBye
  | beginXr (m : Bytes) | xrBlock (m : Bytes) | beginDlrr (m : Bytes) | dlrrReport (m : Bytes) | endDlrr | endXr
  | padding (n : Nat)

/-- First packet has to be SR or RR (builder.cpp:143-144, 238-239, 312-313). -/
def orderBad (c : Config) (s : Bld) : Bool := c.enableSrRr && !s.srWritten && !s.rrWritten

/-- `add_padding` (builder.cpp:429-459). -/
def addPadding (s : Bld) (n : Nat) : Option Bld :=
  if s.st ≠ .top then none
  else if n % 4 ≠ 0 ∨ n < 1 ∨ n > 255 then none
  else if s.truncated then some { s with st := .last }
  else match s.hdrOff with
    | none => none
    | some off =>
      let h := setPadding (s.done.drop off) true
      match setLenBytes h (lenBytes h + n) with
      | none => none
      | some h' =>
        let d := s.done.take off ++ h'
        if s.cap - d.length < n then some { s with st := .last, done := d, truncated := true }
        else some { s with st := .last, done := d ++ (List.replicate (n - 1) 0 ++ [BitVec.ofNat 8 n]) }

/-- `add_sdes_item` (builder.cpp:173-207). -/
def addItem (s : Bld) (type : Nat) (text : Bytes) : Option Bld :=
  if s.st ≠ .sdesChunk ∨ text.length > 255 then none
  else if type = 1 ∧ (text.length = 0 ∨ s.cnameWritten) then none
  else some (addBlock { s with cnameWritten := s.cnameWritten || type = 1 } (itemBytes type text))

/-- `end_xr_dlrr` (builder.cpp:364-376). -/
def endDlrr (s : Bld) : Option Bld :=
  if s.st ≠ .dlrrHead ∧ s.st ≠ .dlrrReport then none
  else if s.truncated then some { s with st := .xrHead }
  else (setLenBytes (s.cur.drop s.xrOff) (s.cur.length - s.xrOff)).map
    (fun m => { s with st := .xrHead, cur := s.cur.take s.xrOff ++ m })

/-- One call (builder.cpp:54-459). -/
def step (c : Config) (s : Bld) : Call → Option Bld
  | .beginSr m =>
    if s.st ≠ .top ∨ !c.enableSrRr then none
    else some (beginPacket { s with st := .srHead, srWritten := true } m)
  | .srReport m =>
    if s.st ≠ .srHead ∧ s.st ≠ .srReport then none
    else editHdr (addBlock { s with st := .srReport } m) countReport
  | .endSr => if s.st ≠ .srHead ∧ s.st ≠ .srReport then none else endPacket { s with st := .top }
  | .beginRr m =>
    if s.st ≠ .top ∨ !c.enableSrRr then none
    else some (beginPacket { s with st := .rrHead, rrWritten := true } m)
  | .rrReport m =>
    if s.st ≠ .rrHead ∧ s.st ≠ .rrReport then none
    else editHdr (addBlock { s with st := .rrReport } m) countReport
  | .endRr => if s.st ≠ .rrHead ∧ s.st ≠ .rrReport then none else endPacket { s with st := .top }
  | .beginSdes =>
    if s.st ≠ .top ∨ !c.enableSdes ∨ orderBad c s then none
    else some (beginPacket { s with st := .sdesHead } (resetHeader 202))
  | .beginChunk ssrc =>
    if s.st ≠ .sdesHead then none
    else editHdr (addBlock { s with st := .sdesChunk, cnameWritten := false } (toBe 4 ssrc)) incCounter
  | .item t x => addItem s t x
  | .endChunk =>
    if s.st ≠ .sdesChunk ∨ !s.cnameWritten then none
    else some (addBlock { s with st := .sdesHead } (List.replicate (paddingLen s.cur.length 1) 0))
  | .endSdes => if s.st ≠ .sdesHead then none else endPacket { s with st := .top }
  | .beginBye =>
    if s.st ≠ .top ∨ orderBad c s then none
    else some (beginPacket { s with st := .byeHead } (resetHeader 203))
  | .byeSsrc ssrc =>
    if s.st ≠ .byeHead ∧ s.st ≠ .byeSsrc then none
    else editHdr (addBlock { s with st := .byeSsrc } (toBe 4 ssrc)) incCounter
  | .byeReason x =>
    if s.st ≠ .byeSsrc ∨ x.length > 255 then none
    else some (addBlock { s with st := .byeReason } (reasonBytes x))
  | .endBye => if s.st ≠ .byeSsrc ∧ s.st ≠ .byeReason then none else endPacket { s with st := .top }
  | .beginXr m =>
    if s.st ≠ .top ∨ !c.enableXr ∨ orderBad c s then none
    else some (beginPacket { s with st := .xrHead } m)
  | .xrBlock m => addXrBlock s m
  | .beginDlrr m =>
    if s.st ≠ .xrHead then none
    else
      let s' := addBlock { s with st := .dlrrHead } m
      some { s' with xrOff := if s'.truncated then s'.xrOff else s.cur.length }
  | .dlrrReport m =>
    if s.st ≠ .dlrrHead ∧ s.st ≠ .dlrrReport then none
    else some (addBlock { s with st := .dlrrReport } m)
  | .endDlrr => endDlrr s
  | .endXr => if s.st ≠ .xrHead then none else endPacket { s with st := .top }
  | .padding n => addPadding s n

/-- Calls one after another. (Part of the model of roc_rtcp/builder.h:41-178.) -/
def run (c : Config) (s : Bld) (cs : List Call) : Option Bld := cs.foldlM (step c) s

/-- Destructor (builder.cpp:32-48); `none` is a panic. -/
def close (c : Config) (s : Bld) : Option Unit :=
  if s.st ≠ .top ∧ s.st ≠ .last then none
  else if !s.truncated ∧ s.done.length = 0 then none
  else if orderBad c s then none
  else if c.enableSdes ∧ !s.cnameWritten then none
  else some ()

/-- Calls one after another and the destruction of the builder. (Part of the model of roc_rtcp/builder.h:41-178.) -/
def build (c : Config) (cap : Nat) (cs : List Call) : Option Bld :=
  (run c (init cap) cs).bind (fun s => (close c s).map (fun _ => s))

end Verif.RtcpBuild
