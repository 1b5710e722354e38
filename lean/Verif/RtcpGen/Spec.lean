import Verif.RtcpGen.Model

/-! What properties C28 and C29 mean. -/

namespace Verif.RtcpGen

open Verif.Bytes Verif.RtcpFields Verif.RtcpParse Verif.RtcpBuild

/-- The reporter fills structures of the right size, and its CNAME is a C string of 1 to 255 bytes. -/
structure RepOk (r : Rep) : Prop where
  ssrc : r.ssrc < 2 ^ 32
  cname : r.cname ≠ [] ∧ TextOk r.cname
  sr : r.sr.length = 24
  rr : r.rr.length = 4
  xr : r.xr.length = 4
  rrtr : r.rrtr.length = 8
  reception : ∀ d i, (r.reception d i).length = 24
  dlrr : ∀ d i, (r.dlrr d i).length = 12
  measurement : ∀ d i, (r.measurement d i).2.length = 28
  delay : ∀ d i, (r.delay d i).2.length = 24
  queue : ∀ d i, (r.queue d i).2.length = 12

/-! ## What a remote peer reads -/

/-- Reception blocks of a packet. -/
def receptionOf : Pkt → List Bytes
  | .sr _ rs => rs
  | .rr _ rs => rs
  | _ => []

/-- XR blocks of a packet. -/
def blocksOf : Pkt → List XBlock
  | .xr _ bs => bs
  | _ => []

/-- Subblocks of DLRR blocks of a packet. -/
def dlrrOf (p : Pkt) : List Bytes := (blocksOf p).flatMap (fun b => if b.kind = .dlrr then b.parts else [])

/-- XR blocks of one kind. -/
def kindOf (k : XrKind) (p : Pkt) : List (Byte × Bytes) :=
  (blocksOf p).flatMap (fun b => if b.kind = k then [(b.spec, b.parts.flatten)] else [])

/-- Parts of all packets sent to destination `d`, in order, as read by the traversers; `none` if a packet can't be read. -/
def content {α : Type} (f : Pkt → List α) (l : List (Nat × Bytes)) (d : Nat) : Option (List α) :=
  ((l.filter (fun x => x.1 = d)).mapM (fun x => readAll x.2)).map (fun pss => pss.flatten.flatMap f)

/-- Number of local streams to be reported to destination `d` about receiving. -/
def recvOf (r : Rep) (d : Nat) : Nat := if r.isReceiving then r.numRecv d else 0

/-- Number of local streams to be reported to destination `d` about sending. -/
def sendOf (r : Rep) (d : Nat) : Nat := if r.isSending then r.numSend d else 0

/-- Every destination gets packets, and the packets report every stream exactly once, in order. -/
structure Covered (r : Rep) (l : List (Nat × Bytes)) : Prop where
  dest : ∀ d, (∃ b, (d, b) ∈ l) ↔ d < r.numDest
  reception : ∀ d, d < r.numDest → content receptionOf l d = some ((List.range (recvOf r d)).map (r.reception d))
  dlrr : ∀ d, d < r.numDest → content dlrrOf l d = some ((List.range (sendOf r d)).map (r.dlrr d))
  measurement : ∀ d, d < r.numDest → content (kindOf .measurement) l d = some ((List.range (recvOf r d)).map (r.measurement d))
  delay : ∀ d, d < r.numDest → content (kindOf .delay) l d = some ((List.range (recvOf r d)).map (r.delay d))
  queue : ∀ d, d < r.numDest → content (kindOf .queue) l d = some ((List.range (recvOf r d)).map (r.queue d))

/-- Some iterations of the loop are enough. -/
def Terminates (cfg : Config) (cap : Nat) (r : Rep) (type : PacketType) (s : St) : Prop := ∃ n, generate cfg cap r type n s ≠ none

/-! ## Deadlines -/

/-- Calls that use the deadline. -/
inductive DCall where
  | deadline (now : Int)
  | reports (now : Int)

/-- Time of a call. -/
def DCall.now : DCall → Int
  | .deadline t => t
  | .reports t => t

/-- Member after a call. -/
def dstep (interval next : Int) : DCall → Int
  | .deadline t => generationDeadline next t
  | .reports t => (generateReports interval next t).1

/-- Member after a history of calls. -/
def drun (interval : Int) (h : List DCall) : Int := h.foldl (dstep interval) 0

end Verif.RtcpGen
