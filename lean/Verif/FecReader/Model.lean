/-!
# FEC reader

Model of `src/internal_modules/roc_fec/reader.cpp`. Simplifications:

- the block decoder is a black box: what a repair attempt gives is an argument of every call; the checks which
  `OpenfecDecoder` makes on its arguments (openfec_decoder.cpp `begin`, `set`) are part of the model;
- the two sorted queues are lists where every packet is inserted at an arbitrary place, which covers any comparison function;
- the upstream readers return OK or NoData; log messages and the packet counter are omitted;
- a ghost number `blk` counts blocks without wrapping.
-/

namespace Verif.FecReader

/-- FEC fields of a received packet (roc_packet/fec.h), a tag which identifies it and the size of its payload.
`scheme` tells if the FEC scheme is the one of the session. (roc_packet/fec.h:35-81) -/
structure Fec where
  tag : Nat
  scheme : Bool
  sbn : Nat
  esi : Nat
  sblen : Nat
  blen : Nat
  pay : Nat
deriving DecidableEq

/-- A packet: received, or made from what the decoder restored for a position of a block (reader.cpp:259-275). The latter has no
FEC fields, because the parser given by receiver_session.cpp:112 is an RTP parser without an inner parser. -/
inductive Pkt where
  | recv (f : Fec)
  | rest (tag blk pos : Nat)
deriving DecidableEq

/-- Ways to abort. (Part of the model of roc_fec/reader.cpp:18-790.) -/
inductive Fault where
  /-- Index out of bounds (array.h `operator[]`). -/
  | index
  /-- "should not happen" checks in `fill_source_block_` and `fill_repair_block_` (reader.cpp:353, 367-368, 421, 435-438). -/
  | unexpected
  /-- Check in `update_repair_block_size_` (reader.cpp:725-730). -/
  | zeroLen
  /-- Packet without FEC fields is used as if it had them (reader.cpp:227). -/
  | nullFec
  /-- Decoder started with more packets than it supports (openfec_decoder.cpp `reset_session_`). -/
  | overMax
  /-- Decoder is given a payload of another size (openfec_decoder.cpp `set`). -/
  | paySize
  /-- Endless loop. -/
  | hang
deriving DecidableEq

/-- Members (reader.h:105-140). -/
structure St where
  srcQ : List Fec
  repQ : List Fec
  src : List (Option Pkt)
  rep : List (Option Fec)
  alive : Bool
  started : Bool
  canRepair : Bool
  nxt : Nat
  sbn : Nat
  blk : Nat
  pay : Nat
  srcRes : Bool
  repRes : Bool
  payRes : Bool

/-- Constructor (reader.cpp:18-49). -/
def St.init : St := ⟨[], [], [], [], true, false, false, 0, 0, 0, 0, false, false, false⟩

/-- Configuration, and what the outside does during a call: memory for arrays, result of the decoder for a block (`none` if `begin`
fails, otherwise the packets it restores). (Part of the model of roc_fec/reader.cpp:18-790.) -/
structure Env where
  maxLen : Nat
  maxJump : Nat
  alloc : Nat → Bool
  dec : Nat → Option (Nat → Option Nat)

/-- `blknum_diff` (units.h:130-150): signed 16 bit difference. -/
def diff (a b : Nat) : Int := (((a : Int) - b + 32768) % 65536) - 32768

/-- `Array::resize` (array.h). (roc_core/array.h:183-202) -/
def resize {α : Type} (l : List (Option α)) (n : Nat) : List (Option α) := l.take n ++ List.replicate (n - l.length) none

/-- `validate_incoming_source_packet_` (reader.cpp:556-578). -/
def validSource (f : Fec) : Bool :=
  decide (f.esi < f.sblen) && decide (f.sblen ≠ 0) && (decide (f.blen = 0) || decide (f.sblen ≤ f.blen)) && decide (f.pay ≠ 0)

/-- `validate_incoming_repair_packet_` (reader.cpp:580-606). -/
def validRepair (f : Fec) : Bool :=
  decide (f.esi ≥ f.sblen) && decide (f.sblen ≠ 0) && (decide (f.blen = 0) || (decide (f.esi < f.blen) && decide (f.sblen ≤ f.blen))) && decide (f.pay ≠ 0)

/-- `can_update_payload_size_` (reader.cpp:608-623). -/
def canPay (s : St) (n : Nat) : Bool := decide (s.pay = n) || !s.payRes

/-- `update_payload_size_` (reader.cpp:625-640). -/
def updPay (s : St) (n : Nat) : St := { s with pay := n, payRes := true }

/-- `can_update_source_block_size_` (reader.cpp:642-668). -/
def canSrc (e : Env) (s : St) (n : Nat) : Bool × St :=
  if s.src.length = n then (true, s)
  else if s.srcRes then (false, s)
  else if n > e.maxLen then (false, { s with alive := false })
  else (true, s)

/-- `update_source_block_size_` (reader.cpp:670-695). -/
def updSrc (e : Env) (s : St) (n : Nat) : Bool × St :=
  if s.src.length = n then (true, { s with srcRes := true })
  else if !e.alloc n then (false, { s with alive := false })
  else (true, { s with src := resize s.src n, srcRes := true })

/-- `can_update_repair_block_size_` (reader.cpp:697-723). -/
def canRep (e : Env) (s : St) (n : Nat) : Bool × St :=
  if s.src.length + s.rep.length = n then (true, s)
  else if s.repRes then (false, s)
  else if n > e.maxLen then (false, { s with alive := false })
  else (true, s)

/-- `update_repair_block_size_` (reader.cpp:725-757). -/
def updRep (e : Env) (s : St) (n : Nat) : Except Fault (Bool × St) :=
  if s.src.length + s.rep.length = n then .ok (true, { s with repRes := true })
  else if ¬ n > s.src.length then .error .zeroLen
  else if !e.alloc (n - s.src.length) then .ok (false, { s with alive := false })
  else .ok (true, { s with rep := resize s.rep (n - s.src.length), repRes := true })

/-- `process_source_packet_` (reader.cpp:455-479). -/
def procSource (e : Env) (s : St) (f : Fec) : Bool × St :=
  if !validSource f then (false, s)
  else if !canPay s f.pay then (false, s)
  else if !(canSrc e s f.sblen).1 then (false, (canSrc e s f.sblen).2)
  else updSrc e (updPay s f.pay) f.sblen

/-- `process_repair_packet_` (reader.cpp:481-513). -/
def procRepair (e : Env) (s : St) (f : Fec) : Except Fault (Bool × St) :=
  if !validRepair f then .ok (false, s)
  else if !canPay s f.pay then .ok (false, s)
  else if !(canSrc e s f.sblen).1 then .ok (false, (canSrc e s f.sblen).2)
  else if !(canRep e s f.blen).1 then .ok (false, (canRep e s f.blen).2)
  else if !(updSrc e (updPay s f.pay) f.sblen).1 then .ok (false, (updSrc e (updPay s f.pay) f.sblen).2)
  else updRep e (updSrc e (updPay s f.pay) f.sblen).2 f.blen

/-- `validate_sbn_sequence_` (reader.cpp:534-554). -/
def validSbn (e : Env) (s : St) (f : Fec) : Bool :=
  decide ((diff f.sbn s.sbn).natAbs ≤ e.maxJump) && decide (diff f.sbn s.sbn ≠ -32768)

/-- The end of the loop body of `fill_source_block_` (reader.cpp:366-376). -/
def placeSource (s : St) (f : Fec) : Except Fault St :=
  if ¬ (f.sblen = s.src.length ∧ f.esi < s.src.length) then .error .unexpected
  else if s.src[f.esi]? = some none then .ok { s with canRepair := true, src := s.src.set f.esi (some (.recv f)) }
  else .ok s

/-- The end of the loop body of `fill_repair_block_` (reader.cpp:434-446). -/
def placeRepair (s : St) (f : Fec) : Except Fault St :=
  if ¬ (f.sblen = s.src.length ∧ f.esi ≥ s.src.length ∧ f.esi < s.src.length + s.rep.length) then .error .unexpected
  else if s.rep[f.esi - f.sblen]? = some none then .ok { s with canRepair := true, rep := s.rep.set (f.esi - f.sblen) (some f) }
  else .ok s

/-- A source packet taken from the queue by `fill_source_block_` (reader.cpp:342-376). -/
def takeSource (e : Env) (s : St) (f : Fec) : Except Fault St :=
  if diff f.sbn s.sbn < 0 then .ok s
  else if f.sbn ≠ s.sbn then .error .unexpected
  else if !(procSource e s f).1 then .ok (procSource e s f).2
  else placeSource (procSource e s f).2 f

/-- A repair packet taken from the queue by `fill_repair_block_` (reader.cpp:411-446). -/
def takeRepair (e : Env) (s : St) (f : Fec) : Except Fault St :=
  if diff f.sbn s.sbn < 0 then .ok s
  else if f.sbn ≠ s.sbn then .error .unexpected
  else (procRepair e s f).bind fun r => if !r.1 then .ok r.2 else placeRepair r.2 f

/-- `fill_source_block_` (reader.cpp:316-383), `q` is the queue. -/
def fillSource (e : Env) : List Fec → St → Except Fault St
  | [], s => .ok { s with srcQ := [] }
  | f :: q, s =>
    if !validSbn e s f then .ok { s with srcQ := f :: q, alive := false }
    else if ¬ diff f.sbn s.sbn ≤ 0 then .ok { s with srcQ := f :: q }
    else (takeSource e s f).bind (fillSource e q)

/-- `fill_repair_block_` (reader.cpp:385-453), `q` is the queue. -/
def fillRepair (e : Env) : List Fec → St → Except Fault St
  | [], s => .ok { s with repQ := [] }
  | f :: q, s =>
    if !validSbn e s f then .ok { s with repQ := f :: q, alive := false }
    else if ¬ diff f.sbn s.sbn ≤ 0 then .ok { s with repQ := f :: q }
    else (takeRepair e s f).bind (fillRepair e q)

/-- `fill_block_` (reader.cpp:311-314). -/
def fill (e : Env) (s : St) : Except Fault St := (fillSource e s.srcQ s).bind fun s => fillRepair e s.repQ s

/-- `next_block_` (reader.cpp:181-202). -/
def nextBlock (e : Env) (s : St) : Except Fault St :=
  fill e { s with src := s.src.map (fun _ => none), rep := s.rep.map (fun _ => none), sbn := (s.sbn + 1) % 65536, blk := s.blk + 1, nxt := 0, srcRes := false, repRes := false, payRes := false, canRepair := false }

/-- The packet has no FEC fields. (Part of the model of roc_fec/reader.cpp:18-790.) -/
def isRest : Option Pkt → Bool
  | some (.rest _ _ _) => true
  | _ => false

/-- The packet is received and its payload has another size than expected. (openfec_decoder.cpp `set`) (Part of the model of roc_fec/reader.cpp:18-790.) -/
def badPay (n : Nat) : Option Pkt → Bool
  | some (.recv f) => f.pay ≠ n
  | _ => false

/-- A position of the block after repair (reader.cpp:237-253). -/
def restore (g : Nat → Option Nat) (blk n : Nat) : Option Pkt → Option Pkt
  | some p => some p
  | none => (g n).map (fun t => .rest t blk n)

/-- The repair itself (reader.cpp:213-256). -/
def repairBlock (e : Env) (s : St) (g : Nat → Option Nat) : Except Fault St :=
  if s.src.length + s.rep.length > e.maxLen then .error .overMax
  else if s.src.any isRest then .error .nullFec
  else if s.src.any (badPay s.pay) || s.rep.any (fun o => badPay s.pay (o.map .recv)) then .error .paySize
  else .ok { s with src := s.src.mapIdx (restore g s.blk), canRepair := false }

/-- `try_repair_` (reader.cpp:204-257). -/
def tryRepair (e : Env) (s : St) : Except Fault St :=
  if !s.canRepair then .ok s
  else if !(s.srcRes && s.repRes && s.payRes) then .ok s
  else match e.dec s.blk with
    | none => .ok { s with alive := false }
    | some g => repairBlock e s g

/-- First packet of a list, and its index (reader.cpp:151-156). -/
def findPos : List (Option Pkt) → Nat → Option (Nat × Pkt)
  | [], _ => none
  | some p :: _, i => some (i, p)
  | none :: l, i => findPos l (i + 1)

/-- Result of a call: state, and the returned packet, with its block and position if decoding was started (ghost; reader.cpp:63-82). -/
abbrev Res := Except Fault (St × Option (Option (Nat × Nat) × Pkt))

/-- Move after position `pos`, to the next block if it was the last one (reader.cpp:162-173). -/
def advance (e : Env) (s : St) (pos : Nat) (p : Pkt) : Res :=
  if pos + 1 = s.src.length then (nextBlock e { s with nxt := pos + 1 }).bind fun s' => .ok (s', some (some (s.blk, pos), p))
  else .ok ({ s with nxt := pos + 1 }, some (some (s.blk, pos), p))

/-- The loop of `get_next_packet_` when there is no packet (reader.cpp:143-174), repeated at most `fuel` times. -/
def search (e : Env) : Nat → St → Res
  | 0, _ => .error .hang
  | fuel + 1, s =>
    if !s.alive then .ok (s, none)
    else (tryRepair e s).bind fun s =>
      match findPos (s.src.drop s.nxt) s.nxt with
      | some (pos, p) => advance e s pos p
      | none =>
        if s.srcQ = [] then .ok (s, none)
        else (nextBlock e { s with nxt := s.src.length }).bind (search e fuel)

/-- Limit on the number of blocks skipped by one call. (of the model; reader.cpp:143-174 has none) -/
def fuelOf (e : Env) (s : St) : Nat := (s.srcQ.length + 1) * (e.maxJump + 1) + 1

/-- `get_next_packet_` (reader.cpp:138-179). -/
def getNext (e : Env) (s : St) : Res :=
  (fill e s).bind fun s =>
    match s.src[s.nxt]? with
    | none => .error .index
    | some (some p) => if !s.alive then .ok (s, none) else advance e s s.nxt p
    | some none => search e (fuelOf e s) s

/-- `drop_repair_packets_from_prev_blocks_` (reader.cpp:759-790). -/
def dropPrev (sbn : Nat) : List Fec → List Fec
  | [] => []
  | f :: q => if diff f.sbn sbn < 0 then dropPrev sbn q else f :: q

/-- `try_start_` (reader.cpp:102-136): state with `started` set if decoding starts. -/
def tryStart (e : Env) (s : St) : St :=
  match s.srcQ with
  | [] => s
  | f :: _ =>
    if !(procSource e s f).1 then (procSource e s f).2
    else { (procSource e s f).2 with sbn := f.sbn, blk := f.sbn, repQ := dropPrev f.sbn s.repQ, started := decide (f.esi = 0) }

/-- `fetch_packets_` (reader.cpp:286-309): packets until one with another scheme are put in the queue, at given places. -/
def fetch : List (Fec × Nat) → List Fec → List Fec × Bool
  | [], q => (q, true)
  | (f, i) :: l, q => if !f.scheme then (q, false) else fetch l (q.take i ++ f :: q.drop i)

/-- `read_` before decoding has started: forward (reader.cpp:94-97). -/
def forward (s : St) : Res :=
  match s.srcQ with
  | [] => .ok (s, none)
  | f :: q => .ok ({ s with srcQ := q }, some (none, .recv f))

/-- `fetch_all_packets_` (reader.cpp:277-284). -/
def fetchAll (s : St) (srcs reps : List (Fec × Nat)) : St :=
  { s with srcQ := (fetch srcs s.srcQ).1, repQ := (fetch reps s.repQ).1, alive := s.alive && (fetch srcs s.srcQ).2 && (fetch reps s.repQ).2 }

/-- `read_` after fetching (reader.cpp:90-99). -/
def readIn (e : Env) (s : St) : Res :=
  if s.started then getNext e s
  else if (tryStart e s).started then getNext e (tryStart e s)
  else forward (tryStart e s)

/-- `read` (reader.cpp:63-82): `srcs` and `reps` are packets which arrived since the previous call. -/
def read (e : Env) (s : St) (srcs reps : List (Fec × Nat)) : Res :=
  if !s.alive then .ok (s, none)
  else (readIn e (fetchAll s srcs reps)).bind fun r => if !r.1.alive then .ok (r.1, none) else .ok r

end Verif.FecReader
