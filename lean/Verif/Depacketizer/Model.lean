/-!
# Depacketizer

Model of `src/internal_modules/roc_audio/depacketizer.cpp` with `pcm_decoder.cpp`. Simplifications:

- a sample is what is played at one moment on all channels, of an arbitrary type, and counts are per channel; silence is `none`;
- a payload is the list of its samples; conversion of bytes to samples is not modelled;
- conversion of a number of samples to nanoseconds is `per` times the number, without rounding;
- what the packet reader returns during a call is a list given to the call; statistics, logging and beeps are omitted;
- ghost members: `pos` counts samples read since the stream has started, `got` has packets passed to the decoder together with the
  position when that happened.
-/

namespace Verif.Depacketizer

/-- Packet (roc_packet/packet.h): stream timestamp, samples in the payload, capture timestamp (0 if there is none). (roc_packet/packet.h:31-169) -/
structure Pkt (α : Type) where
  ts : Nat
  samples : List α
  cts : Int
deriving DecidableEq

/-- Ways to abort: a panic, or an endless loop in `read_frame_` (depacketizer.cpp:95-97). -/
inductive Fault where
  | panic
  | hang
deriving DecidableEq

/-- Members (depacketizer.h:93-112). `pkt` is the position of the decoder and the samples left in it, while there is a packet
(pcm_decoder.h). -/
structure St (α : Type) where
  ts : Nat
  first : Bool
  nextCts : Int
  validCts : Bool
  pkt : Option (Nat × List α)
  pos : Nat
  got : List (Nat × Pkt α)

/-- Constructor (depacketizer.cpp:35-60). -/
def St.init {α : Type} : St α := ⟨0, true, 0, false, none, 0, []⟩

/-- `stream_timestamp_t` has 32 bits (units.h:36). -/
abbrev m32 : Nat := 4294967296

/-- `stream_timestamp_diff` (units.h:44-47). -/
def sdiff (a b : Nat) : Int := (((a : Int) - b + 2147483648) % 4294967296) - 2147483648

/-- `FrameInfo` (depacketizer.h:57-75). -/
structure Info where
  decoded : Nat
  filled : Nat
  dropped : Nat
  cts : Int

/-- Loop of `update_packet_` (depacketizer.cpp:215-245): packets passed to the decoder, accepted packet, packets left in the reader,
number of dropped packets. -/
def fetch {α : Type} (first : Bool) (ts pos : Nat) : List (Pkt α) → List (Nat × Pkt α) × Option (Pkt α) × List (Pkt α) × Nat
  | [] => ([], none, [], 0)
  | p :: q =>
    if first then ([(pos, p)], some p, q, 0)
    else if sdiff ts ((p.ts + p.samples.length) % m32) < 0 then ([(pos, p)], some p, q, 0)
    else ((pos, p) :: (fetch first ts pos q).1, (fetch first ts pos q).2.1, (fetch first ts pos q).2.2.1, (fetch first ts pos q).2.2.2 + 1)

/-- The stream position after a packet was accepted (depacketizer.cpp:256-262). -/
def startTs {α : Type} (s : St α) (p : Pkt α) : Nat := if s.first then p.ts else s.ts

/-- Whether capture timestamps are known after a packet was accepted (depacketizer.cpp:251-254). -/
def nowValid {α : Type} (s : St α) (p : Pkt α) : Bool := s.validCts || decide (p.cts ≠ 0)

/-- `update_packet_` after a packet was accepted (depacketizer.cpp:251-277, pcm_decoder.cpp `begin`, `shift`). -/
def accept {α : Type} (per : Int) (s : St α) (p : Pkt α) : Except Fault (St α) :=
  if sdiff p.ts (startTs s p) < 0 then
    if sdiff (startTs s p) p.ts < 0 ∨ sdiff (startTs s p) p.ts > p.samples.length then .error .panic
    else .ok { s with
      ts := startTs s p
      first := false
      validCts := nowValid s p
      nextCts := if nowValid s p then p.cts + per * sdiff (startTs s p) p.ts else p.cts
      pkt := some ((p.ts + (sdiff (startTs s p) p.ts).toNat) % m32, p.samples.drop (sdiff (startTs s p) p.ts).toNat) }
  else .ok { s with ts := startTs s p, first := false, validCts := nowValid s p, nextCts := p.cts, pkt := some (p.ts, p.samples) }

/-- `update_packet_` (depacketizer.cpp:207-277): state, packets left in the reader, number of dropped packets. -/
def update {α : Type} (per : Int) (s : St α) (q : List (Pkt α)) : Except Fault (St α × List (Pkt α) × Nat) :=
  if s.pkt.isSome then .ok (s, q, 0)
  else match fetch s.first s.ts s.pos q with
    | (ev, none, q', d) => .ok ({ s with got := s.got ++ ev }, q', d)
    | (ev, some p, q', d) => (accept per { s with got := s.got ++ ev } p).bind fun s' => .ok (s', q', d)

/-- Move the stream position (depacketizer.cpp:175, 196). -/
def St.move {α : Type} (s : St α) (n : Nat) : St α :=
  { s with ts := (s.ts + n) % m32, pos := if s.first then s.pos else s.pos + n }

/-- Capture timestamp of the frame, computed when `filled` samples of it precede the moment `next` (depacketizer.cpp:128-132, 140-143,
156-159). -/
def setCts (per : Int) (valid : Bool) (next : Int) (filled : Nat) (info : Info) : Int :=
  if info.cts = 0 ∧ valid = true then next - per * filled else info.cts

/-- `read_samples_` when there is no packet (depacketizer.cpp:153-166). -/
def blank {α : Type} (per : Int) (s : St α) (n : Nat) (info : Info) : St α × Info :=
  ({ s.move n with nextCts := if s.validCts then s.nextCts + per * n else s.nextCts },
   { info with filled := info.filled + n, cts := setCts per s.validCts s.nextCts info.filled info })

/-- Silence before the packet (depacketizer.cpp:113-132). -/
def gap {α : Type} (per : Int) (s : St α) (m : Nat) (info : Info) : St α × Info :=
  (s.move m, { info with filled := info.filled + m, cts := setCts per s.validCts s.nextCts (info.filled + m) info })

/-- Samples of the packet (depacketizer.cpp:135-150, 169-184): `k` samples out of `n` requested are decoded. -/
def play {α : Type} (per : Int) (s : St α) (dp : Nat) (rem : List α) (k n : Nat) (info : Info) : St α × Info :=
  ({ s.move k with
      nextCts := if s.validCts then s.nextCts + per * k else s.nextCts
      pkt := if k < n then none else some ((dp + k) % m32, rem.drop k) },
   { info with decoded := info.decoded + k, filled := info.filled + k, cts := if k ≠ 0 then setCts per s.validCts s.nextCts info.filled info else info.cts })

/-- Result of a part of reading: state, packets left, samples, information. (Part of the model of roc_audio/depacketizer.cpp:35-318.) -/
abbrev Part (α : Type) := St α × List (Pkt α) × List (Option α) × Info

/-- `read_samples_` after `update_packet_` when there is a packet and `m` samples are missing before it (depacketizer.cpp:107-152). -/
def consume {α : Type} (per : Int) (s : St α) (q : List (Pkt α)) (dp : Nat) (rem : List α) (m n : Nat) (info : Info) : Part α :=
  if n - m > 0 then
    ((play per (gap per s m info).1 dp rem (min (n - m) rem.length) (n - m) (gap per s m info).2).1, q,
     List.replicate m none ++ (rem.take (n - m)).map some,
     (play per (gap per s m info).1 dp rem (min (n - m) rem.length) (n - m) (gap per s m info).2).2)
  else ((gap per s m info).1, q, List.replicate m none, (gap per s m info).2)

/-- The same when nothing is missing. (depacketizer.cpp:135-152) -/
def consumeNow {α : Type} (per : Int) (s : St α) (q : List (Pkt α)) (dp : Nat) (rem : List α) (n : Nat) (info : Info) : Part α :=
  ((play per s dp rem (min n rem.length) n info).1, q, (rem.take n).map some, (play per s dp rem (min n rem.length) n info).2)

/-- `read_samples_` after `update_packet_` (depacketizer.cpp:107-166). -/
def readPart {α : Type} (per : Int) (s : St α) (q : List (Pkt α)) (n : Nat) (info : Info) : Except Fault (Part α) :=
  match s.pkt with
  | none => .ok ((blank per s n info).1, q, List.replicate n none, (blank per s n info).2)
  | some (dp, rem) =>
    if s.ts ≠ dp then
      if ¬ sdiff s.ts dp < 0 then .error .panic
      else .ok (consume per s q dp rem (min (sdiff dp s.ts).toNat n) n info)
    else .ok (consumeNow per s q dp rem n info)

/-- `read_samples_` (depacketizer.cpp:103-167), `n` is the size of the rest of the frame. -/
def readSamples {α : Type} (per : Int) (s : St α) (q : List (Pkt α)) (n : Nat) (info : Info) : Except Fault (Part α) :=
  (update per s q).bind fun u => readPart per u.1 u.2.1 n { info with dropped := info.dropped + u.2.2 }

/-- The loop of `read_frame_` (depacketizer.cpp:95-97), repeated at most `fuel` times. -/
def loop {α : Type} (per : Int) : Nat → St α → List (Pkt α) → Nat → Info → Except Fault (Part α)
  | 0, _, _, _, _ => .error .hang
  | fuel + 1, s, q, n, info =>
    if n = 0 then .ok (s, q, [], info)
    else (readSamples per s q n info).bind fun r =>
      (loop per fuel r.1 r.2.1 (n - r.2.2.1.length) r.2.2.2).bind fun r' => .ok (r'.1, r'.2.1, r.2.2.1 ++ r'.2.2.1, r'.2.2.2)

/-- A frame (frame.h) with its flags (depacketizer.cpp:295-318). -/
structure Frame (α : Type) where
  samples : List (Option α)
  notBlank : Bool
  notComplete : Bool
  drops : Bool
  cts : Option Int
deriving DecidableEq

/-- `read` (depacketizer.cpp:77-101, 295-318): `n` is the size of the frame, `q` has packets which the reader can return. -/
def read {α : Type} (per : Int) (s : St α) (q : List (Pkt α)) (n : Nat) : Except Fault (St α × List (Pkt α) × Frame α) :=
  (loop per (2 * q.length + n + 2) s q n ⟨0, 0, 0, 0⟩).bind fun r =>
    .ok (r.1, r.2.1, ⟨r.2.2.1, decide (r.2.2.2.decoded ≠ 0), decide (r.2.2.2.decoded < n), decide (r.2.2.2.dropped ≠ 0),
      if r.2.2.2.cts > 0 then some r.2.2.2.cts else none⟩)

end Verif.Depacketizer
