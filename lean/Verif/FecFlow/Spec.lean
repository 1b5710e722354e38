import Verif.FecReader.Spec
import Verif.FecWriter.Spec

/-!
# FEC from end to end: specification

The writer of the sender (`FecWriter`), a network that loses packets, and the reader of the receiver (`FecReader`).
-/

namespace Verif.FecFlow

open FecReader (Fec Call)
open FecWriter (Op)

/-- A source packet (writer.cpp:194-206). -/
def isSource : FecWriter.Pkt → Bool
  | .source _ _ _ _ _ => true
  | .repair _ _ _ _ => false

/-- Source packets, which are sent to the source port (writer.cpp:194-206, pipeline: sender_session.cpp:110-135). -/
def sources (out : List FecWriter.Pkt) : List FecWriter.Pkt := out.filter isSource

/-- Repair packets, which are sent to the repair port (writer.cpp:265-293). -/
def repairs (out : List FecWriter.Pkt) : List FecWriter.Pkt := out.filter (fun p => !isSource p)

/-- The packet as it is received: FEC fields are carried by the header (headers.h:95-260, C29), the payload has `size` bytes.
The tag of a repair packet is not used. -/
def onWire (size : Nat) : FecWriter.Pkt → Fec
  | .source t esi sbn sblen blen => ⟨t, true, sbn, esi, sblen, blen, size⟩
  | .repair esi sbn sblen blen => ⟨0, true, sbn, esi, sblen, blen, size⟩

/-- What is delivered before a call of the receiver: which source packets and which repair packets of those sent (reader.cpp:286-309);
and what the decoder restores during the call. -/
structure Net where
  srcs : List Nat
  reps : List Nat
  dec : Nat → Option (Nat → Option Nat)

/-- The call (reader.cpp:63-82). Packets that arrive in order are put at the end of the queue (sorted_queue.cpp:45-80); `tot` is at least
the number of packets in it. -/
def Net.call (size tot : Nat) (out : List FecWriter.Pkt) (d : Net) : Call :=
  ⟨(d.srcs.filterMap (fun i => (sources out)[i]?)).map (fun p => (onWire size p, tot)),
   (d.reps.filterMap (fun i => (repairs out)[i]?)).map (fun p => (onWire size p, tot)), d.dec, fun _ => true⟩

/-- The sender writes packets with these tags, of `size` bytes, and nothing fails (writer.cpp:94-133). -/
def writes (size : Nat) (tags : List Nat) : List Op := tags.map (fun t => .write t size true (fun _ => true))

/-- Number of packets of block `b` among the delivered ones, with `k` source and `r` repair packets in a block. -/
def have_ (k r b : Nat) (l : List Net) : Nat :=
  (l.flatMap (·.srcs)).countP (fun i => decide (i / k = b)) + (l.flatMap (·.reps)).countP (fun i => decide (i / r = b))

/-- Number of delivered packets. -/
def count (l : List Net) : Nat := (l.map (fun d => d.srcs.length + d.reps.length)).sum

/-- The network: `n` source packets and `m` repair packets were sent; packets may be lost but are not reordered or duplicated; the first source
packet arrives before the first call; blocks are at most `w` away from the one that is due. -/
structure Lossy (k r w n m : Nat) (ds : List Net) : Prop where
  srcs : (ds.flatMap (·.srcs)).Pairwise (· < ·) ∧ ∀ i ∈ ds.flatMap (·.srcs), i < n
  reps : (ds.flatMap (·.reps)).Pairwise (· < ·) ∧ ∀ i ∈ ds.flatMap (·.reps), i < m
  first : ∃ d q, ds.head? = some d ∧ d.srcs = 0 :: q
  nearS : ∀ (j : Nat) (d : Net), ds[j]? = some d → ∀ i ∈ d.srcs, i / k ≤ j / k + w ∧ j / k ≤ i / k + w
  nearR : ∀ (j : Nat) (d : Net), ds[j]? = some d → ∀ i ∈ d.reps, i / r ≤ j / k + w ∧ j / k ≤ i / r + w

/-- Until call `j` at least `k` packets of its block are delivered. -/
def InTime (k r : Nat) (ds : List Net) : Prop := ∀ j, 1 ≤ j → j < ds.length → k ≤ have_ k r (j / k) (ds.take (j + 1))

/-- The decoder restores all lost packets of a block or none of them, and it does if there are enough packets; `b` is the number of
the first block. -/
structure Decodes (k b : Nat) (ds : List Net) : Prop where
  all : ∀ d ∈ ds, ∀ n g, d.dec n = some g → (∀ i, (g i).isSome = true) ∨ ∀ i, g i = none
  due : ∀ (j : Nat) (d : Net), ds[j]? = some d → ∃ g, d.dec (b + j / k) = some g ∧ ∀ i, (g i).isSome = true

end Verif.FecFlow
