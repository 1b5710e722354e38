import Verif.Depacketizer.Model

/-!
# Depacketizer: specification

A stream starts with the first packet; positions are counted from its first sample, without wrapping.
-/

namespace Verif.Depacketizer

/-- Position after the last sample of a packet `x.2` obtained at position `x.1`: the 32 bit timestamp is resolved so that this position
is within 2^31 of the current one. `f0` is the timestamp of the first packet. -/
def stop {α : Type} (f0 : Nat) (x : Nat × Pkt α) : Int := x.1 - sdiff ((f0 + x.1) % m32) ((x.2.ts + x.2.samples.length) % m32)

/-- Position of the first sample of a packet. -/
def start {α : Type} (f0 : Nat) (x : Nat × Pkt α) : Int := stop f0 x - x.2.samples.length

/-- The sample that the packet gives for position `i`, if it was obtained in time. -/
def sampleAt {α : Type} (f0 : Nat) (i : Nat) (x : Nat × Pkt α) : Option α :=
  if x.1 ≤ i ∧ start f0 x ≤ i then x.2.samples[(i - start f0 x).toNat]? else none

/-- What should be read at position `i`: the sample of the packet which covers it, or silence. -/
def expected {α : Type} (f0 : Nat) (got : List (Nat × Pkt α)) (i : Nat) : Option α := got.findSome? (sampleAt f0 i)

/-- A call of `read`: packets which the reader can return, size of the frame. -/
structure Call (α : Type) where
  pkts : List (Pkt α)
  size : Nat

/-- One call as seen from outside: the frame, packets consumed from the reader, packets left in it. -/
structure Done (α : Type) where
  frame : Frame α
  taken : List (Pkt α)
  left : List (Pkt α)
deriving DecidableEq

/-- Perform calls. -/
def run {α : Type} (per : Int) (s : St α) : List (Call α) → Except Fault (St α × List (Done α))
  | [] => .ok (s, [])
  | c :: h => (read per s c.pkts c.size).bind fun r =>
      (run per r.1 h).bind fun r' => .ok (r'.1, ⟨r.2.2, c.pkts.take (c.pkts.length - r.2.1.length), r.2.1⟩ :: r'.2)

/-- Frames have the requested size, packets are consumed in order, flags tell about silence. -/
structure Served {α : Type} (c : Call α) (d : Done α) : Prop where
  size : d.frame.samples.length = c.size
  order : c.pkts = d.taken ++ d.left
  notBlank : d.frame.notBlank = true ↔ ∃ x ∈ d.frame.samples, x ≠ none
  notComplete : d.frame.notComplete = true ↔ ∃ x ∈ d.frame.samples, x = none

/-- Calls before the first packet: silence. -/
def Silent {α : Type} (d : Done α) : Prop :=
  (∀ x ∈ d.frame.samples, x = none) ∧ d.taken = [] ∧ (d.left = [] ∨ d.frame.samples = []) ∧ d.frame.cts = none

/-- `got` has the packets consumed by calls which begin at position `pos`, each with a position within the frame of its call. For every
call, `P` is true for its position and for packets consumed up to the end of the call. -/
def Timeline {α : Type} (P : Nat → Done α → List (Nat × Pkt α) → Prop) : Nat → List (Done α) → List (Nat × Pkt α) → List (Nat × Pkt α) → Prop
  | _, [], _, got => got = []
  | pos, d :: ds, before, got => ∃ ev rest, got = ev ++ rest ∧ ev.map (·.2) = d.taken ∧
      (∀ x ∈ ev, pos ≤ x.1 ∧ x.1 ≤ pos + d.frame.samples.length) ∧ P pos d (before ++ ev) ∧
      Timeline P (pos + d.frame.samples.length) ds (before ++ ev) rest

/-- A sample of a frame is silence only if the call has taken all packets that the reader could return, or the next packet in the
reader's order begins later. -/
def Eager {α : Type} (f0 : Nat) (pos : Nat) (d : Done α) (got : List (Nat × Pkt α)) : Prop :=
  ∀ j, d.frame.samples[j]? = some none → d.left = [] ∨ ∃ x ∈ got, x.1 ≤ pos + j ∧ ((pos + j : Nat) : Int) < start f0 x

/-- All packets have true capture timestamps: `base` is the capture time of position 0, `per` is the duration of a sample. -/
def Truth {α : Type} (base per : Int) (f0 : Nat) (got : List (Nat × Pkt α)) : Prop := ∀ x ∈ got, x.2.cts ≠ 0 ∧ x.2.cts = base + per * start f0 x

/-- A frame has the capture time of its first sample, if it has a sample of a packet, or if no obtained packet begins after its end. -/
def Clock {α : Type} (base per : Int) (f0 : Nat) (pos : Nat) (d : Done α) (got : List (Nat × Pkt α)) : Prop :=
  Truth base per f0 got → d.frame.samples ≠ [] →
  ((∃ x ∈ d.frame.samples, x ≠ none) ∨ ∀ x ∈ got, start f0 x ≤ (pos + d.frame.samples.length : Nat)) → d.frame.cts = some (base + per * pos)

/-- All samples read by calls. -/
def output {α : Type} (ds : List (Done α)) : List (Option α) := (ds.map (·.frame.samples)).flatten

/-- Payloads are not empty and shorter than 2^31 samples, timestamps have 32 bits. -/
def Sane {α : Type} (h : List (Call α)) : Prop := ∀ c ∈ h, ∀ p ∈ c.pkts, p.ts < m32 ∧ 0 < p.samples.length ∧ p.samples.length < 2147483648

end Verif.Depacketizer
