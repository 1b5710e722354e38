/-!
# RTCP packet counter

Model of `src/internal_modules/roc_rtcp/packet_counter.cpp`.
-/

namespace Verif.PacketCounter

/-- Fields of `PacketCounter` (roc_rtcp/packet_counter.h:35-41). -/
structure State where
  first : Bool
  begin64 : BitVec 64
  hi : BitVec 64
  lo : BitVec 32
  counter : BitVec 64
deriving DecidableEq, Repr

/-- Constructor (roc_rtcp/packet_counter.cpp:14-20). -/
def State.init : State := ⟨true, 0, 0, 0, 0⟩

/-- First part of `PacketCounter::update`: reset when the beginning changed
(roc_rtcp/packet_counter.cpp:24-29). -/
def State.reset (s : State) (begin_ end_ : BitVec 32) : State :=
  if s.first ∨ begin_.setWidth 64 ≠ s.begin64 then
    { s with begin64 := begin_.setWidth 64, hi := 0, lo := end_, first := false }
  else s

/-- Second part: advance the end (roc_rtcp/packet_counter.cpp:32-37). `(uint32_t)-1` is
4294967295. -/
def State.advance (s : State) (end_ : BitVec 32) : State :=
  if (end_ - s.lo).toInt > 0 then
    { s with hi := if end_ < s.lo then s.hi + 4294967295#64 else s.hi, lo := end_ }
  else s

/-- `PacketCounter::update` (roc_rtcp/packet_counter.cpp:22-45); the result is `counter`. -/
def State.update (s : State) (begin_ end_ : BitVec 32) : State :=
  let s := (s.reset begin_ end_).advance end_
  if s.begin64 ≤ s.hi + s.lo.setWidth 64 then
    { s with counter := (s.hi + s.lo.setWidth 64) - s.begin64 }
  else s

end Verif.PacketCounter
