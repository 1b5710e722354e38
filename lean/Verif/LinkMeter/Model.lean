import Verif.Units.Model

/-!
# Extended sequence numbers of the link meter

Model of `LinkMeter::update_metrics_` (`src/internal_modules/roc_rtp/link_meter.cpp`).
Only packets with a known payload type reach this function (link_meter.cpp:65-74).
-/

namespace Verif.LinkMeter

open Verif.Units

/-- The sequence number fields of `LinkMeter` (roc_rtp/link_meter.h:99-106): `last_seqnum_hi_` is
`uint32_t`, the others `uint16_t`. -/
structure State where
  firstPacket : Bool
  firstSn : Seqnum
  lastHi : BitVec 32
  lastLo : Seqnum
deriving DecidableEq, Repr

/-- Constructor (roc_rtp/link_meter.cpp:16-26). -/
def State.init : State := ⟨true, 0, 0, 0⟩

/-- `LinkMeter::update_metrics_` (roc_rtp/link_meter.cpp:100-117, 127). -/
def State.update (s : State) (sn : Seqnum) : State :=
  let firstSn :=
    if (s.firstPacket ∨ snDiff sn s.firstSn < 0) ∧ s.lastHi = 0 then sn else s.firstSn
  if s.firstPacket ∨ snDiff sn s.lastLo > 0 then
    { firstPacket := false
      firstSn := firstSn
      -- `(uint16_t)-1` is 65535
      lastHi := if sn < s.lastLo then s.lastHi + 65535#32 else s.lastHi
      lastLo := sn }
  else { s with firstPacket := false, firstSn := firstSn }

/-- `ext_first_seqnum` of the metrics (roc_rtp/link_meter.cpp:119). -/
def State.extFirst (s : State) : BitVec 32 := s.firstSn.setWidth 32

/-- `ext_last_seqnum` of the metrics (roc_rtp/link_meter.cpp:120). -/
def State.extLast (s : State) : BitVec 32 := s.lastHi + s.lastLo.setWidth 32

end Verif.LinkMeter
