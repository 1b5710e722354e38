import Verif.PcmFormat.FloatModel
import Verif.RtcpFields.Model
import Verif.LinkMeter.Model

/-!
# Losses in reception reports

Model of `LossEstimator` (`src/internal_modules/roc_rtcp/loss_estimator.cpp`), of its use in
`Reporter::generate_reception_block` (roc_rtcp/reporter.cpp:716-719), and of the counters of a receiver which it is fed with
(roc_rtp/link_meter.cpp:99-129, roc_pipeline/receiver_session.cpp:316-321).

Simplified: `float` is modelled by rationals rounded to 24 bits, without bounds of the exponent. The difference of two `int64_t` counters is
exact here; in the code it could only overflow for counters near 2^63.
-/

namespace Verif.LossEstimator

open Verif.PcmFormat Verif.RtcpFields

/-- `prev_total_`, `prev_lost_` (roc_rtcp/loss_estimator.h:33-34). -/
structure State where
  total : Nat
  lost : Int
deriving DecidableEq

/-- Constructor (loss_estimator.cpp:14-17). -/
def State.init : State := ⟨0, 0⟩

/-- Value returned by `update` (loss_estimator.cpp:20-29, 34). -/
def State.fraction (s : State) (total : Nat) (lost : Int) : ℚ :=
  let f := if total > s.total then
    rnd 24 (rnd 24 ((lost - s.lost : Int) : ℚ) / rnd 24 ((total - s.total : Nat) : ℚ)) else 0
  if f < 0 then 0 else f

/-- State after `update` (loss_estimator.cpp:31-32). -/
def State.next (_ : State) (total : Nat) (lost : Int) : State := ⟨total, lost⟩

/-- Part of `generate_reception_block` which fills losses (roc_rtcp/reporter.cpp:717-719): new estimator and block. -/
def fill (s : State) (m : List Bytes.Byte) (total : Nat) (lost : Int) : State × List Bytes.Byte :=
  (s.next total lost, setFractLoss (setCumLoss m lost) (s.fraction total lost))

/-- Reports made one after another from counters `(packet_count, cum_loss)` (roc_rtcp/reporter.cpp:717-719): the estimator afterwards. -/
def after (l : List (Nat × Int)) : State := l.foldl (fun s x => s.next x.1 x.2) State.init

/-- `LinkMetrics` (roc_packet/ilink_meter.h:23-47) of a receiver together with sequence numbers of its meter. -/
structure Metrics where
  sn : LinkMeter.State
  total : Nat
  lost : Int
deriving DecidableEq

/-- Constructors (roc_packet/ilink_meter.h:60-67, roc_rtp/link_meter.cpp:15-26). -/
def Metrics.init : Metrics := ⟨LinkMeter.State.init, 0, 0⟩

/-- `update_metrics_` (roc_rtp/link_meter.cpp:99-129): the counters are left alone, lines 122-125. -/
def Metrics.update (m : Metrics) (sn : BitVec 16) : Metrics := { m with sn := m.sn.update sn }

/-- What happens to a stream of a receiver: a packet arrives (link_meter.cpp:71-73) or a report is made (receiver_session.cpp:316-321,
reporter.cpp:717-719) into a block. -/
inductive Ev where
  | packet (sn : BitVec 16)
  | report (m : List Bytes.Byte)

/-- Blocks sent while events happen (receiver_session.cpp:316-321, reporter.cpp:717-719). -/
def receiver : Metrics → State → List Ev → List (List Bytes.Byte)
  | _, _, [] => []
  | m, s, .packet sn :: l => receiver (m.update sn) s l
  | m, s, .report b :: l => (fill s b m.total m.lost).2 :: receiver m (fill s b m.total m.lost).1 l

end Verif.LossEstimator
