/-!
# Round-trip time estimator

Model of `src/internal_modules/roc_rtcp/rtt_estimator.cpp`. `core::nanoseconds_t` (`int64_t`) is an
unbounded `Int`; `C27_no_overflow` bounds every intermediate result.
-/

namespace Verif.Rtt

/-- Arguments of `RttEstimator::update` (rtt_estimator.cpp:54-57), in order T1, T2, T3, T4. -/
structure Report where
  localReport : Int
  remoteReport : Int
  remoteReply : Int
  localReply : Int
deriving DecidableEq, Repr

/-- State of `RttEstimator` (rtt_estimator.cpp:15-21). -/
structure St where
  offset : Int
  rtt : Int
  hasMetrics : Bool
  firstReport : Int
  lastReport : Int
deriving DecidableEq, Repr

/-- Constructor (rtt_estimator.cpp:15-21). -/
def init : St := ⟨0, 0, false, 0, 0⟩

/-- `RttEstimator::update` (rtt_estimator.cpp:54-92). C++ integer division truncates. -/
def update (s : St) (r : Report) : St :=
  if ¬ r.localReport ≤ r.localReply ∨ ¬ r.remoteReport ≤ r.remoteReply then s
  else if r.localReport ≤ s.lastReport then s
  else
    let off := ((r.remoteReport - r.localReport) + (r.remoteReply - r.localReply)).tdiv 2
    let rtt := (r.localReply - r.localReport) - (r.remoteReply - r.remoteReport)
    if rtt < 0 then s
    else
      { offset := off, rtt := rtt, hasMetrics := true,
        firstReport := if s.firstReport = 0 then r.localReport else s.firstReport,
        lastReport := r.localReport }

end Verif.Rtt
