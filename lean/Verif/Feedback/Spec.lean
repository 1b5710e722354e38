import Verif.Feedback.Model

/-!
# Feedback monitor: what is expected

A history is given newest call first. Nothing here uses the state of the monitor.
-/

namespace Verif.Feedback

open Verif.LatencyTuner

/-- Whether gathering of feedback was started. -/
def started (past : List Ev) : Bool := past.contains .start

/-- Whether the source may change at the time `t`, if it changed at the times `cs` (newest first): time is
divided into periods that begin with the first change, and there was no change in this period. -/
def free (period : Nat) (cs : List Nat) (t : Nat) : Bool :=
  match cs with
  | [] => true
  | c :: _ => decide ((c - cs.getLastD 0) / period < (t - cs.getLastD 0) / period)

/-- What follows from a history: the report that the user sees, times at which the source changed, and all
reports that were taken into account (newest first). -/
structure View where
  cur : Option Report
  changes : List Nat
  taken : List Report
deriving DecidableEq

/-- The view after a history. A report counts if there is none yet, or it has the same source, or a change
of the source is allowed. A report is forgotten when a frame is written after the timeout. -/
def view (timeout : Int) (period : Nat) : List Ev → View
  | [] => ⟨none, [], []⟩
  | .start :: past => view timeout period past
  | .write now _ _ :: past =>
    let v := view timeout period past
    match v.cur with
    | none => v
    | some r => if (now : Int) - r.time > timeout then { v with cur := none } else v
  | .report r :: past =>
    let v := view timeout period past
    if started past = false then v
    else match v.cur with
      | none => { v with cur := some r, taken := r :: v.taken }
      | some c =>
        if c.src = r.src then { v with cur := some r, taken := r :: v.taken }
        else if free period v.changes r.time = true then ⟨some r, r.time :: v.changes, r :: v.taken⟩
        else v

/-- The link metrics that the user sees for a report: the counter of packets is the one of the sender if
some report so far had no counter. -/
def linkOf (taken : List Report) (r : Report) : Link :=
  if taken.any (fun q => q.link.total == 0) then { r.link with total := r.sent } else r.link

/-- Frames written by the user. -/
def framesIn : List Ev → List Nat
  | [] => []
  | .write _ _ id :: es => id :: framesIn es
  | _ :: es => framesIn es

/-- Frames passed on. -/
def framesOut (l : List Eff) : List Nat := l.filterMap fun e => match e with | .frame id => some id | .scale _ => none

/-- Factors passed to the resampler. -/
def factors (l : List Eff) : List Rat := l.filterMap fun e => match e with | .scale v => some v | .frame _ => none

/-- Metrics passed to the tuner, newest first: for every frame, those of the report that the user sees, if
there is one and it is not too old. -/
def fed (timeout : Int) (period : Nat) : List Ev → List Metrics
  | [] => []
  | .write now _ _ :: past =>
    match (view timeout period past).cur with
    | none => fed timeout period past
    | some r => if (now : Int) - r.time > timeout then fed timeout period past else r.lat :: fed timeout period past
  | _ :: past => fed timeout period past

/-- Time of a call, if it depends on time. -/
def timeOf : Ev → Option Nat
  | .start => none
  | .report r => some r.time
  | .write now _ _ => some now

/-- Times do not decrease (newest call first). -/
def Ordered (past : List Ev) : Prop := (past.filterMap timeOf).Pairwise (· ≥ ·)

end Verif.Feedback
