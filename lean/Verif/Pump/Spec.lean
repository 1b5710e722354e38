import Verif.Pump.Model

/-!
# Pump: what is expected
-/

namespace Verif.Pump

/-- Frames given to the sink. -/
def written {α : Type} : List (Ev α) → List α
  | [] => []
  | .write f :: es => f :: written es
  | _ :: es => written es

/-- Frames that were read from the sources. -/
def readAll {α : Type} : List (Ev α) → List α
  | [] => []
  | .read _ (some f) :: es => f :: readAll es
  | _ :: es => readAll es

/-- Frames of the main source up to its end or until the pump is told to stop, and whether it is still running. -/
def wantAlone {α : Type} : List (In α) → List α × Bool
  | [] => ([], true)
  | i :: is =>
    if i.stop then ([], false)
    else
      match i.mainFrame with
      | none => ([], false)
      | some f => (f :: (wantAlone is).1, (wantAlone is).2)

/-- Frames the sink should get, and whether the pump should be still running: while the main source is active,
its frames, otherwise those of the backup source; until it is told to stop, the main source ends, or in oneshot mode
(`one`) it is inactive after it was active (`started`). -/
def want {α : Type} (one : Bool) : Bool → List (In α) → List α × Bool
  | _, [] => ([], true)
  | started, i :: is =>
    if i.stop then ([], false)
    else if i.act then
      match i.mainFrame with
      | none => ([], false)
      | some f => (f :: (want one true is).1, (want one true is).2)
    else if one ∧ started then ([], false)
    else
      match i.backupFrame with
      | none => want one started is
      | some f => (f :: (want one started is).1, (want one started is).2)

/-- Sources are used as their interface demands (`idevice.h:44-57`): a source that is paused (`m` for the main source,
`b` for the backup source, which starts as not running) is not read. -/
def proper {α : Type} : Bool → Bool → List (Ev α) → Bool
  | _, _, [] => true
  | _, b, .pauseMain :: es => proper true b es
  | m, b, .resumeMain ok :: es => proper (if ok then false else m) b es
  | m, _, .pauseBackup :: es => proper m true es
  | m, b, .restartBackup ok :: es => proper m (if ok then false else b) es
  | m, b, .read .main _ :: es => !m && proper m b es
  | m, b, .read .backup _ :: es => !b && proper m b es
  | m, b, .write _ :: es => proper m b es
  | m, b, .reclock _ :: es => proper m b es

/-- Only one source runs: when a source is read, the other one is paused. `m`, `b`: main and backup source are paused now. -/
def alone {α : Type} : Bool → Bool → List (Ev α) → Bool
  | _, _, [] => true
  | m, b, .resumeMain ok :: es => alone (if ok then false else m) b es
  | _, b, .pauseMain :: es => alone true b es
  | m, b, .restartBackup ok :: es => alone m (if ok then false else b) es
  | m, _, .pauseBackup :: es => alone m true es
  | m, b, .read .main _ :: es => b && alone m b es
  | m, b, .read .backup _ :: es => m && alone m b es
  | m, b, .write _ :: es => alone m b es
  | m, b, .reclock _ :: es => alone m b es

end Verif.Pump
