/-!
# Pump: model

Models the main loop of `Pump` (`roc_sndio/pump.cpp`): it transfers frames from a main source, or from a
backup source while the main source is not active, to a sink.

Sources are arbitrary: everything they answer is an input of the model, given for every iteration of
the loop. Frames are opaque. The times passed to `set_capture_timestamp` and `reclock`
(`pump.cpp:123-143, 150-162`) are not modelled. Counter `n_bufs_` is a natural number.
-/

namespace Verif.Pump

/-- The two sources: `pump.h:75-76`. -/
inductive Src where
  | main | backup
  deriving DecidableEq, Repr

/-- Constructor arguments: whether there is a backup source, and the mode (`pump.cpp:15-29`). -/
structure Cfg where
  backup : Bool
  oneshot : Bool
  deriving DecidableEq, Repr

/-- All that an iteration of the loop can find out, in order: `stop_` (`pump.cpp:61`), whether the main
source is active (`pump.cpp:63`), results of `resume` of the main source and `restart` of the backup source
(`pump.cpp:67, 83`), frames read from the sources, if they are read, `none` being the end of
file (`pump.cpp:93, 119`), and `stop_` after the loop (`pump.cpp:112`). -/
structure In (α : Type) where
  stop : Bool
  act : Bool
  resumeOk : Bool
  restartOk : Bool
  mainFrame : Option α
  backupFrame : Option α
  stopEnd : Bool
  deriving DecidableEq, Repr

/-- Calls of sources and of the sink. (Part of the model of roc_sndio/pump.cpp:15-165.) -/
inductive Ev (α : Type) where
  | resumeMain (ok : Bool)
  | pauseMain
  | restartBackup (ok : Bool)
  | pauseBackup
  | read (s : Src) (f : Option α)
  | write (f : α)
  | reclock (s : Src)
  deriving DecidableEq, Repr

/-- `current_source` and `n_bufs_`: `pump.cpp:27, 59`. -/
structure St where
  cur : Src
  nbufs : Nat
  deriving DecidableEq, Repr

/-- At the beginning of `run`. (roc_sndio/pump.cpp:56-113) -/
def St.init : St := ⟨.main, 0⟩

/-- Why the loop ended: condition of the loop (`pump.cpp:61`), inactive source (`pump.cpp:77`), end of
file (`pump.cpp:100`). -/
inductive Why where
  | stopped | inactive | eof
  deriving DecidableEq, Repr

/-- Choice of the source: `pump.cpp:63-90`. The second component is the new value of `current_source`, `none` if the
loop ends here. -/
def choose {α : Type} (c : Cfg) (s : St) (i : In α) : List (Ev α) × Option Src :=
  if i.act then
    if c.backup ∧ s.cur = .backup then
      if i.resumeOk then ([.resumeMain true, .pauseBackup], some .main)
      else ([.resumeMain false], some s.cur)
    else ([], some s.cur)
  else if c.oneshot ∧ s.nbufs ≠ 0 then ([], none)
  else if c.backup ∧ s.cur ≠ .backup then
    if i.restartOk then ([.restartBackup true, .pauseMain], some .backup)
    else ([.restartBackup false], some s.cur)
  else ([], some s.cur)

/-- The frame that is read from a source. (roc_sndio/pump.cpp:115-165) -/
def In.frame {α : Type} (i : In α) : Src → Option α
  | .main => i.mainFrame
  | .backup => i.backupFrame

/-- `transfer_frame_` and the rest of the iteration: `pump.cpp:93-106, 115-165`. -/
def transfer {α : Type} (c : Cfg) (s : St) (i : In α) (src : Src) : List (Ev α) × Except Why St :=
  match i.frame src with
  | none =>
    ([.read src none],
      if c.backup ∧ src = .backup then .ok ⟨.main, s.nbufs⟩ else .error .eof)
  | some f =>
    ([.read src (some f), .write f, .reclock src],
      .ok ⟨src, if src = .main then s.nbufs + 1 else s.nbufs⟩)

/-- One iteration: `pump.cpp:61-107`. -/
def step {α : Type} (c : Cfg) (s : St) (i : In α) : List (Ev α) × Except Why St :=
  if i.stop then ([], .error .stopped)
  else
    match choose c s i with
    | (es, none) => (es, .error .inactive)
    | (es, some src) => (es ++ (transfer c s i src).1, (transfer c s i src).2)

/-- `run`: `pump.cpp:56-113`. The result is the reason why the loop ended and the returned value, or the state
if it is still running after these iterations. -/
def run {α : Type} (c : Cfg) : St → List (In α) → List (Ev α) × Except (Why × Bool) St
  | s, [] => ([], .ok s)
  | s, i :: is =>
    match (step c s i).2 with
    | .error w => ((step c s i).1, .error (w, if w = .stopped then false else !i.stopEnd))
    | .ok s' => ((step c s i).1 ++ (run c s' is).1, (run c s' is).2)

end Verif.Pump
