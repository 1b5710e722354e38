/-!
# Watchdog

Model of `src/internal_modules/roc_audio/watchdog.cpp`. Durations are given in samples per channel; the conversion from nanoseconds in
the constructor and the status line for the log are not modelled.
-/

namespace Verif.Watchdog

/-- `stream_timestamp_t` has 32 bits (roc_packet/units.h:36). -/
abbrev m32 : Nat := 4294967296

/-- `stream_timestamp_diff` (units.h:44-47). -/
def sdiff (a b : Nat) : Int := (((a : Int) - b + 2147483648) % 4294967296) - 2147483648

/-- Parameters (watchdog.h:131-133, 139): 0 means that a check is disabled. -/
structure Cfg where
  maxBlank : Nat
  maxDrops : Nat
  window : Nat
  warmup : Nat

/-- The constructor succeeds (watchdog.cpp:61-104); allocation of the status line is not modelled. -/
def Cfg.valid (c : Cfg) : Bool := ¬ (c.maxDrops ≠ 0 ∧ (c.window < 1 ∨ c.window > c.maxDrops))

/-- What the watchdog uses of a frame (frame.h): duration and flags. (roc_audio/frame.h:25-110) -/
structure Fr where
  dur : Nat
  notBlank : Bool
  notComplete : Bool
  drops : Bool
deriving DecidableEq

/-- Members (watchdog.h:135-142, 148). Of `curr_window_flags_`, the two flags that are used. -/
structure St where
  curr : Nat
  lastBlank : Nat
  lastDrops : Nat
  inWarm : Bool
  fIncomplete : Bool
  fDrops : Bool
  alive : Bool
deriving DecidableEq

/-- Constructor (watchdog.cpp:43-78). -/
def St.init (c : Cfg) : St := ⟨0, c.warmup, 0, decide (c.warmup ≠ 0), false, false, true⟩

/-- `update_blank_timeout_` (watchdog.cpp:158-168). -/
def updateBlank (c : Cfg) (s : St) (f : Fr) (next : Nat) : St :=
  if c.maxBlank = 0 then s
  else if f.notBlank then { s with lastBlank := next, inWarm := false }
  else s

/-- End of the current window (watchdog.cpp:199-202). -/
def windowEnd (c : Cfg) (s : St) : Nat := (s.curr / c.window * c.window + c.window) % m32

/-- `update_drops_timeout_` (watchdog.cpp:190-218). -/
def updateDrops (c : Cfg) (s : St) (f : Fr) (next : Nat) : St :=
  if c.maxDrops = 0 then s
  else if sdiff (windowEnd c s) next ≤ 0 then
    { s with
      lastDrops := if (s.fIncomplete || f.notComplete) && (s.fDrops || f.drops) then s.lastDrops else next
      fIncomplete := if next % c.window = 0 then false else f.notComplete
      fDrops := if next % c.window = 0 then false else f.drops }
  else { s with fIncomplete := s.fIncomplete || f.notComplete, fDrops := s.fDrops || f.drops }

/-- `check_drops_timeout_` (watchdog.cpp:219-238). -/
def checkDrops (c : Cfg) (s : St) : Bool := decide (c.maxDrops = 0 ∨ (s.curr + m32 - s.lastDrops) % m32 < c.maxDrops)

/-- `check_blank_timeout_` (watchdog.cpp:170-188). -/
def checkBlank (c : Cfg) (s : St) : Bool := decide (c.maxBlank = 0 ∨ s.inWarm = true ∨ (s.curr + m32 - s.lastBlank) % m32 < c.maxBlank)

/-- `update_warmup_` (watchdog.cpp:240-242). -/
def updateWarm (c : Cfg) (s : St) : St := { s with inWarm := s.inWarm && decide (s.curr < c.warmup) }

/-- `read` after the frame was read (watchdog.cpp:134-153). -/
def feed (c : Cfg) (s : St) (f : Fr) : St :=
  let s1 := updateDrops c (updateBlank c s f ((s.curr + f.dur) % m32)) f ((s.curr + f.dur) % m32)
  let s2 := { s1 with curr := (s.curr + f.dur) % m32 }
  updateWarm c { s2 with alive := s2.alive && checkDrops c s2 && checkBlank c s2 }

/-- `read` (watchdog.cpp:123-156), `none` when the reader gives no frame: the result and the state. -/
def read (c : Cfg) (s : St) (f : Option Fr) : Bool × St :=
  if s.alive = false then (false, s)
  else match f with
    | none => (false, s)
    | some f => (true, feed c s f)

/-- Calls of `read`. (Part of the model of roc_audio/watchdog.cpp:43-243.) -/
def run (c : Cfg) (s : St) : List (Option Fr) → List Bool × St
  | [] => ([], s)
  | f :: fs => ((read c s f).1 :: (run c (read c s f).2 fs).1, (run c (read c s f).2 fs).2)

end Verif.Watchdog
