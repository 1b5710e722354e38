import Verif.ApiConfig.Model
import Verif.LatencyTuner.Model
import Verif.Watchdog.Model

/-!
# Default values of latency, watchdog and resampler settings

Model of `LatencyConfig::deduce_defaults` (`src/internal_modules/roc_audio/latency_tuner.cpp`), `WatchdogConfig::deduce_defaults`
(`watchdog.cpp`), `ResamplerConfig::deduce_defaults` (`resampler_config.cpp`) and of the functions that combine them
(`roc_pipeline/config.cpp`).

Durations are signed 64-bit numbers of nanoseconds; an overflow is undefined behaviour, `none` here. The expression with logarithms is a
parameter `lib`: an integer for a target and a multiplier. What it has to be close to is in the properties.
-/

namespace Verif.Defaults

open Verif.ApiConfig

/-- `nanoseconds_t` (roc_core/time.h:58): `none` on overflow. -/
def chk (x : Int) : Option Int := if -9223372036854775808 ≤ x ∧ x < 9223372036854775808 then some x else none

/-- `Millisecond` (roc_core/time.h:67). -/
def ms : Int := 1000000

/-- `LatencyConfig` (latency_tuner.h:68-130). -/
structure Lat where
  backend : TBackend
  profile : TProfile
  target : Int
  tolerance : Int
  stale : Int
  interval : Int
  delta : Rat

/-- Backend (latency_tuner.cpp:26-28). -/
def backendOf (b : TBackend) : TBackend := if b = .default then .niq else b

/-- Profile (latency_tuner.cpp:30-54); `b` is the backend after the first step. -/
def profileOf (rx : Bool) (b : TBackend) (p : TProfile) (target : Int) : TProfile :=
  if p = .default then
    if rx then
      if b = .niq then if target > 0 ∧ target < 30 * ms then .responsive else .gradual
      else .responsive
    else .intact
  else p

/-- Target (latency_tuner.cpp:57-81). -/
def targetOf (rx : Bool) (dflt : Int) (p : TProfile) (target : Int) : Int :=
  if target = 0 then
    if rx then if p ≠ .intact then dflt else -1
    else if p ≠ .intact then -1 else target
  else target

/-- Tolerance (latency_tuner.cpp:84-117); `lib` gets the target and the multiplier. The product by two is a 64-bit number. -/
def toleranceOf (lib : Int → Int → Int) (rx : Bool) (p : TProfile) (target tolerance : Int) : Option Int :=
  if p ≠ .intact then
    if tolerance = 0 then
      if target > 0 then (chk (max target ms * 2)).map fun _ => lib (max target ms) (if rx then 1 else 4)
      else some (-1)
    else some tolerance
  else some tolerance

/-- The float 0.005 (latency_tuner.cpp:124). -/
def delta0 : Rat := 5368709 / 1073741824

/-- `LatencyConfig::deduce_defaults` (latency_tuner.cpp:23-138). -/
def Lat.deduce (lib : Int → Int → Int) (dflt : Int) (rx : Bool) (c : Lat) : Option Lat :=
  let b := backendOf c.backend
  let p := profileOf rx b c.profile c.target
  let t := targetOf rx dflt p c.target
  (toleranceOf lib rx p t c.tolerance).map fun tol =>
    { backend := b, profile := p, target := t, tolerance := tol,
      stale := if tol ≠ 0 ∧ c.stale = 0 then if t > 0 then tol.tdiv 4 else -1 else c.stale,
      interval := if p ≠ .intact ∧ c.interval = 0 then 5 * ms else c.interval,
      delta := if p ≠ .intact ∧ c.delta = 0 then delta0 else c.delta }

/-- What the constructor of the latency tuner gets (latency_tuner.cpp:140-170). -/
def Lat.cfg (c : Lat) : LatencyTuner.Cfg :=
  ⟨if c.backend = .e2e then .e2e else .niq, decide (c.profile ≠ .intact), c.target, c.tolerance, c.stale, c.interval, c.delta⟩

/-- Constructor of the latency tuner (latency_tuner.cpp:140-258): `none` if the sum or the difference overflows (209-212), `some none` if the
config is rejected. -/
def Lat.tuner {E : Type} (conv : Int → Int) (log : Nat) (e : E) (c : Lat) : Option (Option (LatencyTuner.St E)) :=
  if (c.profile ≠ .intact ∨ c.tolerance ≠ 0) ∧ 0 < c.target ∧ 0 < conv c.target ∧
      (chk (c.target - c.tolerance) = none ∨ chk (c.target + c.tolerance) = none) then none
  else some (LatencyTuner.create conv log e c.cfg)

/-- `WatchdogConfig` (watchdog.h:28-85) without the window of the status line. -/
structure Wd where
  noPlayback : Int
  choppy : Int
  window : Int
  warmup : Int

/-- `WatchdogConfig::deduce_defaults` (watchdog.cpp:16-41). -/
def Wd.deduce (target : Int) (c : Wd) : Option Wd :=
  let target := if target ≤ 0 then 200 * ms else target
  (if c.noPlayback = 0 then (chk (target * 4)).map fun x => x.tdiv 3 else some c.noPlayback).map fun np =>
    let ch := if c.choppy = 0 then 2000 * ms else c.choppy
    { noPlayback := np, choppy := ch, window := if c.window = 0 then min (300 * ms) (ch.tdiv 4) else c.window,
      warmup := if c.warmup = 0 then target else c.warmup }

/-- Constructor of the watchdog (watchdog.cpp:61-81); `conv`: `ns_2_stream_timestamp`. -/
def Wd.cfg (conv : Int → Nat) (c : Wd) : Watchdog.Cfg :=
  { maxBlank := if c.noPlayback ≥ 0 then max (conv c.noPlayback) 1 else 0,
    maxDrops := if c.choppy ≥ 0 then max (conv c.choppy) 1 else 0,
    window := if c.choppy ≥ 0 then max (conv c.window) 1 else 0,
    warmup := if c.warmup ≥ 0 then max (conv c.warmup) 1 else 0 }

/-- `ResamplerConfig::deduce_defaults` (resampler_config.cpp:15-32); `speex`: the Speex backend is available. -/
def rbackendOf (speex : Bool) (b : RBackend) (p : TProfile) : RBackend :=
  if b = .default then if p = .responsive ∨ speex = false then .builtin else .speex else b

/-- `DefaultLatency` (pipeline/config.h:55). -/
def defaultLatency : Int := 200 * ms

/-- `ReceiverSessionConfig::deduce_defaults` (pipeline/config.cpp:52-56) on the config made from the user config
(`ApiConfig.receiverFromUser`). -/
def receiverDeduce (lib : Int → Int → Int) (speex : Bool) (c : SourceCfg) : Option (Lat × Wd × RBackend) :=
  (Lat.deduce lib defaultLatency true ⟨c.tbackend, c.tprofile, c.target, c.tolerance, 0, 0, 0⟩).bind fun l =>
  (Wd.deduce l.target ⟨c.noPlayback, c.choppy, 0, 0⟩).map fun w => (l, w, rbackendOf speex c.rbackend l.profile)

/-- `SenderSinkConfig::deduce_defaults` (pipeline/config.cpp:26-29), likewise. -/
def senderDeduce (lib : Int → Int → Int) (speex : Bool) (c : SinkCfg) : Option (Lat × RBackend) :=
  (Lat.deduce lib defaultLatency false ⟨c.tbackend, c.tprofile, c.target, c.tolerance, 0, 0, 0⟩).map fun l =>
    (l, rbackendOf speex c.rbackend l.profile)

end Verif.Defaults
