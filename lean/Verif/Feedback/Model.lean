import Verif.LatencyTuner.Model
import Verif.RateLimiter.Model

/-!
# Feedback monitor: model

Models `src/internal_modules/roc_audio/feedback_monitor.cpp` on top of the models of the latency tuner
and of the rate limiter.

Times are nanoseconds of the monotonic clock, natural numbers (roc_core/time.h); the clock is read
once per call. What the resampler answers to `set_scaling` is a parameter, a predicate on the scaling
factor. The counter of the packetizer is given with every report. The next writer of frames is
represented by the frames that are passed to it. Log messages are left out.
-/

namespace Verif.Feedback

open Verif.LatencyTuner

/-- `LinkMetrics` (roc_packet/ilink_meter.h:23-68). -/
structure Link where
  first : Nat
  last : Nat
  total : Nat
  lost : Int
  jitter : Int
  rtt : Int
deriving DecidableEq

/-- Arguments of `process_feedback` (feedback_monitor.h:79-81), the time of the call and
`packetizer_.metrics().packet_count` at that time. -/
structure Report where
  time : Nat
  src : Nat
  lat : Metrics
  link : Link
  sent : Nat
deriving DecidableEq

/-- What can go wrong: an abort, or a loop that does not end. (Part of the model of roc_audio/feedback_monitor.cpp:18-215.) -/
inductive Err
  | panic
  | hang
deriving DecidableEq

/-- `FeedbackConfig` (feedback_monitor.h:29-43). -/
structure FCfg where
  timeout : Int
  cooldown : Int

/-- `FeedbackMonitor` (feedback_monitor.h:106-130). `start` is `start_` of the ticker of the rate
limiter if the ticker was started (roc_core/ticker.cpp:14-35). -/
structure M (E : Type) where
  tuner : St E
  lat : Metrics
  link : Link
  usePack : Bool
  has : Bool
  lastTs : Nat
  timeout : Int
  scaling : Bool
  src : Nat
  lim : RateLimiter.State
  start : Option Nat
  started : Bool

/-- What the environment is: conversion of nanoseconds, the estimator (see `Verif.LatencyTuner`), and
which factors the resampler accepts (`ResamplerWriter::set_scaling`, resampler_writer.cpp:67-74). -/
structure Env (E : Type) where
  conv : Int → Int
  est : Est E
  accepts : Rat → Bool

/-- Constructor (feedback_monitor.cpp:18-49). `none` inside: the object is not valid. `resampler`:
the pointer is not null. The list has the factors passed to the resampler. -/
def create {E : Type} (env : Env E) (log : Nat) (e : E) (resampler : Bool) (f : FCfg) (c : Cfg) :
    Except Err (Option (M E) × List Rat) :=
  match RateLimiter.State.init f.cooldown with
  | none => .error .panic
  | some lim =>
    match LatencyTuner.create env.conv log e c with
    | none => .ok (none, [])
    | some t =>
      let m : M E := ⟨t, ⟨0, 0, 0⟩, ⟨0, 0, 0, 0, 0, 0⟩, false, false, 0, f.timeout, c.tuning, 0, lim, none, false⟩
      if c.tuning then
        if resampler = false then .error .panic
        else if env.accepts 1 = false then .ok (none, [1])
        else .ok (some m, [1])
      else .ok (some m, [])

/-- `source_change_limiter_.allow()` (feedback_monitor.cpp:86, roc_core/rate_limiter.cpp:27-35,
roc_core/ticker.cpp:28-35). -/
def M.allow {E : Type} (m : M E) (now : Nat) : M E × Bool :=
  match m.start with
  | none => let r := m.lim.allow 0; ({ m with lim := r.1, start := some now }, r.2)
  | some t => let r := m.lim.allow (now - t); ({ m with lim := r.1 }, r.2)

/-- The end of `process_feedback` (feedback_monitor.cpp:103-114). -/
def M.store {E : Type} (m : M E) (r : Report) : M E :=
  let m := { m with lat := r.lat, link := r.link }
  let m := if m.link.total = 0 ∨ m.usePack = true then { m with link := { m.link with total := r.sent }, usePack := true } else m
  { m with has := true, lastTs := r.time }

/-- `process_feedback` (feedback_monitor.cpp:70-115). -/
def M.feedback {E : Type} (m : M E) (r : Report) : M E :=
  if m.started = false then m
  else
    let m := if m.has = false then { m with src := r.src } else m
    if m.has = true ∧ m.src ≠ r.src then
      let a := m.allow r.time
      if a.2 = false then a.1
      else M.store { a.1 with src := r.src } r
    else m.store r

/-- `update_tuner_` (feedback_monitor.cpp:161-188); the result is not used by the caller. -/
def M.updateTuner {E : Type} (env : Env E) (m : M E) (now dur : Nat) : Except Err (M E) :=
  if m.has = false then .ok m
  else if (now : Int) - m.lastTs > m.timeout then .ok { m with has := false, lastTs := 0, src := 0 }
  else
    match (m.tuner.write env.conv m.lat).update env.est with
    | none => .error .hang
    | some (t, false) => .ok { m with tuner := t }
    | some (t, true) =>
      match t.advance dur with
      | none => .error .hang
      | some t => .ok { m with tuner := t }

/-- `update_scaling_` (feedback_monitor.cpp:201-215) and the check of its result
(feedback_monitor.cpp:125-130). -/
def M.updateScaling {E : Type} (env : Env E) (m : M E) : Except Err (M E × List Rat) :=
  let f := m.tuner.fetch
  if f.2 > 0 then
    if env.accepts f.2 = true then .ok ({ m with tuner := f.1 }, [f.2]) else .error .panic
  else .ok ({ m with tuner := f.1 }, [])

/-- What a call does to the outside: factors passed to the resampler, and frames passed on. (Part of the model of roc_audio/feedback_monitor.cpp:18-215.) -/
inductive Eff
  | scale (v : Rat)
  | frame (id : Nat)
deriving DecidableEq

/-- `write` (feedback_monitor.cpp:117-134) of a frame number `id`. -/
def M.write {E : Type} (env : Env E) (m : M E) (now dur id : Nat) : Except Err (M E × List Eff) :=
  if m.started = false then .ok (m, [.frame id])
  else
    (m.updateTuner env now dur).bind fun m =>
      if m.scaling then (m.updateScaling env).map fun r => (r.1, r.2.map Eff.scale ++ [.frame id])
      else .ok (m, [.frame id])

/-- Calls of the user (feedback_monitor.h:76-86). -/
inductive Ev
  | start
  | report (r : Report)
  | write (now dur id : Nat)
deriving DecidableEq

/-- One call; `start` is feedback_monitor.cpp:59-68. -/
def M.call {E : Type} (env : Env E) (m : M E) : Ev → Except Err (M E × List Eff)
  | .start => .ok ({ m with started := true }, [])
  | .report r => .ok (m.feedback r, [])
  | .write now dur id => m.write env now dur id

/-- A history of calls, and its effects (feedback_monitor.h:76-86). -/
def M.run {E : Type} (env : Env E) : M E → List Ev → Except Err (M E × List Eff)
  | m, [] => .ok (m, [])
  | m, e :: es => (m.call env e).bind fun r => (r.1.run env es).map fun q => (q.1, r.2 ++ q.2)

/-- `num_participants` (feedback_monitor.cpp:136-139). -/
def M.participants {E : Type} (m : M E) : Nat := if m.has then 1 else 0

/-- `latency_metrics` (feedback_monitor.cpp:141-149); `none` is an abort. -/
def M.latMetrics {E : Type} (m : M E) (i : Nat) : Option Metrics := if i ≥ m.participants then none else some m.lat

/-- `link_metrics` (feedback_monitor.cpp:151-159); `none` is an abort. -/
def M.linkMetrics {E : Type} (m : M E) (i : Nat) : Option Link := if i ≥ m.participants then none else some m.link

end Verif.Feedback
