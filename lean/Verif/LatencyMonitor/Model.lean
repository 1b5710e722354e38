import Verif.LatencyTuner.Model

/-!
# Latency monitor: model

Models `src/internal_modules/roc_audio/latency_monitor.cpp` on top of the model of the latency tuner.

The incoming queue, the depacketizer, the clock and the reader of frames are the environment: what they answer is
given with every call. Which factors the resampler accepts is a parameter. Link metrics are left out: the tuner
uses them only in log messages. Nanoseconds are unbounded integers.
-/

namespace Verif.LatencyMonitor

open Verif.LatencyTuner (St Cfg Metrics Est)

/-- What can go wrong: an abort, or a loop that does not end (see `Verif.LatencyTuner`). (Part of the model of roc_audio/latency_monitor.cpp:20-213.) -/
inductive Err
  | panic
  | hang
deriving DecidableEq

/-- `stream_timestamp_diff` (roc_packet/units.h:44-47). -/
def sdiff (a b : Nat) : Int := (((a : Int) - b + 2147483648) % 4294967296) - 2147483648

/-- What is used of `incoming_queue_.latest()` (latency_monitor.cpp:134-155): stream timestamp, duration and time of
receipt (zero if unknown). -/
structure Pkt where
  ts : Nat
  dur : Nat
  rts : Int
deriving DecidableEq

/-- What is used of a frame (latency_monitor.cpp:122-128), and an identifier. -/
structure Frame where
  id : Nat
  capture : Int
  dur : Nat
deriving DecidableEq

/-- What `read` finds: `head`: `depacketizer_.next_timestamp()` if it is started; `frame`: result of
`frame_reader_.read`, if it succeeds (latency_monitor.cpp:69-92, 130-163). -/
structure Obs where
  head : Option Nat
  latest : Option Pkt
  now : Int
  frame : Option Frame
deriving DecidableEq

/-- Conversion of nanoseconds to samples of frames and of samples of packets to nanoseconds
(roc_audio/sample_spec.cpp:279-304), the estimator, and which factors the resampler accepts
(`ResamplerReader::set_scaling`, resampler_reader.cpp:58-65). -/
structure Env (E : Type) where
  conv : Int → Int
  ns : Int → Int
  est : Est E
  accepts : Rat → Bool

/-- `LatencyMonitor` (latency_monitor.h:105-125). -/
structure M (E : Type) where
  tuner : St E
  metrics : Metrics
  scaling : Bool
  capture : Int
  alive : Bool

/-- Constructor (latency_monitor.cpp:20-51) with `init_scaling_` (:180-189). `none` inside: the object is not valid.
`resampler`: the pointer is not null. The list has the factors passed to the resampler. -/
def create {E : Type} (env : Env E) (log : Nat) (e : E) (resampler : Bool) (c : Cfg) :
    Except Err (Option (M E) × List Rat) :=
  match LatencyTuner.create env.conv log e c with
  | none => .ok (none, [])
  | some t =>
    let m : M E := ⟨t, ⟨0, 0, 0⟩, c.tuning, 0, true⟩
    if c.tuning then
      if resampler = false then .error .panic
      else if env.accepts 1 = false then .ok (none, [1])
      else .ok (some m, [1])
    else .ok (some m, [])

/-- `compute_niq_latency_` (latency_monitor.cpp:130-163). -/
def niq (ns : Int → Int) (m : Metrics) (o : Obs) : Metrics :=
  match o.head with
  | none => m
  | some head =>
    match o.latest with
    | none => m
    | some p =>
      let m := { m with niq := ns (sdiff ((p.ts + p.dur) % 4294967296) head) }
      if 0 < p.rts ∧ p.rts < o.now then { m with stalling := o.now - p.rts } else m

/-- What one call does: factors passed to the resampler, whether the inner reader was called, and the frame that is
returned. (Part of the model of roc_audio/latency_monitor.cpp:20-213.) -/
structure Out where
  scales : List Rat
  called : Bool
  frame : Option Frame
deriving DecidableEq

/-- `update_scaling_` (latency_monitor.cpp:199-213) if scaling is enabled (:110-115): the tuner, the factors, and
whether it succeeded. -/
def scale {E : Type} (env : Env E) (on : Bool) (t : St E) : St E × List Rat × Bool :=
  if on then
    let f := t.fetch
    if f.2 > 0 then (f.1, [f.2], env.accepts f.2) else (f.1, [], true)
  else (t, [], true)

/-- `pre_process_` (latency_monitor.cpp:104-120): the tuner, the factors, and whether it succeeded. -/
def pre {E : Type} (env : Env E) (on : Bool) (t : St E) (m : Metrics) : Option (St E × List Rat × Bool) :=
  match (t.write env.conv m).update env.est with
  | none => none
  | some (t, false) => some (t, [], false)
  | some (t, true) => some (scale env on t)

/-- `read` (latency_monitor.cpp:69-92) with `post_process_` (:122-128). -/
def M.read {E : Type} (env : Env E) (m : M E) (o : Obs) : Except Err (M E × Out) :=
  if m.alive = false then .ok (m, ⟨[], false, none⟩)
  else
    let met := niq env.ns m.metrics o
    match pre env m.scaling m.tuner met with
    | none => .error .hang
    | some (t, fs, false) => .ok ({ m with metrics := met, tuner := t, alive := false }, ⟨fs, false, none⟩)
    | some (t, fs, true) =>
      match o.frame with
      | none => .ok ({ m with metrics := met, tuner := t }, ⟨fs, true, none⟩)
      | some f =>
        match t.advance f.dur with
        | none => .error .hang
        | some t => .ok ({ m with metrics := met, tuner := t, capture := f.capture }, ⟨fs, true, some f⟩)

/-- `reclock` (latency_monitor.cpp:94-102) with `compute_e2e_latency_` (:165-178). -/
def M.reclock {E : Type} (m : M E) (playback : Int) : M E :=
  if m.capture = 0 then m
  else if playback ≤ 0 then m
  else { m with metrics := { m.metrics with e2e := playback - m.capture } }

/-- Calls (latency_monitor.h:84-92). -/
inductive Ev
  | read (o : Obs)
  | reclock (playback : Int)
deriving DecidableEq

/-- One call (latency_monitor.h:84-92). -/
def M.call {E : Type} (env : Env E) (m : M E) : Ev → Except Err (M E × Out)
  | .read o => m.read env o
  | .reclock t => .ok (m.reclock t, ⟨[], false, none⟩)

/-- What one sees at a call: the call, whether the monitor was alive before (`is_alive`), what the call did, and
`metrics()` after it (latency_monitor.h:76-92). -/
structure Entry where
  ev : Ev
  alive : Bool
  out : Out
  metrics : Metrics
deriving DecidableEq

/-- A history of calls and what one sees (latency_monitor.h:76-92). -/
def M.run {E : Type} (env : Env E) : M E → List Ev → Except Err (M E × List Entry)
  | m, [] => .ok (m, [])
  | m, e :: es =>
    match m.call env e with
    | .error x => .error x
    | .ok (m', out) =>
      match M.run env m' es with
      | .error x => .error x
      | .ok (m'', l) => .ok (m'', ⟨e, m.alive, out, m'.metrics⟩ :: l)

end Verif.LatencyMonitor
