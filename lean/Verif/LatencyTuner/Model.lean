import Mathlib.Data.Rat.Floor

/-!
# Latency tuner

Model of `src/internal_modules/roc_audio/latency_tuner.cpp`.

Conversion of nanoseconds to samples (`SampleSpec::ns_2_stream_timestamp_delta`) is a parameter `conv`; the frequency estimator is a parameter: a state, its `update` and its `freq_coeff`.
Frequency coefficients (`float`) are rational numbers: they are only compared here. Positions are 32-bit unsigned numbers. Log messages are left out, but not the loop that decides when to write them.
-/

namespace Verif.LatencyTuner

/-- Range of `stream_timestamp_t` (roc_packet/units.h:36). -/
abbrev m32 : Nat := 4294967296

/-- `LatencyTunerBackend` (latency_tuner.h:29-43); the default one is replaced by `deduce_defaults`. -/
inductive Backend
  | niq
  | e2e
deriving DecidableEq

/-- `LatencyConfig` after `deduce_defaults` (latency_tuner.h:68-130); `tuning`: the profile is not `Intact`. -/
structure Cfg where
  backend : Backend
  tuning : Bool
  target : Int
  tolerance : Int
  stale : Int
  interval : Int
  delta : Rat

/-- `LatencyMetrics` (latency_tuner.h:133-153), in nanoseconds. -/
structure Metrics where
  niq : Int
  stalling : Int
  e2e : Int
deriving DecidableEq

/-- The frequency estimator (freq_estimator.h:62-95). -/
structure Est (E : Type) where
  upd : E → Nat → E
  coeff : E → Rat

/-- `LatencyTuner` (latency_tuner.h:206-247). `pos`, `scalePos`, `reportPos`: positions; `niq`, `stalling`: `niq_latency_`, `niq_stalling_` if `has_niq_latency_`; `e2e` likewise; `fresh`: `has_new_freq_coeff_`.
`count` is not in the code: the number of updates of the estimator so far. -/
structure St (E : Type) where
  pos : Nat
  interval : Nat
  scalePos : Nat
  reportInterval : Nat
  reportPos : Nat
  fresh : Bool
  coeff : Rat
  delta : Rat
  backend : Backend
  tuning : Bool
  bounds : Bool
  niq : Option (Int × Int)
  e2e : Option Int
  min : Int
  max : Int
  maxStalling : Int
  fe : E
  count : Nat

/-- Constructor (latency_tuner.cpp:140-258); `none` if the object is not valid. `e` is the state of a new estimator, `log` the interval of log messages. An interval is positive as a signed number when it is used. -/
def create {E : Type} (conv : Int → Int) (log : Nat) (e : E) (c : Cfg) : Option (St E) :=
  if c.target < 0 then none
  else
    let bounds := c.tuning || decide (c.tolerance ≠ 0)
    let s : St E := ⟨0, 0, 0, log, 0, false, 0, c.delta, c.backend, c.tuning, bounds, none, none, 0, 0, 0, e, 0⟩
    if bounds then
      if c.target ≤ 0 ∨ conv c.target ≤ 0 then none
      else if c.tolerance < 0 then none
      else
        let s := { s with min := conv (c.target - c.tolerance), max := conv (c.target + c.tolerance), maxStalling := conv c.stale }
        if c.tuning then
          if c.interval ≤ 0 ∨ conv c.interval ≤ 0 then none
          else if c.delta ≤ 0 then none
          else some { s with interval := (conv c.interval).toNat }
        else some s
    else some s

/-- `write_metrics` (latency_tuner.cpp:264-287); the jitter is used in log messages only. -/
def St.write {E : Type} (conv : Int → Int) (s : St E) (m : Metrics) : St E :=
  let s := if m.niq > 0 ∨ m.stalling > 0 ∨ s.niq.isSome then { s with niq := some (conv m.niq, conv m.stalling) } else s
  if m.e2e > 0 ∨ s.e2e.isSome then { s with e2e := some (conv m.e2e) } else s

/-- `while (pos >= q) { ...; q += k; }` with 32-bit numbers (latency_tuner.cpp:405-408, 423-425): the number of iterations and the new `q`; `none` if the loop does not end within `fuel` iterations. -/
def spin (pos k : Nat) : Nat → Nat → Option (Nat × Nat)
  | 0, _ => none
  | fuel + 1, q => if q ≤ pos then (spin pos k fuel ((q + k) % m32)).map fun r => (r.1 + 1, r.2) else some (0, q)

/-- The loop without a limit: after `2^32` iterations all values of `q` have been seen (`spin_forever`). (roc_audio/latency_tuner.cpp:140-446) -/
def loop (pos k q : Nat) : Option (Nat × Nat) := spin pos k (m32 + 1) q

/-- `n` updates of the estimator with the same value (latency_tuner.cpp:406). -/
def feed {E : Type} (est : Est E) (e : E) (v : Nat) : Nat → E
  | 0 => e
  | n + 1 => feed est (est.upd e v) v n

/-- `check_bounds_` (latency_tuner.cpp:345-387). -/
def St.check {E : Type} (s : St E) (latency : Int) : Bool :=
  let stalled := decide (s.backend = .niq) && decide ((s.niq.map (·.2)).getD 0 > s.maxStalling) && decide (s.maxStalling > 0)
  if latency < s.min ∧ stalled = true then true
  else if latency < s.min ∨ latency > s.max then false
  else true

/-- `compute_scaling_` (latency_tuner.cpp:389-408); `none`: the loop does not end. -/
def St.scale {E : Type} (est : Est E) (s : St E) (latency : Int) : Option (St E) :=
  if s.pos < s.scalePos then some s
  else
    match loop s.pos s.interval s.scalePos with
    | none => none
    | some (n, q) =>
      let fe := feed est s.fe latency.toNat n
      some { s with fe := fe, scalePos := q, count := s.count + n, fresh := true, coeff := Max.max (Min.min (est.coeff fe) (1 + s.delta)) (1 - s.delta) }

/-- The latency that is used, if it is known (latency_tuner.cpp:294-313). -/
def St.latency {E : Type} (s : St E) : Option Int :=
  match s.backend with
  | .niq => s.niq.map (·.1)
  | .e2e => s.e2e

/-- `update_stream` (latency_tuner.cpp:289-324). -/
def St.update {E : Type} (est : Est E) (s : St E) : Option (St E × Bool) :=
  match s.latency with
  | none => some (s, true)
  | some l =>
    if s.bounds = true ∧ s.check l = false then some (s, false)
    else if s.tuning then (s.scale est l).map fun s => (s, true)
    else some (s, true)

/-- `report_` (latency_tuner.cpp:410-431) without the message. -/
def St.report {E : Type} (s : St E) : Option (St E) :=
  if s.pos < s.reportPos then some s else (loop s.pos s.reportInterval s.reportPos).map fun r => { s with reportPos := r.2 }

/-- `advance_stream` (latency_tuner.cpp:326-332). -/
def St.advance {E : Type} (s : St E) (d : Nat) : Option (St E) := St.report { s with pos := (s.pos + d) % m32 }

/-- `fetch_scaling` (latency_tuner.cpp:334-343). -/
def St.fetch {E : Type} (s : St E) : St E × Rat := if s.fresh then ({ s with fresh := false }, s.coeff) else (s, 0)

/-- Calls (latency_tuner.h:176-200). -/
inductive Op
  | write (m : Metrics)
  | update
  | advance (d : Nat)
  | fetch
deriving DecidableEq

/-- Results of calls (latency_tuner.h:176-200). -/
inductive Res
  | unit
  | alive (b : Bool)
  | scaling (v : Rat)
deriving DecidableEq

/-- One call; `none`: it does not return (latency_tuner.h:176-200). -/
def St.call {E : Type} (conv : Int → Int) (est : Est E) (s : St E) : Op → Option (St E × Res)
  | .write m => some (s.write conv m, .unit)
  | .update => (s.update est).map fun r => (r.1, .alive r.2)
  | .advance d => (s.advance d).map fun s => (s, .unit)
  | .fetch => some (s.fetch.1, .scaling s.fetch.2)

/-- A history of calls and its results (latency_tuner.h:176-200). -/
def St.runs {E : Type} (conv : Int → Int) (est : Est E) : St E → List Op → Option (St E × List Res)
  | s, [] => some (s, [])
  | s, o :: os => (s.call conv est o).bind fun r => (r.1.runs conv est os).map fun q => (q.1, r.2 :: q.2)

end Verif.LatencyTuner
