import Verif.LatencyMonitor.Model
import Verif.LatencyTuner.Props

/-! # Latency monitor: what the tuner sees -/

namespace Verif.LatencyMonitor

open Verif.LatencyTuner (St Cfg Metrics Est Op Res runs_append)

/-- Metrics at each call of `read` on a living monitor. -/
def seen (l : List Entry) : List Metrics :=
  l.filterMap fun e => match e.ev with
    | .read _ => if e.alive then some e.metrics else none
    | .reclock _ => none

/-- Factors passed to the resampler. -/
def factors (l : List Entry) : List Rat := l.flatMap fun e => e.out.scales

/-- Frames returned. -/
def frames (l : List Entry) : List Frame := l.filterMap fun e => e.out.frame

/-- Metrics written to the tuner. -/
def writesOf (ops : List Op) : List Metrics := ops.filterMap fun o => match o with | .write m => some m | _ => none

/-- Factors fetched from the tuner, without zeros. -/
def fetched (rs : List Res) : List Rat :=
  rs.filterMap fun r => match r with | .scaling v => if v > 0 then some v else none | _ => none

/-- Durations in the history of the tuner. -/
def durOf (ops : List Op) : Nat := (ops.map fun o => match o with | .advance d => d | _ => 0).sum

/-- What some calls did to the tuner. -/
def Sim {E : Type} (env : Env E) (t t' : St E) (w : List Metrics) (fs : List Rat) (d : Nat) : Prop :=
  ∃ ops rs, t.runs env.conv env.est ops = some (t', rs) ∧ writesOf ops = w ∧ fetched rs = fs ∧ durOf ops = d

theorem Sim.refl {E : Type} {env : Env E} (t : St E) : Sim env t t [] [] 0 := ⟨[], [], rfl, rfl, rfl, rfl⟩

theorem Sim.trans {E : Type} {env : Env E} {t u v : St E} {w x : List Metrics} {e f : List Rat} {d k : Nat}
    (h1 : Sim env t u w e d) (h2 : Sim env u v x f k) : Sim env t v (w ++ x) (e ++ f) (d + k) := by
  obtain ⟨o1, r1, a1, a2, a3, a4⟩ := h1
  obtain ⟨o2, r2, b1, b2, b3, b4⟩ := h2
  refine ⟨o1 ++ o2, r1 ++ r2, ?_, ?_, ?_, ?_⟩
  · rw [runs_append, a1]
    simp only [Option.bind_some, b1, Option.map_some]
  · unfold writesOf at *
    rw [List.filterMap_append, a2, b2]
  · unfold fetched at *
    rw [List.filterMap_append, a3, b3]
  · unfold durOf at *
    rw [List.map_append, List.sum_append, a4, b4]

theorem scale_sim {E : Type} {env : Env E} {on : Bool} {t t' : St E} {fs : List Rat} {b : Bool}
    (h : scale env on t = (t', fs, b)) : Sim env t t' [] fs 0 ∧ (b = false ↔ ∃ v ∈ fs, env.accepts v = false) := by
  unfold scale at h
  cases on with
  | false =>
    simp only [Bool.false_eq_true, if_false, Prod.mk.injEq] at h
    obtain ⟨rfl, rfl, rfl⟩ := h
    exact ⟨.refl _, by simp⟩
  | true =>
    simp only [if_true] at h
    by_cases hp : t.fetch.2 > 0
    · rw [if_pos hp] at h
      simp only [Prod.mk.injEq] at h
      obtain ⟨rfl, rfl, rfl⟩ := h
      refine ⟨⟨[.fetch], [.scaling t.fetch.2], rfl, rfl, ?_, rfl⟩, by simp⟩
      simp only [fetched, List.filterMap_cons, if_pos hp, List.filterMap_nil]
    · rw [if_neg hp] at h
      simp only [Prod.mk.injEq] at h
      obtain ⟨rfl, rfl, rfl⟩ := h
      refine ⟨⟨[.fetch], [.scaling t.fetch.2], rfl, rfl, ?_, rfl⟩, by simp⟩
      simp only [fetched, List.filterMap_cons, if_neg hp, List.filterMap_nil]

theorem pre_sim {E : Type} {env : Env E} {on : Bool} {t t' : St E} {m : Metrics} {fs : List Rat} {b : Bool}
    (h : pre env on t m = some (t', fs, b)) :
    Sim env t t' [m] fs 0 ∧ ∃ u c, (t.write env.conv m).update env.est = some (u, c)
      ∧ (b = false ↔ c = false ∨ ∃ v ∈ fs, env.accepts v = false) := by
  unfold pre at h
  cases hu : (t.write env.conv m).update env.est with
  | none => rw [hu] at h; cases h
  | some x =>
    obtain ⟨u, c⟩ := x
    rw [hu] at h
    have h1 : Sim env t u [m] [] 0 := by
      refine ⟨[.write m, .update], [.unit, .alive c], ?_, rfl, rfl, rfl⟩
      simp only [St.runs, St.call, Option.bind_some, hu, Option.map_some]
    cases c with
    | false =>
      simp only [Option.some.injEq, Prod.mk.injEq] at h
      obtain ⟨rfl, rfl, rfl⟩ := h
      exact ⟨h1, _, _, rfl, by simp⟩
    | true =>
      simp only [Option.some.injEq] at h
      obtain ⟨h2, h3⟩ := scale_sim h
      refine ⟨?_, _, _, rfl, by rw [h3]; simp⟩
      have := h1.trans h2
      simpa using this

/-- What one call of `read` on a living monitor does. -/
theorem read_spec {E : Type} {env : Env E} {m m' : M E} {o : Obs} {out : Out} (ha : m.alive = true)
    (h : m.read env o = .ok (m', out)) :
    m'.metrics = niq env.ns m.metrics o ∧ m'.scaling = m.scaling
      ∧ Sim env m.tuner m'.tuner [m'.metrics] out.scales (out.frame.elim 0 Frame.dur)
      ∧ out.called = m'.alive ∧ out.frame = (if m'.alive then o.frame else none)
      ∧ m'.capture = out.frame.elim m.capture Frame.capture
      ∧ ∃ u c, (m.tuner.write env.conv m'.metrics).update env.est = some (u, c)
        ∧ (m'.alive = false ↔ c = false ∨ ∃ v ∈ out.scales, env.accepts v = false) := by
  unfold M.read at h
  rw [if_neg (by rw [ha]; simp)] at h
  simp only at h
  cases hp : pre env m.scaling m.tuner (niq env.ns m.metrics o) with
  | none => rw [hp] at h; cases h
  | some x =>
    obtain ⟨t, fs, b⟩ := x
    rw [hp] at h
    obtain ⟨h1, u, c, h2, h3⟩ := pre_sim hp
    cases b with
    | false =>
      simp only [Except.ok.injEq, Prod.mk.injEq] at h
      obtain ⟨rfl, rfl⟩ := h
      refine ⟨rfl, rfl, h1, rfl, by simp, rfl, u, c, h2, by simpa using h3⟩
    | true =>
      cases hf : o.frame with
      | none =>
        rw [hf] at h
        simp only [Except.ok.injEq, Prod.mk.injEq] at h
        obtain ⟨rfl, rfl⟩ := h
        refine ⟨rfl, rfl, h1, ha.symm, by simp, rfl, u, c, h2, ?_⟩
        simp only [ha, Bool.true_eq_false, false_iff]
        intro hh; have := h3.2 hh; simp at this
      | some f =>
        rw [hf] at h
        simp only at h
        cases hadv : t.advance f.dur with
        | none => rw [hadv] at h; cases h
        | some t2 =>
          rw [hadv] at h
          simp only [Except.ok.injEq, Prod.mk.injEq] at h
          obtain ⟨rfl, rfl⟩ := h
          refine ⟨rfl, rfl, ?_, ha.symm, by simp [ha], rfl, u, c, h2, ?_⟩
          · have h4 : Sim env t t2 [] [] f.dur := by
              refine ⟨[.advance f.dur], [.unit], ?_, rfl, rfl, by simp [durOf]⟩
              simp only [St.runs, St.call, Option.bind_some, hadv, Option.map_some]
            simpa using h1.trans h4
          · simp only [ha, Bool.true_eq_false, false_iff]
            intro hh; have := h3.2 hh; simp at this

theorem read_dead {E : Type} {env : Env E} {m : M E} (o : Obs) (ha : m.alive = false) :
    m.read env o = .ok (m, ⟨[], false, none⟩) := by
  unfold M.read
  rw [if_pos ha]

theorem reclock_spec {E : Type} (m : M E) (t : Int) :
    (m.reclock t).tuner = m.tuner ∧ (m.reclock t).scaling = m.scaling ∧ (m.reclock t).capture = m.capture
      ∧ (m.reclock t).alive = m.alive ∧ (m.reclock t).metrics.niq = m.metrics.niq
      ∧ (m.reclock t).metrics.stalling = m.metrics.stalling
      ∧ (m.reclock t).metrics.e2e = if m.capture ≠ 0 ∧ 0 < t then t - m.capture else m.metrics.e2e := by
  unfold M.reclock
  by_cases h1 : m.capture = 0
  · rw [if_pos h1]
    exact ⟨rfl, rfl, rfl, rfl, rfl, rfl, (if_neg fun h => h.1 h1).symm⟩
  · rw [if_neg h1]
    by_cases h2 : t ≤ 0
    · rw [if_pos h2]
      exact ⟨rfl, rfl, rfl, rfl, rfl, rfl, (if_neg fun h => by omega).symm⟩
    · rw [if_neg h2]
      exact ⟨rfl, rfl, rfl, rfl, rfl, rfl, (if_pos ⟨h1, by omega⟩).symm⟩

theorem niq_e2e (ns : Int → Int) (m : Metrics) (o : Obs) : (niq ns m o).e2e = m.e2e := by
  unfold niq
  cases o.head with
  | none => rfl
  | some h =>
    cases o.latest with
    | none => rfl
    | some p => simp only; split_ifs <;> rfl

theorem run_cons {E : Type} {env : Env E} {m m' : M E} {e : Ev} {es : List Ev} {l : List Entry}
    (h : m.run env (e :: es) = .ok (m', l)) :
    ∃ m1 out l1, m.call env e = .ok (m1, out) ∧ m1.run env es = .ok (m', l1) ∧ l = ⟨e, m.alive, out, m1.metrics⟩ :: l1 := by
  simp only [M.run] at h
  cases hc : m.call env e with
  | error x => rw [hc] at h; cases h
  | ok a =>
    obtain ⟨m1, out⟩ := a
    rw [hc] at h
    simp only at h
    cases hr : m1.run env es with
    | error x => rw [hr] at h; cases h
    | ok b =>
      obtain ⟨m2, l1⟩ := b
      rw [hr] at h
      simp only [Except.ok.injEq, Prod.mk.injEq] at h
      obtain ⟨rfl, rfl⟩ := h
      exact ⟨m1, out, l1, rfl, hr, rfl⟩

theorem run_append {E : Type} {env : Env E} {es fs : List Ev} : ∀ {m m' : M E} {l : List Entry},
    m.run env (es ++ fs) = .ok (m', l) →
    ∃ m1 l1 l2, m.run env es = .ok (m1, l1) ∧ m1.run env fs = .ok (m', l2) ∧ l = l1 ++ l2 := by
  induction es with
  | nil => intro m m' l h; exact ⟨m, [], l, rfl, h, rfl⟩
  | cons e es ih =>
    intro m m' l h
    obtain ⟨m1, out, l1, h1, h2, rfl⟩ := run_cons h
    obtain ⟨m2, k1, k2, h3, h4, rfl⟩ := ih h2
    refine ⟨m2, _ :: k1, k2, ?_, h4, rfl⟩
    simp only [M.run, h1, h3]

theorem call_sim {E : Type} {env : Env E} {m m' : M E} {e : Ev} {out : Out} (h : m.call env e = .ok (m', out)) :
    Sim env m.tuner m'.tuner (seen [⟨e, m.alive, out, m'.metrics⟩]) out.scales (out.frame.elim 0 Frame.dur)
      ∧ m'.scaling = m.scaling := by
  cases e with
  | read o =>
    cases ha : m.alive with
    | true =>
      obtain ⟨_, h2, h3, _⟩ := read_spec ha h
      exact ⟨by simpa [seen] using h3, h2⟩
    | false =>
      simp only [M.call, read_dead o ha, Except.ok.injEq, Prod.mk.injEq] at h
      obtain ⟨rfl, rfl⟩ := h
      exact ⟨by simpa [seen] using Sim.refl m.tuner, rfl⟩
  | reclock t =>
    simp only [M.call, Except.ok.injEq, Prod.mk.injEq] at h
    obtain ⟨rfl, rfl⟩ := h
    obtain ⟨h1, h2, _⟩ := reclock_spec m t
    exact ⟨by rw [h1]; simpa [seen] using Sim.refl m.tuner, h2⟩

theorem run_sim {E : Type} {env : Env E} (es : List Ev) : ∀ {m m' : M E} {l : List Entry}, m.run env es = .ok (m', l) →
    Sim env m.tuner m'.tuner (seen l) (factors l) ((frames l).map Frame.dur).sum ∧ m'.scaling = m.scaling := by
  induction es with
  | nil =>
    intro m m' l h
    simp only [M.run, Except.ok.injEq, Prod.mk.injEq] at h
    obtain ⟨rfl, rfl⟩ := h
    exact ⟨.refl _, rfl⟩
  | cons e es ih =>
    intro m m' l h
    obtain ⟨m1, out, l1, h1, h2, rfl⟩ := run_cons h
    obtain ⟨a1, a2⟩ := call_sim h1
    obtain ⟨b1, b2⟩ := ih h2
    refine ⟨?_, b2.trans a2⟩
    have := a1.trans b1
    have e1 : seen (⟨e, m.alive, out, m1.metrics⟩ :: l1) = seen [⟨e, m.alive, out, m1.metrics⟩] ++ seen l1 := by
      unfold seen; rw [← List.filterMap_append]; rfl
    have e3 : ((frames (⟨e, m.alive, out, m1.metrics⟩ :: l1)).map Frame.dur).sum
        = out.frame.elim 0 Frame.dur + ((frames l1).map Frame.dur).sum := by
      cases hf : out.frame <;> simp [frames, hf]
    rw [e1, e3]
    simpa [factors] using this

theorem create_spec {E : Type} {env : Env E} {log : Nat} {e : E} {b : Bool} {c : Cfg} {m : M E} {fs : List Rat}
    (h : create env log e b c = .ok (some m, fs)) :
    LatencyTuner.create env.conv log e c = some m.tuner ∧ m.metrics = ⟨0, 0, 0⟩ ∧ m.scaling = c.tuning ∧ m.capture = 0
      ∧ m.alive = true ∧ fs = if c.tuning then [1] else [] := by
  unfold create at h
  cases ht : LatencyTuner.create env.conv log e c with
  | none => rw [ht] at h; simp at h
  | some t =>
    rw [ht] at h
    simp only at h
    cases hc : c.tuning with
    | false =>
      simp only [hc, Bool.false_eq_true, if_false, Except.ok.injEq, Prod.mk.injEq, Option.some.injEq] at h
      obtain ⟨rfl, rfl⟩ := h
      exact ⟨rfl, rfl, rfl, rfl, rfl, by simp⟩
    | true =>
      simp only [hc, if_true] at h
      split_ifs at h
      · simp only [Except.ok.injEq, Prod.mk.injEq, reduceCtorEq, false_and] at h
      · simp only [Except.ok.injEq, Prod.mk.injEq, Option.some.injEq] at h
        obtain ⟨rfl, rfl⟩ := h
        exact ⟨rfl, rfl, rfl, rfl, rfl, by simp⟩

end Verif.LatencyMonitor
