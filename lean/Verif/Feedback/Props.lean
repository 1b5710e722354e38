import Verif.Feedback.Tuner
import Verif.Decimation.Model

/-!
# C97: feedback monitor

Theorems about histories of calls of a feedback monitor made by the constructor. A history is given
oldest call first; `view` and `fed` take it newest call first.
-/

namespace Verif.Feedback

open Verif.LatencyTuner

/-- An estimator that always gives the same coefficient. -/
def exEst (v : Rat) : Est Nat := ⟨fun e _ => e + 1, fun _ => v⟩

/-- The environment of examples: nanoseconds are samples, all factors are accepted. -/
def exEnv (v : Rat) : Env Nat := ⟨id, exEst v, fun _ => true⟩

/-- Timeout 1500, cooldown 50. -/
def exF : FCfg := ⟨1500, 50⟩

/-- The monitor that the constructor makes in examples. -/
def exM : M Nat := ⟨sampleSt, ⟨0, 0, 0⟩, ⟨0, 0, 0, 0, 0, 0⟩, false, false, 0, 1500, true, 0, ⟨50, 0⟩, none, false⟩

theorem ex_create (v : Rat) : create (exEnv v) 240000 0 true exF sampleCfg = .ok (some exM, [1]) := by
  unfold create RateLimiter.State.init exF
  rw [if_neg (by decide)]
  have : LatencyTuner.create (exEnv v).conv 240000 0 sampleCfg = some sampleSt := sample_create
  simp only [this]
  rfl

/-- A computed check of a result. -/
def okAnd {α : Type} (x : Except Err α) (p : α → Bool) : Bool := match x with | .ok a => p a | .error _ => false

theorem of_okAnd {α : Type} {x : Except Err α} {p : α → Bool} (h : okAnd x p = true) : ∃ a, x = .ok a ∧ p a = true := by
  cases x with
  | error e => cases h
  | ok a => exact ⟨a, rfl, h⟩

theorem run_append {E : Type} (env : Env E) (l k : List Ev) : ∀ m : M E, m.run env (l ++ k) = (m.run env l).bind fun r => (r.1.run env k).map fun q => (q.1, r.2 ++ q.2) := by
  induction l with
  | nil =>
    intro m
    simp only [List.nil_append, M.run, Except.bind]
    cases m.run env k <;> rfl
  | cons e es ih =>
    intro m
    simp only [List.cons_append, M.run]
    cases m.call env e with
    | error x => rfl
    | ok a =>
      simp only [Except.bind, ih]
      cases M.run env a.1 es with
      | error x => rfl
      | ok b =>
        simp only [Except.map]
        cases M.run env b.1 k with
        | error x => rfl
        | ok c => simp only [List.append_assoc]

/-- A report with the given time, source, latency, counter of packets, and counter of the sender. -/
def rep (t s : Nat) (niq : Int) (total sent : Nat) : Report := ⟨t, s, ⟨niq, 0, 0⟩, ⟨0, 0, total, 0, 0, 0⟩, sent⟩

/-- **C97.** After every history there is one participant if there is a report that counts and is not too old,
and none otherwise. The metrics are those of that report, except the counter of packets, which is the
counter of the sender if some report that counted had none. Other indices are an abort. -/
theorem C97_view {E : Type} (env : Env E) (log : Nat) (e : E) (b : Bool) (f : FCfg) (c : Cfg) (m0 m : M E) (fs : List Rat) (l : List Ev) (eff : List Eff)
    (h0 : create env log e b f c = .ok (some m0, fs)) (h : m0.run env l = .ok (m, eff)) :
    match (view f.timeout f.cooldown.toNat l.reverse).cur with
    | none => m.participants = 0 ∧ ∀ i, m.latMetrics i = none ∧ m.linkMetrics i = none
    | some r => m.participants = 1 ∧ m.latMetrics 0 = some r.lat ∧ m.linkMetrics 0 = some (linkOf (view f.timeout f.cooldown.toNat l.reverse).taken r) ∧
        ∀ i, 0 < i → m.latMetrics i = none ∧ m.linkMetrics i = none := by
  obtain ⟨hp, hi, _⟩ := create_inv h0
  have h1 := run_inv hp l hi h
  rw [List.append_nil] at h1
  split
  · rename_i hc
    have hh : m.has = false := by rw [h1.has, hc]; rfl
    unfold M.latMetrics M.linkMetrics M.participants
    rw [hh]
    simp
  · rename_i r hc
    have hh : m.has = true := by rw [h1.has, hc]; rfl
    obtain ⟨_, _, a1, a2⟩ := h1.cur r hc
    unfold M.latMetrics M.linkMetrics M.participants
    rw [hh, a1, a2]
    refine ⟨rfl, rfl, rfl, fun i hi => ?_⟩
    simp only [if_true]
    rw [if_pos (by omega), if_pos (by omega)]
    exact ⟨rfl, rfl⟩

/-- A history: a first report, a report of another source, a late report of the first one, frames. -/
def exL : List Ev := [.report (rep 5 1 9000 7 9), .start, .report (rep 10 1 9600 7 9), .write 12 240 0, .report (rep 20 2 9700 0 11), .report (rep 30 1 9800 8 12), .write 40 240 1, .report (rep 50 2 9900 9 15)]

example : ∃ m eff, exM.run (exEnv 1) exL = .ok (m, eff) ∧ (view 1500 50 exL.reverse).cur = some (rep 50 2 9900 9 15) ∧ (view 1500 50 exL.reverse).taken.length = 3 ∧
    linkOf (view 1500 50 exL.reverse).taken (rep 50 2 9900 9 15) = ⟨0, 0, 15, 0, 0, 0⟩ := by
  obtain ⟨a, h, _⟩ := of_okAnd (x := exM.run (exEnv 1) exL) (p := fun _ => true) (by decide +kernel)
  exact ⟨a.1, a.2, h, by decide, by decide, by decide⟩

theorem view_cells (timeout : Int) (period : Nat) (past : List Ev) : ∀ cs first, (view timeout period past).changes = cs → cs.getLastD 0 = first →
    cs.Pairwise (fun a b => (b - first) / period < (a - first) / period) := by
  induction past with
  | nil =>
    intro cs first h _
    rw [← h]
    exact List.Pairwise.nil
  | cons e es ih =>
    intro cs first h hf
    cases e with
    | start => exact ih cs first h hf
    | write now d i =>
      refine ih cs first ?_ hf
      rw [← h]
      simp only [view]
      split
      · rfl
      · split_ifs <;> rfl
    | report r =>
      simp only [view] at h
      by_cases h1 : started es = false
      · rw [if_pos h1] at h
        exact ih cs first h hf
      · rw [if_neg h1] at h
        split at h
        · exact ih cs first h hf
        · split_ifs at h with h2 h3
          · exact ih cs first h hf
          · rw [← h]
            cases hc : (view timeout period es).changes with
            | nil => exact List.pairwise_singleton _ _
            | cons a as =>
              have hfst : (a :: as).getLastD 0 = first := by
                rw [← hf, ← h]
                simp only [hc]
                exact getLastD_cons_cons.symm
              have := ih (a :: as) first hc hfst
              refine List.pairwise_cons.2 ⟨fun x hx => ?_, this⟩
              have hg : (a - first) / period < (r.time - first) / period := by
                rw [hc] at h3
                simp only [free, decide_eq_true_eq] at h3
                rw [hfst] at h3
                exact h3
              rcases List.mem_cons.1 hx with rfl | hx
              · exact hg
              · exact lt_trans ((List.pairwise_cons.1 this).1 x hx) hg
          · exact ih cs first h hf

/-- **C97** (partial: on a grid of periods). The source of the metrics changes at most once in a cooldown
period counted from the first change, and any three changes take more than a period. Missing: a whole
period between two changes (`C97_cooldown_fails`). -/
theorem C97_cooldown_partial (timeout : Int) (period : Nat) (hp : 0 < period) (past : List Ev) :
    (view timeout period past).changes.Pairwise (fun a b => (b - (view timeout period past).changes.getLastD 0) / period < (a - (view timeout period past).changes.getLastD 0) / period) ∧
    ∀ pre x mid y mid' z post, (view timeout period past).changes = pre ++ x :: mid ++ y :: mid' ++ z :: post → z + period < x := by
  have h := view_cells timeout period past _ _ rfl rfl
  refine ⟨h, ?_⟩
  intro pre x mid y mid' z post hx
  generalize hfst : (view timeout period past).changes.getLastD 0 = first at h
  rw [hx] at h
  simp only [List.append_assoc, List.cons_append, List.pairwise_append, List.pairwise_cons, List.mem_append, List.mem_cons] at h
  have hxy : (y - first) / period < (x - first) / period := h.2.1.1 y (by simp)
  have hyz : (z - first) / period < (y - first) / period := h.2.1.2.2.1.1 z (by simp)
  have h1 := Nat.div_add_mod (z - first) period
  have h2 := Nat.mod_lt (z - first) hp
  have h3 := Nat.div_mul_le_self (x - first) period
  have h4 : ((z - first) / period + 2) * period ≤ (x - first) / period * period := Nat.mul_le_mul_right _ (by omega)
  rw [Nat.add_mul, Nat.mul_comm] at h4
  omega

/-- **C97 fails** (cooldown). The source may change twice within a nanosecond: with a cooldown of 50, reports of
two receivers at the times 109 and 110 are both taken, and the user sees the metrics of each. -/
theorem C97_cooldown_fails : ∃ (m1 m2 : M Nat) (e1 e2 : List Eff),
    exM.run (exEnv 1) [.start, .report (rep 0 1 9600 1 1), .report (rep 10 2 9700 1 1), .report (rep 109 1 9800 1 1)] = .ok (m1, e1) ∧ m1.latMetrics 0 = some ⟨9800, 0, 0⟩ ∧
    exM.run (exEnv 1) [.start, .report (rep 0 1 9600 1 1), .report (rep 10 2 9700 1 1), .report (rep 109 1 9800 1 1), .report (rep 110 2 9900 1 1)] = .ok (m2, e2) ∧
      m2.latMetrics 0 = some ⟨9900, 0, 0⟩ ∧
    (view 1500 50 [.report (rep 110 2 9900 1 1), .report (rep 109 1 9800 1 1), .report (rep 10 2 9700 1 1), .report (rep 0 1 9600 1 1), .start]).changes = [110, 109, 10] :=
  ⟨_, _, _, _, rfl, by decide, rfl, by decide, by decide⟩

/-- **C97 fails** (counter of packets). When a receiver that reports no counter is gone for longer than the
timeout, and another receiver that does report its counter comes, its counter is still replaced by
the counter of the sender. -/
theorem C97_counter_fails : ∃ (m : M Nat) (eff : List Eff),
    exM.run (exEnv 1) [.start, .report (rep 0 1 9600 0 100), .write 2000 240 0, .report (rep 3000 2 9600 5 200)] = .ok (m, eff) ∧
    (view 1500 50 [.write 2000 240 0, .report (rep 0 1 9600 0 100), .start]).cur = none ∧ m.linkMetrics 0 = some ⟨0, 0, 200, 0, 0, 0⟩ :=
  ⟨_, _, rfl, by decide, by decide⟩

theorem call_frames {E : Type} {env : Env E} {m m' : M E} {e : Ev} {eff : List Eff} (h : m.call env e = .ok (m', eff)) : framesOut eff = framesIn [e] := by
  cases e with
  | start => injection h with h; injection h with _ h; rw [← h]; rfl
  | report r => injection h with h; injection h with _ h; rw [← h]; rfl
  | write now dur id =>
    simp only [M.call] at h
    unfold M.write at h
    split_ifs at h
    · injection h with h; injection h with _ h; rw [← h]; rfl
    · cases h1 : m.updateTuner env now dur with
      | error e => rw [h1] at h; cases h
      | ok m1 =>
        rw [h1] at h
        simp only [Except.bind] at h
        split_ifs at h
        · unfold M.updateScaling at h
          simp only at h
          split_ifs at h
          · injection h with h; injection h with _ h; rw [← h]; rfl
          · cases h
          · injection h with h; injection h with _ h; rw [← h]; rfl
        · injection h with h; injection h with _ h; rw [← h]; rfl

theorem framesIn_cons (e : Ev) (es : List Ev) : framesIn (e :: es) = framesIn [e] ++ framesIn es := by
  cases e <;> rfl

/-- **C97.** Every frame is passed on exactly once, in order, whatever the feedback is. -/
theorem C97_frames {E : Type} (env : Env E) (l : List Ev) : ∀ (m0 m : M E) (eff : List Eff), m0.run env l = .ok (m, eff) → framesOut eff = framesIn l := by
  induction l with
  | nil => intro m0 m eff h; injection h with h; injection h with _ h; rw [← h]; rfl
  | cons e es ih =>
    intro m0 m eff h
    simp only [M.run] at h
    cases h1 : m0.call env e with
    | error x => rw [h1] at h; cases h
    | ok a =>
      rw [h1] at h
      simp only [Except.bind] at h
      cases h2 : M.run env a.1 es with
      | error x => rw [h2] at h; cases h
      | ok q =>
        rw [h2] at h
        injection h with h
        injection h with _ h
        rw [← h, framesIn_cons]
        unfold framesOut at *
        rw [List.filterMap_append, ih a.1 q.1 q.2 h2]
        exact congrArg (· ++ framesIn es) (call_frames h1)

example : ∃ m eff, exM.run (exEnv (501 / 500)) exL = .ok (m, eff) ∧ eff = [.scale (501 / 500), .frame 0, .scale (501 / 500), .frame 1] := by
  obtain ⟨a, h, h2⟩ := of_okAnd (x := exM.run (exEnv (501 / 500)) exL) (p := fun a => decide (a.2 = [.scale (501 / 500), .frame 0, .scale (501 / 500), .frame 1])) (by decide +kernel)
  exact ⟨a.1, a.2, h, of_decide_eq_true h2⟩

/-- **C97.** The tuner gets, for every frame, the latency metrics of the report that the user sees, and gets nothing
when there is no such report or it is too old. The factors passed to the resampler are those that the tuner
returns, in the same order. Before that the factor one is passed, if tuning is enabled; otherwise none
is ever passed. Every factor is within the configured tolerance of one. -/
theorem C97_scaling {E : Type} (env : Env E) (log : Nat) (e : E) (b : Bool) (f : FCfg) (c : Cfg) (m0 m : M E) (fs : List Rat) (l : List Ev) (eff : List Eff)
    (h0 : create env log e b f c = .ok (some m0, fs)) (h : m0.run env l = .ok (m, eff)) :
    fs = (if c.tuning then [1] else []) ∧ (c.tuning = false → factors eff = []) ∧ (∀ v ∈ factors eff, 0 < v ∧ 1 - c.delta ≤ v ∧ v ≤ 1 + c.delta) ∧
    ∃ t0 t ops rs, LatencyTuner.create env.conv log e c = some t0 ∧ t0.runs env.conv env.est ops = some (t, rs) ∧
      writesOf ops = (fed f.timeout f.cooldown.toNat l.reverse).reverse ∧ fetched rs = factors eff := by
  obtain ⟨hp, hi, _, ht, hfs⟩ := create_inv h0
  obtain ⟨w, ⟨ops, rs, s1, s2, s3⟩, s4, _⟩ := run_sim hp l hi h
  have hw : (fed f.timeout f.cooldown.toNat l.reverse).reverse = w := by
    rw [List.append_nil] at s4
    rw [s4]
    simp [fed]
  have key : ∀ v ∈ factors eff, 0 < v ∧ (v = 0 ∨ (c.tuning = true ∧ 1 - c.delta ≤ v ∧ v ≤ 1 + c.delta)) := by
    intro v hv
    rw [← s3] at hv
    unfold fetched at hv
    obtain ⟨r, hr, hrv⟩ := List.mem_filterMap.1 hv
    cases r with
    | unit => cases hrv
    | alive b => cases hrv
    | scaling u =>
      simp only at hrv
      split_ifs at hrv with hu
      injection hrv with hrv
      subst hrv
      exact ⟨hu, C66_scaling env.conv env.est log e c m0.tuner m.tuner ht ops rs s1 u hr⟩
  refine ⟨hfs, ?_, ?_, m0.tuner, m.tuner, ops, rs, ht, s1, s2.trans hw.symm, s3⟩
  · intro hc
    rw [List.eq_nil_iff_forall_not_mem]
    intro v hv
    rcases (key v hv).2 with h1 | h1
    · exact absurd h1 (ne_of_gt (key v hv).1)
    · rw [hc] at h1; cases h1.1
  · intro v hv
    rcases (key v hv).2 with h1 | h1
    · exact absurd h1 (ne_of_gt (key v hv).1)
    · exact ⟨(key v hv).1, h1.2⟩

example : fed 1500 50 exL.reverse = [⟨9700, 0, 0⟩, ⟨9600, 0, 0⟩] := by decide

/-- **C97.** No call aborts if the resampler accepts all factors within the tolerance. -/
theorem C97_no_abort {E : Type} (env : Env E) (log : Nat) (e : E) (b : Bool) (f : FCfg) (c : Cfg) (m0 : M E) (fs : List Rat) (l : List Ev)
    (h0 : create env log e b f c = .ok (some m0, fs)) (ha : ∀ v, 0 < v → 1 - c.delta ≤ v → v ≤ 1 + c.delta → env.accepts v = true) : m0.run env l ≠ .error .panic := by
  obtain ⟨hp, hi, _, ht, _⟩ := create_inv h0
  have key : ∀ (l past : List Ev) (m : M E) (ops : List Op) (rs : List Res), Inv f.timeout f.cooldown.toNat past m → m0.tuner.runs env.conv env.est ops = some (m.tuner, rs) →
      m.run env l ≠ .error .panic := by
    intro l
    induction l with
    | nil => intro past m ops rs _ _ h; cases h
    | cons ev es ih =>
      intro past m ops rs hinv hr h
      simp only [M.run] at h
      cases h1 : m.call env ev with
      | ok a =>
        rw [h1] at h
        simp only [Except.bind] at h
        cases h2 : M.run env a.1 es with
        | ok q => rw [h2] at h; cases h
        | error x =>
          rw [h2] at h
          injection h with h
          subst h
          obtain ⟨⟨o2, r2, b1, _, _⟩, _⟩ := call_sim (eff := a.2) hinv h1
          refine ih (ev :: past) a.1 (ops ++ o2) (rs ++ r2) (call_inv (eff := a.2) hp hinv h1) ?_ h2
          rw [runs_append, hr]
          simp only [Option.bind_some, b1, Option.map_some]
      | error x =>
        rw [h1] at h
        injection h with h
        subst h
        cases ev with
        | start => cases h1
        | report r => cases h1
        | write now dur id =>
          simp only [M.call] at h1
          unfold M.write at h1
          split_ifs at h1
          cases h2 : m.updateTuner env now dur with
          | error e =>
            rw [h2] at h1
            injection h1 with h1
            subst h1
            unfold M.updateTuner at h2
            split_ifs at h2
            split at h2
            · cases h2
            · cases h2
            · split at h2 <;> cases h2
          | ok m1 =>
            rw [h2] at h1
            simp only [Except.bind] at h1
            split_ifs at h1
            obtain ⟨⟨o2, r2, b1, _, _⟩, _⟩ := updateTuner_sim (id := id) hinv h2
            have hr2 : m0.tuner.runs env.conv env.est (ops ++ (o2 ++ [.fetch])) = some (m1.tuner.fetch.1, rs ++ (r2 ++ [.scaling m1.tuner.fetch.2])) := by
              rw [runs_append, hr]
              simp only [Option.bind_some]
              rw [runs_append, b1]
              simp only [Option.bind_some, St.runs, St.call, Option.map_some]
            have hb := C66_scaling env.conv env.est log e c m0.tuner _ ht _ _ hr2 m1.tuner.fetch.2 (by simp)
            unfold M.updateScaling at h1
            simp only at h1
            split_ifs at h1 with h3 h4
            · cases h1
            · rcases hb with hb | hb
              · exact absurd hb (ne_of_gt h3)
              · exact h4 (ha _ h3 hb.2.1 hb.2.2)
            · cases h1
  exact key l [] m0 [] [] hi rfl

example (l : List Ev) : exM.run (exEnv 1) l ≠ .error .panic := C97_no_abort (exEnv 1) 240000 0 true exF sampleCfg exM [1] l (ex_create 1) (fun _ _ _ _ => rfl)

/-- **C97 fails** (abort). With a tolerance of 0.2, which is accepted, and the decimation resampler for two channels,
a report about a latency within the limits makes `write` abort when the estimator asks for 1.1. -/
theorem C97_refused_fails : ∃ (m0 : M Nat) (fs : List Rat),
    create ⟨id, exEst (11 / 10), Decimation.multOk 2⟩ 240000 0 true exF { sampleCfg with delta := 1 / 5 } = .ok (some m0, fs) ∧
    m0.run ⟨id, exEst (11 / 10), Decimation.multOk 2⟩ [.start, .report (rep 0 1 9600 1 1), .write 10 240 0] = .error .panic := by
  obtain ⟨a, h1, h2⟩ := of_okAnd (x := create ⟨id, exEst (11 / 10), Decimation.multOk 2⟩ 240000 0 true exF { sampleCfg with delta := 1 / 5 })
    (p := fun a => match a.1 with | none => false | some m0 => match m0.run ⟨id, exEst (11 / 10), Decimation.multOk 2⟩ [.start, .report (rep 0 1 9600 1 1), .write 10 240 0] with | .error .panic => true | _ => false)
    (by decide +kernel)
  obtain ⟨o, fs⟩ := a
  cases o with
  | none => cases h2
  | some m0 =>
    refine ⟨m0, fs, h1, ?_⟩
    simp only at h2
    split at h2
    · assumption
    · cases h2

/-- The state after the timeout does not change: frames are passed on and nothing else happens. -/
theorem silent {E : Type} (env : Env E) (m : M E) (hf : m.tuner.fresh = false) (hh : m.has = false) (ws : List (Nat × Nat × Nat)) :
    m.run env (ws.map fun w => .write w.1 w.2.1 w.2.2) = .ok (m, ws.map fun w => .frame w.2.2) := by
  induction ws with
  | nil => rfl
  | cons w ws ih =>
    have hw : m.write env w.1 w.2.1 w.2.2 = .ok (m, [.frame w.2.2]) := by
      unfold M.write
      split_ifs
      · rfl
      · unfold M.updateTuner
        rw [if_pos hh]
        simp only [Except.bind]
        have hft : m.tuner.fetch = (m.tuner, 0) := by unfold St.fetch; rw [hf]; rfl
        split_ifs
        · unfold M.updateScaling
          rw [hft]
          simp only [gt_iff_lt, lt_self_iff_false, if_false]
          rfl
        · rfl
    simp only [List.map_cons, M.run, M.call, hw, Except.bind, ih]
    rfl

/-- **C97 fails** (reset). After the timeout the resampler keeps the last factor forever: it is not set to one again, however
many frames are written. -/
theorem C97_reset_fails : ∃ pre : List Ev, (view 1500 50 pre.reverse).cur = none ∧ ∀ ws : List (Nat × Nat × Nat), ∃ (m : M Nat) (eff : List Eff),
    exM.run (exEnv (501 / 500)) (pre ++ ws.map fun w => .write w.1 w.2.1 w.2.2) = .ok (m, eff) ∧ factors eff = [501 / 500] := by
  refine ⟨[.start, .report (rep 0 1 9600 1 1), .write 10 240 0, .write 2000 240 1], by decide, fun ws => ?_⟩
  obtain ⟨a, h, h2⟩ := of_okAnd (x := exM.run (exEnv (501 / 500)) [.start, .report (rep 0 1 9600 1 1), .write 10 240 0, .write 2000 240 1])
    (p := fun a => !a.1.tuner.fresh && !a.1.has && decide (factors a.2 = [501 / 500])) (by decide +kernel)
  simp only [Bool.and_eq_true, Bool.not_eq_true', decide_eq_true_eq] at h2
  rw [run_append, h]
  simp only [Except.bind, silent _ a.1 h2.1.1 h2.1.2 ws, Except.map]
  refine ⟨_, _, rfl, ?_⟩
  have hn : ∀ ws : List (Nat × Nat × Nat), factors (ws.map fun w => Eff.frame w.2.2) = [] := by
    intro ws
    induction ws with
    | nil => rfl
    | cons w ws ih => exact ih
  have ha : ∀ l k : List Eff, factors (l ++ k) = factors l ++ factors k := fun l k => List.filterMap_append
  rw [ha, h2.2, hn, List.append_nil]

/-- A report that says that the latency is out of bounds. -/
def exBad : M Nat := { exM with started := true, has := true, lastTs := 0, src := 1, lat := ⟨20000, 0, 0⟩, link := ⟨0, 0, 1, 0, 0, 0⟩ }

theorem bad_update : (sampleSt.write id ⟨20000, 0, 0⟩).update (exEst (501 / 500)) = some (sampleSt.write id ⟨20000, 0, 0⟩, false) := rfl

theorem bad_write (m : M Nat) (hm : m = exBad ∨ m = { exBad with tuner := sampleSt.write id ⟨20000, 0, 0⟩ }) (d i : Nat) :
    m.write (exEnv (501 / 500)) 1000 d i = .ok ({ exBad with tuner := sampleSt.write id ⟨20000, 0, 0⟩ }, [.frame i]) := by
  rcases hm with rfl | rfl <;> rfl

/-- **C97 fails** (bounds). When the reported latency is out of bounds, nothing happens: the user sees the participant and all frames
are passed on, though the tuner says that the session is to be terminated. -/
theorem C97_bounds_fails (ws : List (Nat × Nat)) : ∃ (m : M Nat) (eff : List Eff),
    exM.run (exEnv (501 / 500)) ([.start, .report (rep 0 1 20000 1 1)] ++ ws.map fun w => .write 1000 w.1 w.2) = .ok (m, eff) ∧
    eff = (ws.map fun w => .frame w.2) ∧ m.participants = 1 ∧ ∃ t, (m.tuner.write id ⟨20000, 0, 0⟩).update (exEst (501 / 500)) = some (t, false) := by
  have h1 : exM.run (exEnv (501 / 500)) [.start, .report (rep 0 1 20000 1 1)] = .ok (exBad, []) := rfl
  have key : ∀ (ws : List (Nat × Nat)) (m : M Nat), (m = exBad ∨ m = { exBad with tuner := sampleSt.write id ⟨20000, 0, 0⟩ }) →
      ∃ m', (m' = exBad ∨ m' = { exBad with tuner := sampleSt.write id ⟨20000, 0, 0⟩ }) ∧ m.run (exEnv (501 / 500)) (ws.map fun w => .write 1000 w.1 w.2) = .ok (m', ws.map fun w => .frame w.2) := by
    intro ws
    induction ws with
    | nil => intro m hm; exact ⟨m, hm, rfl⟩
    | cons w ws ih =>
      intro m hm
      obtain ⟨m', h2, h3⟩ := ih _ (Or.inr rfl)
      refine ⟨m', h2, ?_⟩
      simp only [List.map_cons, M.run, M.call, bad_write m hm, Except.bind, h3, Except.map]
      rfl
  obtain ⟨m', h2, h3⟩ := key ws exBad (Or.inl rfl)
  refine ⟨m', ws.map fun w => .frame w.2, ?_, rfl, ?_, ?_⟩
  · rw [run_append, h1]
    simp only [Except.bind, h3, Except.map, List.nil_append]
  · rcases h2 with rfl | rfl <;> rfl
  · rcases h2 with rfl | rfl
    · exact ⟨_, bad_update⟩
    · exact ⟨_, bad_update⟩

end Verif.Feedback
