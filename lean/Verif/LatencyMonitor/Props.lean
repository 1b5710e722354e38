import Verif.LatencyMonitor.Lemmas

/-!
# C105: latency monitor

For all histories of `read` and `reclock`, all answers of the queue, the depacketizer, the clock, the reader of frames
and the resampler, any configuration and any estimator. `M.alive` is `is_alive()`, `M.metrics` is `metrics()`.
-/

namespace Verif.LatencyMonitor

open Verif.LatencyTuner (St Cfg Metrics Est Op Res runs_append lastWrite SawNiq SawE2e total)

/-! ## Metrics of the queue -/

/-- **C105 (queue latency).** On an endless stream, if the last packet in the queue ends at position `tail` and the
depacketizer is at position `head`, less than 2^31 samples apart, then the latency reported is the duration of
`tail - head` samples, negative if the queue is behind. -/
theorem C105_niq {E : Type} (env : Env E) (m m' : M E) (o : Obs) (out : Out) (ha : m.alive = true)
    (h : m.read env o = .ok (m', out)) (head tail : Nat) (p : Pkt) (hh : o.head = some (head % 2 ^ 32))
    (hp : o.latest = some p) (ht : (p.ts + p.dur) % 2 ^ 32 = tail % 2 ^ 32)
    (h1 : (tail : Int) - head < 2 ^ 31) (h2 : -2 ^ 31 ≤ (tail : Int) - head) :
    m'.metrics.niq = env.ns (tail - head) ∧ (0 < p.rts → p.rts < o.now → m'.metrics.stalling = o.now - p.rts) := by
  have hm := (read_spec ha h).1
  rw [hm]
  unfold niq
  rw [hh, hp]
  simp only
  have hd : sdiff ((p.ts + p.dur) % 4294967296) (head % 2 ^ 32) = tail - head := by
    unfold sdiff
    omega
  rw [hd]
  constructor
  · split_ifs <;> rfl
  · intro h3 h4
    rw [if_pos ⟨h3, h4⟩]

/-- **C105 (queue latency).** Before the first packet, the metrics of the queue are unchanged. -/
theorem C105_niq_unknown {E : Type} (env : Env E) (m m' : M E) (o : Obs) (out : Out)
    (h : m.read env o = .ok (m', out)) (hn : o.head = none ∨ o.latest = none) : m'.metrics = m.metrics := by
  cases ha : m.alive with
  | false =>
    rw [read_dead o ha] at h
    simp only [Except.ok.injEq, Prod.mk.injEq] at h
    rw [← h.1]
  | true =>
    rw [(read_spec ha h).1]
    unfold niq
    rcases hn with hn | hn
    · rw [hn]
    · rw [hn]; cases o.head <;> rfl

/-- A queue of 480 samples across the wrap of timestamps; 1 ms since the last packet. -/
example : niq id ⟨0, 0, 0⟩ ⟨some 4294967200, some ⟨144, 240, 2000000⟩, 3000000, none⟩ = ⟨480, 1000000, 0⟩ := by decide

/-! ## Termination of the session -/

theorem lastWrite_writes (ops : List Op) : lastWrite ops = (writesOf ops).getLast? := by
  induction ops with
  | nil => rfl
  | cons o os ih =>
    simp only [lastWrite, ih]
    cases o with
    | write m =>
      simp only [writesOf, List.filterMap_cons]
      cases hx : (List.filterMap (fun o => match o with | Op.write m => some m | _ => none) os) with
      | nil => simp
      | cons a as => simp [List.getLast?_cons]
    | update => simp only [writesOf, List.filterMap_cons]; split <;> simp_all
    | advance d => simp only [writesOf, List.filterMap_cons]; split <;> simp_all
    | fetch => simp only [writesOf, List.filterMap_cons]; split <;> simp_all

theorem mem_writes {ops : List Op} {m : Metrics} : Op.write m ∈ ops ↔ m ∈ writesOf ops := by
  unfold writesOf
  rw [List.mem_filterMap]
  constructor
  · intro h; exact ⟨_, h, rfl⟩
  · rintro ⟨o, h1, h2⟩
    cases o with
    | write k => simp only [Option.some.injEq] at h2; rw [← h2]; exact h1
    | update => cases h2
    | advance d => cases h2
    | fetch => cases h2

/-- The bounds of the configuration are enabled and the metrics `x` violate them. `known`: all metrics that were
measured, up to `x`. The only exception: the queue is too short, but no packets came for more than the configured
time. -/
def Violated (conv : Int → Int) (c : Cfg) (known : List Metrics) (x : Metrics) : Prop :=
  (c.tuning = true ∨ c.tolerance ≠ 0) ∧
    match c.backend with
    | .niq => (∃ y ∈ known, y.niq > 0 ∨ y.stalling > 0)
        ∧ (conv x.niq > conv (c.target + c.tolerance) ∨ conv x.niq < conv (c.target - c.tolerance))
        ∧ ¬ (conv x.niq < conv (c.target - c.tolerance) ∧ conv x.stalling > conv c.stale ∧ conv c.stale > 0)
    | .e2e => (∃ y ∈ known, y.e2e > 0)
        ∧ (conv x.e2e > conv (c.target + c.tolerance) ∨ conv x.e2e < conv (c.target - c.tolerance))

/-- **C105 (end of session).** A `read` ends the session exactly if the metrics after it violate the configured bounds or
the resampler refused a factor. -/
theorem C105_terminate {E : Type} (env : Env E) (log : Nat) (e : E) (b : Bool) (c : Cfg) (m0 m m' : M E) (fs : List Rat)
    (h0 : create env log e b c = .ok (some m0, fs)) (es : List Ev) (l : List Entry) (hr : m0.run env es = .ok (m, l))
    (ha : m.alive = true) (o : Obs) (out : Out) (h : m.read env o = .ok (m', out)) :
    m'.alive = false ↔ Violated env.conv c (seen l ++ [m'.metrics]) m'.metrics
      ∨ ∃ v ∈ out.scales, env.accepts v = false := by
  obtain ⟨ht, _⟩ := create_spec h0
  obtain ⟨⟨ops, rs, s1, s2, _⟩, _⟩ := run_sim es hr
  obtain ⟨_, _, _, _, _, _, u, k, h1, h2⟩ := read_spec ha h
  rw [h2]
  refine or_congr ?_ Iff.rfl
  have s3 : m0.tuner.runs env.conv env.est (ops ++ [.write m'.metrics])
      = some (m.tuner.write env.conv m'.metrics, rs ++ [.unit]) := by
    rw [runs_append, s1]; rfl
  rw [LatencyTuner.C66_bounds env.conv env.est log e c m0.tuner _ _ ht _ _ s3 _ h1]
  have hw : writesOf (ops ++ [.write m'.metrics]) = seen l ++ [m'.metrics] := by
    unfold writesOf at s2 ⊢
    rw [List.filterMap_append, s2]; rfl
  have hl : lastWrite (ops ++ [.write m'.metrics]) = some m'.metrics := by
    rw [lastWrite_writes, hw]; simp
  have h3 : SawNiq (ops ++ [.write m'.metrics]) ↔ ∃ y ∈ seen l ++ [m'.metrics], y.niq > 0 ∨ y.stalling > 0 := by
    unfold SawNiq; simp only [mem_writes, hw]
  have h4 : SawE2e (ops ++ [.write m'.metrics]) ↔ ∃ y ∈ seen l ++ [m'.metrics], y.e2e > 0 := by
    unfold SawE2e; simp only [mem_writes, hw]
  unfold Violated
  refine and_congr_right fun _ => ?_
  simp only [hl, Option.some.injEq, exists_eq_left']
  cases c.backend with
  | niq => simp only [h3]
  | e2e => simp only [h4]

/-- **C105 (end of session).** After the end of the session every `read` fails, nothing is read from the pipeline and the
resampler gets no factor. Before that, every `read` returns what the pipeline returns, unchanged. -/
theorem C105_frames {E : Type} (env : Env E) (es : List Ev) : ∀ (m0 m : M E) (l : List Entry), m0.alive = true →
    m0.run env es = .ok (m, l) →
    ∃ l1 l2, l = l1 ++ l2
      ∧ (∀ x ∈ l1, ∀ o, x.ev = .read o → x.alive = true ∧ x.out.called = true ∧ x.out.frame = o.frame)
      ∧ (∀ x ∈ l2, x.out.called = false ∧ x.out.frame = none) ∧ (∀ x ∈ l2.tail, x.alive = false ∧ x.out.scales = [])
      ∧ (m.alive = true ↔ l2 = []) := by
  have dead : ∀ (es : List Ev) (m0 m : M E) (l : List Entry), m0.alive = false → m0.run env es = .ok (m, l) →
      (∀ x ∈ l, x.alive = false ∧ x.out.scales = [] ∧ x.out.called = false ∧ x.out.frame = none) ∧ m.alive = false := by
    intro es
    induction es with
    | nil =>
      intro m0 m l ha h
      simp only [M.run, Except.ok.injEq, Prod.mk.injEq] at h
      obtain ⟨rfl, rfl⟩ := h
      exact ⟨fun x hx => (by cases hx), ha⟩
    | cons e es ih =>
      intro m0 m l ha h
      obtain ⟨m1, out, l1, h1, h2, rfl⟩ := run_cons h
      have h3 : m1.alive = false ∧ out = ⟨[], false, none⟩ := by
        cases e with
        | read o =>
          simp only [M.call, read_dead o ha, Except.ok.injEq, Prod.mk.injEq] at h1
          exact ⟨by rw [← h1.1]; exact ha, h1.2.symm⟩
        | reclock t =>
          simp only [M.call, Except.ok.injEq, Prod.mk.injEq] at h1
          exact ⟨by rw [← h1.1, (reclock_spec m0 t).2.2.2.1]; exact ha, h1.2.symm⟩
      obtain ⟨h4, h5⟩ := ih m1 m l1 h3.1 h2
      refine ⟨fun x hx => ?_, h5⟩
      rcases List.mem_cons.1 hx with rfl | hx
      · rw [h3.2]; exact ⟨ha, rfl, rfl, rfl⟩
      · exact h4 x hx
  induction es with
  | nil =>
    intro m0 m l ha h
    simp only [M.run, Except.ok.injEq, Prod.mk.injEq] at h
    obtain ⟨rfl, rfl⟩ := h
    exact ⟨[], [], rfl, fun x hx => (by cases hx), fun x hx => (by cases hx), fun x hx => (by cases hx), by simp [ha]⟩
  | cons e es ih =>
    intro m0 m l ha h
    obtain ⟨m1, out, l1, h1, h2, rfl⟩ := run_cons h
    cases hm1 : m1.alive with
    | true =>
      obtain ⟨k1, k2, rfl, b1, b2, b3, b4⟩ := ih m1 m l1 hm1 h2
      refine ⟨⟨e, m0.alive, out, m1.metrics⟩ :: k1, k2, rfl, fun x hx o ho => ?_, b2, b3, b4⟩
      rcases List.mem_cons.1 hx with rfl | hx
      · simp only at ho
        subst ho
        obtain ⟨_, _, _, h3, h4, _⟩ := read_spec ha h1
        rw [hm1] at h3 h4
        exact ⟨ha, h3, by simpa using h4⟩
      · exact b1 x hx o ho
    | false =>
      obtain ⟨h3, h4⟩ := dead es m1 m l1 hm1 h2
      refine ⟨[], ⟨e, m0.alive, out, m1.metrics⟩ :: l1, rfl, fun x hx => (by cases hx), fun x hx => ?_, fun x hx => ?_, ?_⟩
      · rcases List.mem_cons.1 hx with rfl | hx
        · cases e with
          | read o =>
            obtain ⟨_, _, _, h5, h6, _⟩ := read_spec ha h1
            rw [hm1] at h5 h6
            exact ⟨h5, by simpa using h6⟩
          | reclock t =>
            simp only [M.call, Except.ok.injEq, Prod.mk.injEq] at h1
            rw [← h1.1, (reclock_spec m0 t).2.2.2.1, ha] at hm1
            cases hm1
        · exact (h3 x hx).2.2
      · have := h3 x hx
        exact ⟨this.1, this.2.1⟩
      · rw [h4]; simp

/-- An environment for examples: one sample is one nanosecond, all factors are accepted. -/
def exEnv : Env Nat := ⟨id, id, LatencyTuner.sampleEst, fun _ => true⟩

/-- The monitor the constructor makes in examples: target 9600, tolerance 4800, stalling 1000. -/
def exM : M Nat := ⟨LatencyTuner.sampleSt, ⟨0, 0, 0⟩, true, 0, true⟩

theorem ex_create : create exEnv 240000 0 true LatencyTuner.sampleCfg = .ok (some exM, [1]) := by
  have : LatencyTuner.create exEnv.conv 240000 0 LatencyTuner.sampleCfg = some LatencyTuner.sampleSt :=
    LatencyTuner.sample_create
  unfold create
  rw [this]
  rfl

/-- A computed check of a result. -/
def okAnd {α : Type} (x : Except Err α) (p : α → Bool) : Bool := match x with | .ok a => p a | .error _ => false

/-- A frame of 480 samples. -/
def exFrame (id : Nat) (capture : Int) : Frame := ⟨id, capture, 480⟩

/-- The session starts with a good latency, goes on, and ends when the queue is too long. -/
example : okAnd (exM.run exEnv [.read ⟨none, none, 10, some (exFrame 0 0)⟩, .read ⟨some 0, some ⟨0, 9600, 5⟩, 100, some (exFrame 1 50)⟩,
      .read ⟨some 480, some ⟨480, 15000, 7⟩, 100, some (exFrame 2 0)⟩, .read ⟨some 960, some ⟨480, 9600, 5⟩, 100, some (exFrame 3 0)⟩])
    (fun r => r.2.map (fun x => (x.alive, x.out.frame, x.metrics)) = [(true, some (exFrame 0 0), ⟨0, 0, 0⟩),
      (true, some (exFrame 1 50), ⟨9600, 95, 0⟩), (true, none, ⟨15000, 93, 0⟩), (false, none, ⟨15000, 93, 0⟩)]) = true := by
  decide +kernel

/-- **C105 fails** (delay since the last packet): if the last packet was received at or after the time the clock shows
(a clock that was set back), or its time is not known, the old value stays. -/
theorem C105_stalling_fails {E : Type} (env : Env E) (m m' : M E) (o : Obs) (out : Out)
    (h : m.read env o = .ok (m', out)) (p : Pkt) (hp : o.latest = some p) (h1 : o.now ≤ p.rts ∨ p.rts ≤ 0) :
    m'.metrics.stalling = m.metrics.stalling := by
  cases ha : m.alive with
  | false =>
    rw [read_dead o ha] at h
    simp only [Except.ok.injEq, Prod.mk.injEq] at h
    rw [← h.1]
  | true =>
    rw [(read_spec ha h).1]
    unfold niq
    rw [hp]
    cases o.head with
    | none => rfl
    | some x =>
      simp only
      rw [if_neg (by omega)]

/-- So a session goes on although the queue is far too short and a packet has just come: after a pause the clock is set
back, the new packet comes at time 60, the time is 60, the queue has 100 samples, and the session is not ended. If the time is 61,
it is. -/
example : okAnd (exM.run exEnv [.read ⟨some 0, some ⟨0, 9600, 5⟩, 100, some (exFrame 1 0)⟩, .read ⟨some 480, some ⟨0, 9600, 5⟩, 100000, some (exFrame 2 0)⟩,
      .read ⟨some 10400, some ⟨10100, 400, 60⟩, 60, some (exFrame 3 0)⟩])
    (fun r => r.1.alive ∧ r.1.metrics = ⟨100, 99995, 0⟩) = true
    ∧ okAnd (exM.run exEnv [.read ⟨some 0, some ⟨0, 9600, 5⟩, 100, some (exFrame 1 0)⟩, .read ⟨some 480, some ⟨0, 9600, 5⟩, 100000, some (exFrame 2 0)⟩,
      .read ⟨some 10400, some ⟨10100, 400, 60⟩, 61, some (exFrame 3 0)⟩])
    (fun r => r.1.alive = false ∧ r.1.metrics = ⟨100, 1, 0⟩) = true := by
  decide +kernel

/-! ## Scaling -/

/-- **C105 (scaling).** The first factor is one if tuning is enabled; otherwise none is ever passed to the resampler. All
factors are within the configured tolerance of one. They are those of the tuner, which gets the measured metrics
and the durations of the frames. -/
theorem C105_scaling {E : Type} (env : Env E) (log : Nat) (e : E) (b : Bool) (c : Cfg) (m0 m : M E) (fs : List Rat)
    (h0 : create env log e b c = .ok (some m0, fs)) (es : List Ev) (l : List Entry) (hr : m0.run env es = .ok (m, l)) :
    fs = (if c.tuning then [1] else []) ∧ (c.tuning = false → factors l = [])
      ∧ (∀ v ∈ factors l, 0 < v ∧ 1 - c.delta ≤ v ∧ v ≤ 1 + c.delta)
      ∧ ∃ t0 t ops rs, LatencyTuner.create env.conv log e c = some t0 ∧ t0.runs env.conv env.est ops = some (t, rs)
        ∧ writesOf ops = seen l ∧ durOf ops = ((frames l).map Frame.dur).sum ∧ fetched rs = factors l := by
  obtain ⟨ht, _, _, _, _, hfs⟩ := create_spec h0
  obtain ⟨⟨ops, rs, s1, s2, s3, s4⟩, _⟩ := run_sim es hr
  have key : ∀ v ∈ factors l, 0 < v ∧ (v = 0 ∨ (c.tuning = true ∧ 1 - c.delta ≤ v ∧ v ≤ 1 + c.delta)) := by
    intro v hv
    rw [← s3] at hv
    unfold fetched at hv
    obtain ⟨r, hr, hrv⟩ := List.mem_filterMap.1 hv
    cases r with
    | unit => cases hrv
    | alive b => cases hrv
    | scaling u =>
      simp only at hrv
      split_ifs at hrv with hu
      injection hrv with hrv
      subst hrv
      exact ⟨hu, LatencyTuner.C66_scaling env.conv env.est log e c m0.tuner m.tuner ht ops rs s1 u hr⟩
  refine ⟨hfs, ?_, ?_, m0.tuner, m.tuner, ops, rs, ht, s1, s2, s4, s3⟩
  · intro hc
    rw [List.eq_nil_iff_forall_not_mem]
    intro v hv
    rcases (key v hv).2 with h1 | h1
    · exact absurd h1 (ne_of_gt (key v hv).1)
    · rw [hc] at h1; cases h1.1
  · intro v hv
    rcases (key v hv).2 with h1 | h1
    · exact absurd h1 (ne_of_gt (key v hv).1)
    · exact ⟨(key v hv).1, h1.2⟩

/-- Two updates of the estimator in each frame of 480 samples; the factor is passed once per frame. -/
example : okAnd (exM.run exEnv [.read ⟨none, none, 10, some (exFrame 0 0)⟩, .read ⟨some 0, some ⟨0, 9600, 5⟩, 100, some (exFrame 1 0)⟩,
      .read ⟨some 480, some ⟨480, 9600, 7⟩, 100, some (exFrame 2 0)⟩]) (fun r => factors r.2 = [1, 1] ∧ r.1.tuner.count = 5) = true := by
  decide +kernel

/-! ## End-to-end latency -/

/-- `reclock` does not matter: time unknown. -/
def noClock (es : List Ev) : Prop := ∀ t, Ev.reclock t ∈ es → t ≤ 0

/-- Frames with unknown capture time only. -/
def noCapture (es : List Ev) : Prop := ∀ o f, Ev.read o ∈ es → o.frame = some f → f.capture = 0

/-- No frames. -/
def noFrame (es : List Ev) : Prop := ∀ o, Ev.read o ∈ es → o.frame = none

theorem call_e2e {E : Type} {env : Env E} {m m' : M E} {e : Ev} {out : Out} (h : m.call env e = .ok (m', out)) :
    (∀ o, e = .read o → m'.metrics.e2e = m.metrics.e2e
        ∧ (m'.capture = m.capture ∨ ∃ f, o.frame = some f ∧ m'.capture = f.capture)
        ∧ (m'.alive = true → ∀ f, o.frame = some f → m'.capture = f.capture))
      ∧ (∀ t, e = .reclock t → m'.capture = m.capture
        ∧ m'.metrics.e2e = if m.capture ≠ 0 ∧ 0 < t then t - m.capture else m.metrics.e2e) := by
  cases e with
  | read o =>
    refine ⟨fun o' ho => ?_, fun t ht => (by cases ht)⟩
    simp only [Ev.read.injEq] at ho
    subst ho
    cases ha : m.alive with
    | false =>
      simp only [M.call, read_dead o ha, Except.ok.injEq, Prod.mk.injEq] at h
      rw [← h.1]
      exact ⟨rfl, Or.inl rfl, fun h' => by rw [ha] at h'; cases h'⟩
    | true =>
      obtain ⟨h1, _, _, _, h4, h5, _⟩ := read_spec ha h
      refine ⟨by rw [h1, niq_e2e], ?_, ?_⟩
      · cases hf : out.frame with
        | none => left; rw [h5, hf]; rfl
        | some f =>
          right
          refine ⟨f, ?_, by rw [h5, hf]; rfl⟩
          rw [hf] at h4
          split_ifs at h4
          exact h4.symm
      · intro hm f hf
        rw [hm, if_pos rfl, hf] at h4
        rw [h5, h4]; rfl
  | reclock t =>
    refine ⟨fun o ho => by (cases ho), fun t' ht => ?_⟩
    simp only [Ev.reclock.injEq] at ht
    subst ht
    simp only [M.call, Except.ok.injEq, Prod.mk.injEq] at h
    obtain ⟨_, _, h3, _, _, _, h7⟩ := reclock_spec m t
    rw [← h.1]
    exact ⟨h3, h7⟩

theorem run_e2e_keep {E : Type} {env : Env E} (es : List Ev) : ∀ {m m' : M E} {l : List Entry},
    m.run env es = .ok (m', l) → (noClock es ∨ (m.capture = 0 ∧ noCapture es)) →
    m'.metrics.e2e = m.metrics.e2e := by
  induction es with
  | nil =>
    intro m m' l h _
    simp only [M.run, Except.ok.injEq, Prod.mk.injEq] at h
    rw [← h.1]
  | cons e es ih =>
    intro m m' l h hs
    obtain ⟨m1, out, l1, h1, h2, rfl⟩ := run_cons h
    obtain ⟨c1, c2⟩ := call_e2e h1
    have hs' : noClock es ∨ (m1.capture = 0 ∧ noCapture es) := by
      rcases hs with h3 | ⟨h3, h4⟩
      · exact Or.inl fun t ht => h3 t (List.mem_cons_of_mem _ ht)
      · refine Or.inr ⟨?_, fun o f ho hf => h4 o f (List.mem_cons_of_mem _ ho) hf⟩
        cases e with
        | read o =>
          rcases (c1 o rfl).2.1 with h5 | ⟨f, h5, h6⟩
          · rw [h5, h3]
          · rw [h6, h4 o f List.mem_cons_self h5]
        | reclock t => rw [(c2 t rfl).1, h3]
    rw [ih h2 hs']
    cases e with
    | read o => exact (c1 o rfl).1
    | reclock t =>
      rw [(c2 t rfl).2, if_neg]
      rintro ⟨h3, h4⟩
      rcases hs with h5 | h5
      · have := h5 t List.mem_cons_self; omega
      · exact h3 h5.1

theorem run_capture {E : Type} {env : Env E} (es : List Ev) : ∀ {m m' : M E} {l : List Entry},
    m.run env es = .ok (m', l) → noFrame es → m'.capture = m.capture := by
  induction es with
  | nil =>
    intro m m' l h _
    simp only [M.run, Except.ok.injEq, Prod.mk.injEq] at h
    rw [← h.1]
  | cons e es ih =>
    intro m m' l h hn
    obtain ⟨m1, out, l1, h1, h2, rfl⟩ := run_cons h
    obtain ⟨c1, c2⟩ := call_e2e h1
    rw [ih h2 fun o ho => hn o (List.mem_cons_of_mem _ ho)]
    cases e with
    | read o =>
      rcases (c1 o rfl).2.1 with h3 | ⟨f, h3, _⟩
      · exact h3
      · rw [hn o List.mem_cons_self] at h3; cases h3
    | reclock t => exact (c2 t rfl).1

/-- **C105 (end-to-end latency).** When a frame with a known capture time was returned and then its playback time is
reported, the latency is their difference, and it stays so until another playback time is reported. -/
theorem C105_e2e {E : Type} (env : Env E) (m1 m2 m : M E) (mid post : List Ev) (o : Obs) (f : Frame) (out : Out)
    (t : Int) (l2 : List Entry) (h2 : m1.call env (.read o) = .ok (m2, out))
    (hf : out.frame = some f) (hc : f.capture ≠ 0) (ht : 0 < t)
    (h3 : m2.run env (mid ++ [.reclock t] ++ post) = .ok (m, l2)) (hmid : noFrame mid) (hpost : noClock post) :
    m.metrics.e2e = t - f.capture := by
  obtain ⟨k, a1, a2, h4, h5, _⟩ := run_append h3
  obtain ⟨k', b1, b2, h6, h7, _⟩ := run_append h4
  obtain ⟨k2, out2, c3, h8, h9, _⟩ := run_cons h7
  simp only [M.run, Except.ok.injEq, Prod.mk.injEq] at h9
  have e1 := run_e2e_keep post h5 (Or.inl hpost)
  have hcap := run_capture mid h6 hmid
  have hm2 : m2.capture = f.capture := by
    cases ha : m1.alive with
    | false =>
      simp only [M.call, read_dead o ha, Except.ok.injEq, Prod.mk.injEq] at h2
      rw [← h2.2] at hf; cases hf
    | true =>
      have := (read_spec ha h2).2.2.2.2.2.1
      rw [this, hf]; rfl
  have e2 := ((call_e2e h8).2 t rfl).2
  rw [e1, ← h9.1, e2, hcap, hm2, if_pos ⟨hc, ht⟩]

/-- **C105 (end-to-end latency).** It is zero as long as no frame with a known capture time was returned, or no playback
time was reported. -/
theorem C105_e2e_unknown {E : Type} (env : Env E) (log : Nat) (e : E) (b : Bool) (c : Cfg) (m0 m : M E) (fs : List Rat)
    (h0 : create env log e b c = .ok (some m0, fs)) (es : List Ev) (l : List Entry) (hr : m0.run env es = .ok (m, l))
    (h : noClock es ∨ noCapture es) : m.metrics.e2e = 0 := by
  obtain ⟨_, h1, _, h2, _⟩ := create_spec h0
  rw [run_e2e_keep es hr (h.imp id fun h => ⟨h2, h⟩), h1]

/-- **C105 fails** (end-to-end latency of the last frame): when the capture time is not known any more, the latency of the
last frame for which it was known is reported for ever, whatever playback times are reported. -/
theorem C105_e2e_fails {E : Type} (env : Env E) (m1 m2 m : M E) (o : Obs) (g : Frame) (out : Out) (es : List Ev)
    (l : List Entry) (h2 : m1.call env (.read o) = .ok (m2, out)) (hg : out.frame = some g) (hc : g.capture = 0)
    (h3 : m2.run env es = .ok (m, l)) (hn : noCapture es) : m.metrics.e2e = m1.metrics.e2e := by
  have h4 : m2.capture = 0 := by
    cases ha : m1.alive with
    | false =>
      simp only [M.call, read_dead o ha, Except.ok.injEq, Prod.mk.injEq] at h2
      rw [← h2.2] at hg; cases hg
    | true =>
      have := (read_spec ha h2).2.2.2.2.2.1
      rw [this, hg]; exact hc
  rw [run_e2e_keep es h3 (Or.inr ⟨h4, hn⟩), ((call_e2e h2).1 o rfl).1]

/-- The latency of frame 1 is reported for frame 3. -/
example : okAnd (exM.run exEnv [.read ⟨none, none, 10, some (exFrame 1 50)⟩, .reclock 250, .read ⟨none, none, 20, some (exFrame 2 0)⟩,
      .reclock 260, .read ⟨none, none, 30, some (exFrame 3 0)⟩, .reclock 100000])
    (fun r => r.2.map (fun x => x.metrics.e2e) = [0, 200, 200, 200, 200, 200]) = true := by
  decide +kernel

/-! ## No hang -/

theorem total_append (l k : List Op) : total (l ++ k) = total l + total k := by
  induction l with
  | nil => simp [total]
  | cons o os ih => cases o <;> simp [total, ih, Nat.add_assoc]

theorem total_durOf (l : List Op) : total l = durOf l := by
  unfold durOf
  induction l with
  | nil => rfl
  | cons o os ih => cases o <;> simp [total, ih]

/-- All durations of frames the reader offers. -/
def offered (es : List Ev) : Nat := (es.map fun e => match e with | .read o => o.frame.elim 0 Frame.dur | _ => 0).sum

/-- **C105 (progress)**, partial: every call returns, if the frames of the whole session have less than about 2^32 samples.
Missing: longer sessions, see C47. -/
theorem C105_progress_partial {E : Type} (env : Env E) (log : Nat) (hlog : 0 < log) (e : E) (b : Bool) (c : Cfg) (m0 : M E)
    (fs : List Rat) (h0 : create env log e b c = .ok (some m0, fs)) (es : List Ev)
    (h1 : offered es + m0.tuner.interval < 2 ^ 32) (h2 : offered es + log < 2 ^ 32) :
    ∃ m l, m0.run env es = .ok (m, l) := by
  obtain ⟨ht, _⟩ := create_spec h0
  have ok : ∀ ops, total ops ≤ offered es → ∃ s rs, m0.tuner.runs env.conv env.est ops = some (s, rs) := by
    intro ops ho
    obtain ⟨s, rs, h3, _⟩ := LatencyTuner.C47_progress_partial env.conv env.est log e c m0.tuner ht hlog ops
      (by simp only [LatencyTuner.m32]; omega) (by simp only [LatencyTuner.m32]; omega)
    exact ⟨s, rs, h3⟩
  have key : ∀ (es2 : List Ev) (m : M E) (ops : List Op) (rs : List Res), m0.tuner.runs env.conv env.est ops = some (m.tuner, rs) →
      total ops + offered es2 ≤ offered es → ∃ m' l, m.run env es2 = .ok (m', l) := by
    intro es2
    induction es2 with
    | nil => intro m ops rs _ _; exact ⟨m, [], rfl⟩
    | cons ev es2 ih =>
      intro m ops rs hr hd
      have hoff : offered (ev :: es2) = offered [ev] + offered es2 := by simp [offered]
      have hcall : ∃ m1 out, m.call env ev = .ok (m1, out) := by
        cases ev with
        | reclock t => exact ⟨_, _, rfl⟩
        | read o =>
          cases ha : m.alive with
          | false => exact ⟨_, _, read_dead o ha⟩
          | true =>
            simp only [M.call, M.read]
            rw [if_neg (by rw [ha]; simp)]
            cases hp : pre env m.scaling m.tuner (niq env.ns m.metrics o) with
            | none =>
              exfalso
              obtain ⟨s, rs2, h3⟩ := ok (ops ++ [.write (niq env.ns m.metrics o), .update]) (by
                rw [total_append]; simp only [total]; omega)
              rw [runs_append, hr] at h3
              simp only [Option.bind_some, St.runs, St.call] at h3
              unfold pre at hp
              cases hu : (m.tuner.write env.conv (niq env.ns m.metrics o)).update env.est with
              | none => rw [hu] at h3; simp at h3
              | some x =>
                obtain ⟨u, k⟩ := x
                rw [hu] at hp
                cases k <;> simp at hp
            | some x =>
              obtain ⟨t, gs, k⟩ := x
              cases k with
              | false => exact ⟨_, _, rfl⟩
              | true =>
                simp only
                cases hf : o.frame with
                | none => exact ⟨_, _, rfl⟩
                | some f =>
                  simp only
                  obtain ⟨⟨o2, r2, b1, _, _, b4⟩, _⟩ := pre_sim hp
                  obtain ⟨s, rs3, h3⟩ := ok (ops ++ (o2 ++ [.advance f.dur])) (by
                    have : offered [Ev.read o] = f.dur := by simp [offered, hf]
                    rw [total_append, total_append, total_durOf o2, b4]
                    simp only [total]
                    omega)
                  rw [runs_append, hr] at h3
                  simp only [Option.bind_some] at h3
                  rw [runs_append, b1] at h3
                  simp only [Option.bind_some, St.runs, St.call] at h3
                  cases hadv : t.advance f.dur with
                  | none => rw [hadv] at h3; simp at h3
                  | some t2 => exact ⟨_, _, rfl⟩
      obtain ⟨m1, out, hc⟩ := hcall
      obtain ⟨⟨o2, r2, b1, _, _, b4⟩, _⟩ := call_sim hc
      have hle : total o2 ≤ offered [ev] := by
        rw [total_durOf, b4]
        cases ev with
        | reclock t =>
          simp only [M.call, Except.ok.injEq, Prod.mk.injEq] at hc
          rw [← hc.2]; simp
        | read o =>
          have : offered [Ev.read o] = o.frame.elim 0 Frame.dur := by simp [offered]
          rw [this]
          cases ha : m.alive with
          | false =>
            simp only [M.call, read_dead o ha, Except.ok.injEq, Prod.mk.injEq] at hc
            rw [← hc.2]; simp
          | true =>
            have := (read_spec ha hc).2.2.2.2.1
            rw [this]
            split_ifs
            · exact Nat.le_refl _
            · simp
      obtain ⟨m', l, h5⟩ := ih m1 (ops ++ o2) (rs ++ r2) (by
        rw [runs_append, hr]; simp only [Option.bind_some, b1, Option.map_some]) (by
        rw [total_append]; omega)
      exact ⟨m', _ :: l, by simp only [M.run, hc, h5]; rfl⟩
  exact key es m0 [] [] rfl (by simp [total])

/-- A session of eight million frames of 480 samples is short enough. -/
example (n : Nat) (hn : n ≤ 8000000) :
    offered (List.replicate n (.read ⟨none, none, 10, some (exFrame 0 0)⟩)) + exM.tuner.interval < 2 ^ 32 := by
  have h : offered (List.replicate n (.read ⟨none, none, 10, some (exFrame 0 0)⟩)) = n * 480 := by
    unfold offered
    rw [List.map_replicate, List.sum_replicate]
    rfl
  have h2 : exM.tuner.interval = 240 := rfl
  rw [h, h2]
  omega

end Verif.LatencyMonitor
