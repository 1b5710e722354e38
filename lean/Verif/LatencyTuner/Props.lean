import Verif.LatencyTuner.Lemmas

/-!
# Latency tuner: properties
-/

namespace Verif.LatencyTuner

/-! ## C47: progress -/

/-- **C47**, while the position has not come close to `2^32` samples (24.8 hours at 48 kHz). Every history of calls ends; the estimator has been updated at most once per interval, plus once; and if the latency is known and in bounds,
`update_stream` brings the number of updates of the estimator to exactly one per started interval of the stream.
Missing: longer streams; `C47_hang_fails`, `C47_scale_hang_fails`, `C47_stall_fails`. -/
theorem C47_progress_partial {E : Type} (conv : Int → Int) (est : Est E) (log : Nat) (e : E) (c : Cfg) (s0 : St E) (h0 : create conv log e c = some s0) (hlog : 0 < log) (l : List Op)
    (h1 : total l + s0.interval < m32) (h2 : total l + log < m32) :
    ∃ s rs, s0.runs conv est l = some (s, rs) ∧ s.count * s.interval ≤ total l + s.interval ∧
      ∀ v, s.tuning = true → s.latency = some v → s.check v = true → ∃ s', s.update est = some (s', true) ∧ s'.count = total l / s.interval + 1 := by
  obtain ⟨hp, hi, hl, _⟩ := create_spec h0
  obtain ⟨s, rs, h3, h4, h5⟩ := hp.runs (conv := conv) (est := est) (fun ht => (hi ht).1) (by rw [hl]; exact hlog) (l := l) (by omega) (by rw [hl]; omega)
  rw [Nat.zero_add] at h5
  refine ⟨s, rs, h3, ?_, fun v ht hv hc => ?_⟩
  · rw [← h5.scale]; exact h5.scaleUp
  · obtain ⟨s', h6, h7, h8⟩ := h5.scaled (by rw [h4.interval]; exact (hi (by rw [← h4.tuning]; exact ht)).1) (by rw [h4.interval]; omega) est v
    refine ⟨s', ?_, h8⟩
    unfold St.update
    rw [hv]
    simp only
    rw [if_neg (by rw [hc]; simp), if_pos ht, h6]
    rfl

theorem feed_obs {E : Type} {est : Est E} {obs : E → List Nat} (ho : ∀ e v, obs (est.upd e v) = obs e ++ [v]) (v n : Nat) : ∀ e, obs (feed est e v n) = obs e ++ List.replicate n v := by
  induction n with
  | zero => intro e; simp [feed]
  | succ n ih => intro e; rw [feed, ih, ho, List.replicate_succ, List.append_assoc]; rfl

theorem scale_obs {E : Type} {est : Est E} {obs : E → List Nat} (ho : ∀ e v, obs (est.upd e v) = obs e ++ [v]) {s s' : St E} {v : Int} (h : s.scale est v = some s') :
    s.count ≤ s'.count ∧ obs s'.fe = obs s.fe ++ List.replicate (s'.count - s.count) v.toNat := by
  unfold St.scale at h
  split_ifs at h
  · injection h with h; rw [← h]; simp
  · split at h
    · cases h
    · injection h with h; rw [← h]
      simp only
      refine ⟨by omega, ?_⟩
      rw [feed_obs ho]
      congr 2
      omega

/-- **C47.** One update: `update_stream` gives the latency that is known at the moment to the estimator, once for each counted update. `obs` is what an estimator got. -/
theorem C47_fed {E : Type} (est : Est E) (obs : E → List Nat) (ho : ∀ e v, obs (est.upd e v) = obs e ++ [v]) (s s' : St E) (b : Bool) (h : s.update est = some (s', b)) :
    s.count ≤ s'.count ∧ ∃ v, (s'.count ≠ s.count → s.latency = some v) ∧ obs s'.fe = obs s.fe ++ List.replicate (s'.count - s.count) v.toNat := by
  unfold St.update at h
  split at h
  · injection h with h; injection h with h _; rw [← h]; exact ⟨Nat.le_refl _, 0, fun hc => absurd rfl hc, by simp⟩
  · rename_i l hl
    split_ifs at h
    · injection h with h; injection h with h _; rw [← h]; exact ⟨Nat.le_refl _, 0, fun hc => absurd rfl hc, by simp⟩
    · obtain ⟨t, h1, h2⟩ := Option.map_eq_some_iff.1 h
      injection h2 with h2 _
      rw [← h2]
      obtain ⟨h3, h4⟩ := scale_obs ho h1
      exact ⟨h3, l, fun _ => hl, h4⟩
    · injection h with h; injection h with h _; rw [← h]; exact ⟨Nat.le_refl _, 0, fun hc => absurd rfl hc, by simp⟩

/-- **C47.** The count of updates is the number of values that the estimator got. -/
theorem C47_count {E : Type} (conv : Int → Int) (est : Est E) (obs : E → List Nat) (ho : ∀ e v, obs (est.upd e v) = obs e ++ [v]) (log : Nat) (e : E) (c : Cfg) (s0 s : St E)
    (h0 : create conv log e c = some s0) (l : List Op) (rs : List Res) (h : s0.runs conv est l = some (s, rs)) : (obs s.fe).length = (obs e).length + s.count := by
  have key : ∀ (l : List Op) (t : St E) (rs : List Res), t.runs conv est l = some (s, rs) → (obs t.fe).length = (obs e).length + t.count → (obs s.fe).length = (obs e).length + s.count := by
    intro l
    induction l with
    | nil =>
      intro t rs h ht
      injection h with h
      injection h with h _
      rw [← h]; exact ht
    | cons o os ih =>
      intro t rs h ht
      simp only [St.runs] at h
      obtain ⟨⟨s1, r1⟩, e1, h⟩ := Option.bind_eq_some_iff.1 h
      obtain ⟨⟨s2, r2⟩, e2, h⟩ := Option.map_eq_some_iff.1 h
      injection h with h _
      have h : s2 = s := h
      rw [h] at e2
      refine ih s1 r2 e2 ?_
      cases o with
      | write m =>
        injection e1 with e1
        injection e1 with e1 _
        obtain ⟨_, _, _, _, w1, _, _, w2⟩ := write_same conv t m
        rw [← e1, w1, w2]; exact ht
      | update =>
        obtain ⟨u, e3, e4⟩ := Option.map_eq_some_iff.1 e1
        injection e4 with e4 _
        obtain ⟨f1, v, _, f2⟩ := C47_fed est obs ho t u.1 u.2 e3
        rw [← e4, f2, List.length_append, List.length_replicate, ht]
        omega
      | advance d =>
        obtain ⟨u, e3, e4⟩ := Option.map_eq_some_iff.1 e1
        injection e4 with e4 _
        obtain ⟨_, _, _, u1, _, _, _, _, u2⟩ := report_same e3
        rw [← e4, u1, u2]; exact ht
      | fetch =>
        injection e1 with e1
        injection e1 with e1 _
        rw [← e1]
        unfold St.fetch
        split_ifs <;> exact ht
  refine key l s0 rs h ?_
  obtain ⟨_, _, hc, hf⟩ : True ∧ True ∧ s0.count = 0 ∧ s0.fe = e := by
    unfold create at h0
    simp only at h0
    split_ifs at h0 <;> (injection h0 with h0; rw [← h0]; exact ⟨trivial, trivial, rfl, rfl⟩)
  rw [hc, hf]; rfl

/-- An estimator that keeps all values: three updates for 480 samples with an interval of 240. -/
example : (create id 240000 ([] : List Nat) ⟨.niq, true, 9600, 4800, 1000, 240, 1/200⟩).bind (fun s => (s.runs id ⟨fun e v => e ++ [v], fun _ => 1⟩ [.write ⟨9600, 0, 0⟩, .advance 480, .update]).map fun r => (r.1.fe, r.1.count)) =
    some ([9600, 9600, 9600], 3) := by decide +kernel

/-- **C47 is false** for long streams: whatever the configuration, if the position becomes `2^32 - 1`, `advance_stream` does not return. -/
theorem C47_hang_fails {E : Type} (conv : Int → Int) (est : Est E) (log : Nat) (e : E) (c : Cfg) (s0 : St E) (h0 : create conv log e c = some s0) :
    s0.runs conv est [.advance 4294967295] = none := by
  obtain ⟨hp, _, _, _, _, _, _, _, _, _, _, _, _, hz⟩ := create_spec h0
  have h1 : s0.pos = 0 := hp.pos
  have h2 : (s0.pos + 4294967295) % m32 = 4294967295 := by rw [h1]; decide
  simp only [St.runs, St.call, St.advance, St.report, h2]
  have h3 : loop 4294967295 s0.reportInterval s0.reportPos = none :=
    spin_none (fun q => q < m32) (fun q hq => by simp only [m32] at hq; omega) (fun q _ => Nat.mod_lt _ (by decide)) _ _ (by rw [hz]; decide)
  rw [if_neg (by omega), h3]
  rfl

/-- **C47 is false** for long streams: with a scaling interval of 256 samples, `update_stream` does not return when the position is in the last 256 samples before the wrap. -/
theorem C47_scale_hang_fails {E : Type} (est : Est E) (s : St E) (v : Int) (hi : s.interval = 256) (hq : s.scalePos % 256 = 0) (hs : s.scalePos < m32) (hp : 4294967040 ≤ s.pos) :
    s.scale est v = none := by
  unfold St.scale
  simp only [m32] at hs
  rw [if_neg (by omega), hi]
  have : loop s.pos 256 s.scalePos = none := by
    refine spin_none (fun q => q % 256 = 0 ∧ q < m32) (fun q hq => by simp only [m32] at hq; omega) (fun q hq => ?_) _ _ ⟨hq, hs⟩
    simp only [m32] at hq ⊢
    omega
  rw [this]

/-- A configuration: 48 kHz, interval 240 samples (5 ms), log messages every 240000 samples; `conv` is the identity. -/
def sampleCfg : Cfg := ⟨.niq, true, 9600, 4800, 1000, 240, 1 / 200⟩

/-- An estimator that counts. -/
def sampleEst : Est Nat := ⟨fun e _ => e + 1, fun _ => 1⟩

/-- The state made by the constructor. -/
def sampleSt : St Nat := ⟨0, 240, 0, 240000, 0, false, 0, 1 / 200, .niq, true, true, none, none, 4800, 14400, 1000, 0, 0⟩

theorem sample_create : create id 240000 0 sampleCfg = some sampleSt := by
  unfold create sampleCfg
  simp [sampleSt]

theorem runs_append {E : Type} (conv : Int → Int) (est : Est E) (s : St E) (l m : List Op) :
    s.runs conv est (l ++ m) = (s.runs conv est l).bind fun r => (r.1.runs conv est m).map fun q => (q.1, r.2 ++ q.2) := by
  induction l generalizing s with
  | nil =>
    simp only [List.nil_append, St.runs, Option.bind_some]
    cases s.runs conv est m <;> rfl
  | cons o os ih =>
    simp only [List.cons_append, St.runs]
    cases s.call conv est o with
    | none => rfl
    | some r =>
      simp only [Option.bind_some, ih]
      cases r.1.runs conv est os with
      | none => rfl
      | some q =>
        simp only [Option.bind_some, Option.map_some]
        cases q.1.runs conv est m <;> rfl

/-! ## C66: bounds and scaling -/

/-- The last metrics that were written. -/
def lastWrite : List Op → Option Metrics
  | [] => none
  | o :: os =>
    match lastWrite os, o with
    | some m, _ => some m
    | none, .write m => some m
    | none, _ => none

theorem lastWrite_append (l m : List Op) : lastWrite (l ++ m) = (lastWrite m).or (lastWrite l) := by
  induction l with
  | nil =>
    simp only [List.nil_append, lastWrite]
    cases lastWrite m <;> rfl
  | cons o os ih =>
    simp only [List.cons_append, lastWrite, ih]
    cases lastWrite m with
    | none => rfl
    | some m => rfl

/-- The queue latency is known: some metrics had a queue latency or a stalling time. -/
def SawNiq (l : List Op) : Prop := ∃ m, Op.write m ∈ l ∧ (m.niq > 0 ∨ m.stalling > 0)

/-- The end-to-end latency is known. -/
def SawE2e (l : List Op) : Prop := ∃ m, Op.write m ∈ l ∧ m.e2e > 0

/-- The latencies in the state are the last ones. -/
structure Known {E : Type} (conv : Int → Int) (l : List Op) (s : St E) : Prop where
  niq : ∀ v, s.niq = some v ↔ SawNiq l ∧ ∃ m, lastWrite l = some m ∧ v = (conv m.niq, conv m.stalling)
  e2e : ∀ v, s.e2e = some v ↔ SawE2e l ∧ ∃ m, lastWrite l = some m ∧ v = conv m.e2e

theorem saw_last {l : List Op} {m : Metrics} (h : Op.write m ∈ l) : ∃ m', lastWrite l = some m' := by
  induction l with
  | nil => cases h
  | cons o os ih =>
    simp only [lastWrite]
    cases hl : lastWrite os with
    | some m' => exact ⟨m', rfl⟩
    | none =>
      rcases List.mem_cons.1 h with h1 | h1
      · rw [← h1]; exact ⟨m, rfl⟩
      · obtain ⟨m', h2⟩ := ih h1
        rw [hl] at h2; cases h2

theorem Known.write {E : Type} {conv : Int → Int} {l : List Op} {s : St E} (h : Known conv l s) (m : Metrics) : Known conv (l ++ [.write m]) (s.write conv m) := by
  have hl : lastWrite (l ++ [.write m]) = some m := by rw [lastWrite_append]; rfl
  have sn : SawNiq (l ++ [.write m]) ↔ SawNiq l ∨ m.niq > 0 ∨ m.stalling > 0 := by
    constructor
    · rintro ⟨w, h1, h2⟩
      rcases List.mem_append.1 h1 with h1 | h1
      · exact Or.inl ⟨w, h1, h2⟩
      · have := List.mem_singleton.1 h1
        injection this with this
        rw [this] at h2
        exact Or.inr h2
    · rintro (⟨w, h1, h2⟩ | h2)
      · exact ⟨w, List.mem_append_left _ h1, h2⟩
      · exact ⟨m, List.mem_append_right _ (List.mem_singleton.2 rfl), h2⟩
  have se : SawE2e (l ++ [.write m]) ↔ SawE2e l ∨ m.e2e > 0 := by
    constructor
    · rintro ⟨w, h1, h2⟩
      rcases List.mem_append.1 h1 with h1 | h1
      · exact Or.inl ⟨w, h1, h2⟩
      · have := List.mem_singleton.1 h1
        injection this with this
        rw [this] at h2
        exact Or.inr h2
    · rintro (⟨w, h1, h2⟩ | h2)
      · exact ⟨w, List.mem_append_left _ h1, h2⟩
      · exact ⟨m, List.mem_append_right _ (List.mem_singleton.2 rfl), h2⟩
  have kn : s.niq.isSome = true ↔ SawNiq l := by
    rw [Option.isSome_iff_exists]
    constructor
    · rintro ⟨v, hv⟩; exact ((h.niq v).1 hv).1
    · intro hs
      obtain ⟨w, h1, h2⟩ := hs
      obtain ⟨m', h3⟩ := saw_last h1
      exact ⟨_, (h.niq _).2 ⟨⟨w, h1, h2⟩, m', h3, rfl⟩⟩
  have ke : s.e2e.isSome = true ↔ SawE2e l := by
    rw [Option.isSome_iff_exists]
    constructor
    · rintro ⟨v, hv⟩; exact ((h.e2e v).1 hv).1
    · intro hs
      obtain ⟨w, h1, h2⟩ := hs
      obtain ⟨m', h3⟩ := saw_last h1
      exact ⟨_, (h.e2e _).2 ⟨⟨w, h1, h2⟩, m', h3, rfl⟩⟩
  have cn : (m.niq > 0 ∨ m.stalling > 0 ∨ s.niq.isSome = true) ↔ SawNiq (l ++ [.write m]) := by rw [sn, kn]; tauto
  have ce : (m.e2e > 0 ∨ s.e2e.isSome = true) ↔ SawE2e (l ++ [.write m]) := by rw [se, ke]; tauto
  have en : (s.write conv m).niq = if m.niq > 0 ∨ m.stalling > 0 ∨ s.niq.isSome = true then some (conv m.niq, conv m.stalling) else s.niq := by
    unfold St.write
    simp only
    split_ifs <;> rfl
  have ee : (s.write conv m).e2e = if m.e2e > 0 ∨ s.e2e.isSome = true then some (conv m.e2e) else s.e2e := by
    unfold St.write
    simp only
    by_cases h1 : m.niq > 0 ∨ m.stalling > 0 ∨ s.niq.isSome = true
    · rw [if_pos h1]
      simp only
      split_ifs <;> rfl
    · rw [if_neg h1]
      split_ifs <;> rfl
  constructor
  · intro v
    rw [en, hl]
    by_cases hc : m.niq > 0 ∨ m.stalling > 0 ∨ s.niq.isSome = true
    · rw [if_pos hc]
      constructor
      · intro hv; injection hv with hv; exact ⟨cn.1 hc, m, rfl, hv.symm⟩
      · rintro ⟨_, w, h1, h2⟩; injection h1 with h1; rw [h2, h1]
    · rw [if_neg hc]
      constructor
      · intro hv; exact absurd (Or.inr (Or.inr (by rw [hv]; rfl))) hc
      · rintro ⟨h1, _⟩; exact absurd (cn.2 h1) hc
  · intro v
    rw [ee, hl]
    by_cases hc : m.e2e > 0 ∨ s.e2e.isSome = true
    · rw [if_pos hc]
      constructor
      · intro hv; injection hv with hv; exact ⟨ce.1 hc, m, rfl, hv.symm⟩
      · rintro ⟨_, w, h1, h2⟩; injection h1 with h1; rw [h2, h1]
    · rw [if_neg hc]
      constructor
      · intro hv; exact absurd (Or.inr (by rw [hv]; rfl)) hc
      · rintro ⟨h1, _⟩; exact absurd (ce.2 h1) hc

theorem Known.other {E : Type} {conv : Int → Int} {l : List Op} {s s' : St E} (h : Known conv l s) {o : Op} (ho : ∀ m, o ≠ .write m) (h1 : s'.niq = s.niq) (h2 : s'.e2e = s.e2e) :
    Known conv (l ++ [o]) s' := by
  have hl : lastWrite (l ++ [o]) = lastWrite l := by
    rw [lastWrite_append]
    cases o with
    | write m => exact absurd rfl (ho m)
    | update => rfl
    | advance d => rfl
    | fetch => rfl
  have hm : ∀ m, Op.write m ∈ l ++ [o] ↔ Op.write m ∈ l := by
    intro m
    rw [List.mem_append, List.mem_singleton]
    exact ⟨fun h => h.resolve_right (fun hc => ho m hc.symm), Or.inl⟩
  have sn : SawNiq (l ++ [o]) ↔ SawNiq l := by unfold SawNiq; simp only [hm]
  have se : SawE2e (l ++ [o]) ↔ SawE2e l := by unfold SawE2e; simp only [hm]
  exact ⟨fun v => by rw [h1, hl, sn]; exact h.niq v, fun v => by rw [h2, hl, se]; exact h.e2e v⟩

/-- The scaling is within the tolerance. -/
structure Coeff {E : Type} (s : St E) : Prop where
  low : s.fresh = true → 1 - s.delta ≤ s.coeff
  high : s.fresh = true → s.coeff ≤ 1 + s.delta
  tun : s.fresh = true → s.tuning = true

theorem scale_coeff {E : Type} {est : Est E} {s s' : St E} {l : Int} (h : Coeff s) (hd : 0 < s.delta) (ht : s.tuning = true) (hs : s.scale est l = some s') : Coeff s' := by
  unfold St.scale at hs
  split_ifs at hs
  · injection hs with hs; rw [← hs]; exact h
  · split at hs
    · cases hs
    · injection hs with hs
      rw [← hs]
      refine ⟨fun _ => le_max_right _ _, fun _ => ?_, fun _ => ht⟩
      refine max_le (min_le_right _ _) ?_
      linarith

theorem update_coeff {E : Type} {est : Est E} {s s' : St E} {b : Bool} (h : Coeff s) (hd : s.tuning = true → 0 < s.delta) (hs : s.update est = some (s', b)) : Coeff s' := by
  unfold St.update at hs
  split at hs
  · injection hs with hs; injection hs with hs _; rw [← hs]; exact h
  · split_ifs at hs with h1 h2
    · injection hs with hs; injection hs with hs _; rw [← hs]; exact h
    · obtain ⟨t, h3, h4⟩ := Option.map_eq_some_iff.1 hs
      injection h4 with h4 _
      rw [← h4]
      exact scale_coeff h (hd h2) h2 h3
    · injection hs with hs; injection hs with hs _; rw [← hs]; exact h

/-- Everything that holds after a history. -/
theorem history {E : Type} {conv : Int → Int} {est : Est E} {s0 : St E} (hd : s0.tuning = true → 0 < s0.delta) (l : List Op) : ∀ {l0 : List Op} {s s' : St E} {rs : List Res}, Same s0 s → Known conv l0 s → Coeff s →
    s.runs conv est l = some (s', rs) →
    Same s0 s' ∧ Known conv (l0 ++ l) s' ∧ Coeff s' ∧ ∀ v, Res.scaling v ∈ rs → v = 0 ∨ (s0.tuning = true ∧ 1 - s0.delta ≤ v ∧ v ≤ 1 + s0.delta) := by
  induction l with
  | nil =>
    intro l0 s s' rs h1 h2 h3 h
    injection h with h
    injection h with h h'
    rw [← h, ← h', List.append_nil]
    exact ⟨h1, h2, h3, fun v hv => by cases hv⟩
  | cons o os ih =>
    intro l0 s s' rs h1 h2 h3 h
    simp only [St.runs] at h
    obtain ⟨⟨s1, r1⟩, e1, h⟩ := Option.bind_eq_some_iff.1 h
    obtain ⟨⟨s2, r2⟩, e2, h⟩ := Option.map_eq_some_iff.1 h
    injection h with h h'
    have step : Same s s1 ∧ Known conv (l0 ++ [o]) s1 ∧ Coeff s1 ∧ ∀ v, r1 = .scaling v → v = 0 ∨ (s0.tuning = true ∧ 1 - s0.delta ≤ v ∧ v ≤ 1 + s0.delta) := by
      cases o with
      | write m =>
        injection e1 with e1
        injection e1 with e1 e1'
        obtain ⟨w1, _, _, _, _, w2, w3, _⟩ := write_same conv s m
        rw [← e1, ← e1']
        refine ⟨w1, h2.write m, ⟨?_, ?_, ?_⟩, fun v hv => by cases hv⟩
        · rw [w2, w3, w1.delta]; exact h3.low
        · rw [w2, w3, w1.delta]; exact h3.high
        · rw [w2, w1.tuning]; exact h3.tun
      | update =>
        obtain ⟨u, e3, e4⟩ := Option.map_eq_some_iff.1 e1
        injection e4 with e4 e4'
        obtain ⟨u1, u2, u3, u4, u5⟩ := update_same (s' := u.1) (b := u.2) e3
        rw [← e4, ← e4']
        exact ⟨u1, h2.other (by simp) u4 u5, update_coeff h3 (by rw [h1.tuning, h1.delta]; exact hd) e3, fun v hv => by cases hv⟩
      | advance d =>
        obtain ⟨u, e3, e4⟩ := Option.map_eq_some_iff.1 e1
        injection e4 with e4 e4'
        obtain ⟨u1, _, _, _, u2, u3, u4, u5, _⟩ := report_same e3
        have u1' : Same s u := ⟨u1.1, u1.2, u1.3, u1.4, u1.5, u1.6, u1.7, u1.8, u1.9⟩
        rw [← e4, ← e4']
        refine ⟨u1', h2.other (by simp) u4 u5, ⟨?_, ?_, ?_⟩, fun v hv => by cases hv⟩
        · rw [u2, u3, u1'.delta]; exact h3.low
        · rw [u2, u3, u1'.delta]; exact h3.high
        · rw [u2, u1'.tuning]; exact h3.tun
      | fetch =>
        injection e1 with e1
        injection e1 with e1 e1'
        obtain ⟨u1, _, _, _, _, u4, u5⟩ := fetch_same s
        rw [← e1, ← e1']
        refine ⟨u1, h2.other (by simp) u4 u5, ?_, fun v hv => ?_⟩
        · unfold St.fetch
          split_ifs
          · exact ⟨(fun hc => by cases hc), (fun hc => by cases hc), fun hc => by cases hc⟩
          · exact h3
        · injection hv with hv
          rw [← hv]
          unfold St.fetch
          by_cases hf : s.fresh = true
          · rw [if_pos hf, ← h1.delta, ← h1.tuning]
            exact Or.inr ⟨h3.tun hf, h3.low hf, h3.high hf⟩
          · rw [if_neg hf]; exact Or.inl rfl
    obtain ⟨p1, p2, p3, p4⟩ := step
    obtain ⟨q1, q2, q3, q4⟩ := ih (h1.trans p1) p2 p3 e2
    rw [← h, ← h']
    refine ⟨q1, by rw [List.append_assoc] at q2; exact q2, q3, fun v hv => ?_⟩
    rcases List.mem_cons.1 hv with hv | hv
    · exact p4 v hv.symm
    · exact q4 v hv

theorem known_init {E : Type} {conv : Int → Int} {log : Nat} {e : E} {c : Cfg} {s : St E} (h : create conv log e c = some s) : Known conv [] s ∧ Coeff s := by
  obtain ⟨_, _, _, _, h1, h2, h3, _⟩ := create_spec h
  refine ⟨⟨fun v => ?_, fun v => ?_⟩, ⟨?_, ?_, ?_⟩⟩
  · rw [h2]; simp [lastWrite]
  · rw [h3]; simp [lastWrite]
  all_goals rw [h1]; intro hc; cases hc

/-! ## C47: the end of the first cycle -/

/-- The history of the sample: metrics, one update at the beginning and one after 4294720000 samples. -/
def samplePre : List Op := [.write ⟨9600, 0, 0⟩, .update, .advance 4294720000, .update]

/-- The position of the next update after a history. -/
theorem sample_pre : ∃ s rs, sampleSt.runs id sampleEst samplePre = some (s, rs) ∧ Pos 4294720000 s ∧ Same sampleSt s ∧ s.count = 17894667 ∧ s.niq = some (9600, 0) ∧ 4294720000 < s.reportPos := by
  obtain ⟨hp, hi, _⟩ := create_spec sample_create
  obtain ⟨s, rs, h1, h2, h3⟩ := hp.runs (conv := id) (est := sampleEst) (l := [.write ⟨9600, 0, 0⟩, .update, .advance 4294720000]) (fun h => (hi h).1) (by decide) (by decide) (by decide)
  simp only [total, Nat.zero_add, Nat.add_zero] at h3
  have hn : s.niq = some (9600, 0) ∧ 4294720000 < s.reportPos := by
    obtain ⟨k1, k2⟩ := known_init sample_create
    constructor
    · have := (history (fun ht => (hi ht).2) _ (.refl _) k1 k2 h1).2.1
      refine (this.niq _).2 ⟨⟨_, List.mem_cons_self, Or.inl (by decide)⟩, _, rfl, rfl⟩
    · have he : [Op.write ⟨9600, 0, 0⟩, .update, .advance 4294720000] = [.write ⟨9600, 0, 0⟩, .update] ++ [.advance 4294720000] := rfl
      rw [he, runs_append] at h1
      obtain ⟨⟨s1, r1⟩, _, h1⟩ := Option.bind_eq_some_iff.1 h1
      obtain ⟨⟨s2, r2⟩, h1, e2⟩ := Option.map_eq_some_iff.1 h1
      injection e2 with e2 _
      simp only [St.runs, St.call] at h1
      obtain ⟨⟨s3, r3⟩, e3, h1⟩ := Option.bind_eq_some_iff.1 h1
      obtain ⟨w, e5, e6⟩ := Option.map_eq_some_iff.1 e3
      have := report_gt e5
      injection e6 with e6 _
      rw [Option.map_some] at h1
      injection h1 with h1
      injection h1 with h1 _
      have hw : w = s := by rw [e6, ← e2, ← h1]
      rw [hw, h3.pos] at this
      exact this
  obtain ⟨s', h4, h5, h6⟩ := h3.scaled (by rw [h2.interval]; decide) (by rw [h2.interval]; decide) sampleEst 9600
  have hup : s.update sampleEst = some (s', true) := by
    unfold St.update St.latency
    rw [h2.backend, hn.1]
    simp only [sampleSt, Option.map_some]
    have hck : s.check 9600 = true := by
      unfold St.check
      rw [h2.min, h2.max]
      simp [sampleSt]
    rw [if_neg (by rw [hck]; simp), h2.tuning]
    simp only [sampleSt, if_true, h4, Option.map_some]
  refine ⟨s', rs ++ [.alive true], ?_, h5, ?_, ?_, ?_, ?_⟩
  · have : samplePre = [.write ⟨9600, 0, 0⟩, .update, .advance 4294720000] ++ [.update] := rfl
    rw [this, runs_append, h1]
    simp only [Option.bind_some, St.runs, St.call, hup, Option.map_some]
  · exact h2.trans (scale_same h4).1
  · rw [h6, h2.interval]; decide
  · rw [(scale_same h4).2.2.2.1]; exact hn.1
  · rw [(scale_same h4).2.2.1]; exact hn.2

/-- **C47 is false** for long streams: when the position wraps, tuning stops for a whole cycle: after 4295020000 samples there were 17894667 updates of the estimator, and during the next 4294600000 samples (24.8 hours) there are none,
although `update_stream` succeeds. -/
theorem C47_stall_fails (d : Nat) (hd : d ≤ 4294600000) :
    ∃ s rs, sampleSt.runs id sampleEst (samplePre ++ [.advance 300000, .update, .advance d, .update]) = some (s, rs) ∧ s.count = 17894667 := by
  obtain ⟨s, rs, h1, h2, h3, h4, h5, h6⟩ := sample_pre
  have h7 : s.scalePos = 4294720080 := by rw [h2.scale, h4, h3.interval]; decide
  have stall : ∀ t : St Nat, t.backend = .niq → t.tuning = true → t.niq = some (9600, 0) → t.min = 4800 → t.max = 14400 → t.pos < t.scalePos → t.update sampleEst = some (t, true) := by
    intro t hb ht hn hmi hma hp
    unfold St.update St.latency
    rw [hb, hn]
    simp only [Option.map_some]
    have hck : t.check 9600 = true := by
      unfold St.check
      rw [hmi, hma]
      simp
    rw [if_neg (by rw [hck]; simp), if_pos ht]
    unfold St.scale
    rw [if_pos hp]
    rfl
  have adv : ∀ t : St Nat, ∀ n, (t.pos + n) % m32 < t.reportPos → t.advance n = some { t with pos := (t.pos + n) % m32 } := by
    intro t n hp
    unfold St.advance St.report
    rw [if_pos hp]
  have hb : s.backend = .niq := h3.backend
  have ht : s.tuning = true := h3.tuning
  have hmi : s.min = 4800 := h3.min
  have hma : s.max = 14400 := h3.max
  rw [runs_append, h1]
  have p1 : (s.pos + 300000) % m32 = 52704 := by rw [h2.pos]; decide
  have a1 := adv s 300000 (by rw [p1]; omega)
  rw [p1] at a1
  obtain ⟨t, ht'⟩ : ∃ t : St Nat, t = { s with pos := 52704 } := ⟨_, rfl⟩
  rw [← ht'] at a1
  have u1 := stall t (by rw [ht']; exact hb) (by rw [ht']; exact ht) (by rw [ht']; exact h5) (by rw [ht']; exact hmi) (by rw [ht']; exact hma) (by rw [ht']; simp only; omega)
  have p2 : (t.pos + d) % m32 = 52704 + d := by rw [ht']; exact Nat.mod_eq_of_lt (by simp only [m32]; omega)
  have a2 := adv t d (by rw [p2, ht']; simp only; omega)
  rw [p2] at a2
  have u2 := stall { t with pos := 52704 + d } (by rw [ht']; exact hb) (by rw [ht']; exact ht) (by rw [ht']; exact h5) (by rw [ht']; exact hmi) (by rw [ht']; exact hma) (by rw [ht']; simp only; omega)
  simp only [Option.bind_some, St.runs, St.call, a1, u1, a2, u2, Option.map_some]
  exact ⟨_, _, rfl, by rw [ht']; exact h4⟩

example : create id 240000 0 sampleCfg = some sampleSt ∧ total samplePre + sampleSt.interval < m32 := ⟨sample_create, by decide⟩

/-! ## C66: theorems -/

theorem check_false {E : Type} (s : St E) (v : Int) : s.check v = false ↔
    (v > s.max ∨ v < s.min) ∧ ¬ (v < s.min ∧ s.backend = .niq ∧ (s.niq.map (·.2)).getD 0 > s.maxStalling ∧ s.maxStalling > 0) := by
  unfold St.check
  simp only [Bool.and_eq_true, decide_eq_true_eq, and_assoc]
  by_cases h1 : v < s.min ∧ s.backend = .niq ∧ (s.niq.map (·.2)).getD 0 > s.maxStalling ∧ s.maxStalling > 0
  · rw [if_pos h1]
    exact ⟨(fun hc => by cases hc), fun hc => absurd h1 hc.2⟩
  · rw [if_neg h1]
    by_cases h2 : v < s.min ∨ v > s.max
    · rw [if_pos h2]
      exact ⟨fun _ => ⟨h2.symm, h1⟩, fun _ => rfl⟩
    · rw [if_neg h2]
      exact ⟨(fun hc => by cases hc), fun hc => absurd hc.1.symm h2⟩

/-- **C66.** `update_stream` tells to terminate the session exactly when bounds are enabled, the latency of the configured backend is known, the last reported value is above the maximum or below the minimum, and it is not the case that
the queue latency is below the minimum while the queue is stalling. -/
theorem C66_bounds {E : Type} (conv : Int → Int) (est : Est E) (log : Nat) (e : E) (c : Cfg) (s0 s s' : St E) (h0 : create conv log e c = some s0) (l : List Op) (rs : List Res)
    (h : s0.runs conv est l = some (s, rs)) (b : Bool) (hb : s.update est = some (s', b)) :
    b = false ↔ (c.tuning = true ∨ c.tolerance ≠ 0) ∧ ∃ m, lastWrite l = some m ∧
      match c.backend with
      | .niq => SawNiq l ∧ (conv m.niq > conv (c.target + c.tolerance) ∨ conv m.niq < conv (c.target - c.tolerance)) ∧
          ¬ (conv m.niq < conv (c.target - c.tolerance) ∧ conv m.stalling > conv c.stale ∧ conv c.stale > 0)
      | .e2e => SawE2e l ∧ (conv m.e2e > conv (c.target + c.tolerance) ∨ conv m.e2e < conv (c.target - c.tolerance)) := by
  obtain ⟨k1, k2⟩ := known_init h0
  obtain ⟨_, hd, _, _, _, _, _, _, _, c1, c2, c3, _⟩ := create_spec h0
  obtain ⟨g1, g2, g3, _⟩ := history (fun ht => (hd ht).2) l (.refl s0) k1 k2 h
  rw [List.nil_append] at g2
  have gb : s.bounds = true ↔ (c.tuning = true ∨ c.tolerance ≠ 0) := by rw [g1.bounds, c3]; simp
  unfold St.update at hb
  cases hl : s.latency with
  | none =>
    rw [hl] at hb
    injection hb with hb
    injection hb with _ hb
    rw [← hb]
    constructor
    · intro hc; cases hc
    · rintro ⟨_, m, h1, h2⟩
      exfalso
      unfold St.latency at hl
      rw [g1.backend, c1] at hl
      cases hk : c.backend with
      | niq =>
        rw [hk] at hl h2
        have := (g2.niq _).2 ⟨h2.1, m, h1, rfl⟩
        simp only at hl
        rw [this] at hl
        cases hl
      | e2e =>
        rw [hk] at hl h2
        have := (g2.e2e _).2 ⟨h2.1, m, h1, rfl⟩
        simp only at hl
        rw [this] at hl
        cases hl
  | some v =>
    rw [hl] at hb
    simp only at hb
    have hbv : b = false ↔ s.bounds = true ∧ s.check v = false := by
      by_cases hc : s.bounds = true ∧ s.check v = false
      · rw [if_pos hc] at hb
        injection hb with hb
        injection hb with _ hb
        rw [← hb]
        exact ⟨fun _ => hc, fun _ => rfl⟩
      · rw [if_neg hc] at hb
        have : b = true := by
          split_ifs at hb
          · obtain ⟨t, _, h2⟩ := Option.map_eq_some_iff.1 hb
            injection h2 with _ h2
            exact h2.symm
          · injection hb with hb
            injection hb with _ hb
            exact hb.symm
        rw [this]
        exact ⟨(fun hc => by cases hc), fun hc' => absurd hc' hc⟩
    rw [hbv, gb]
    refine and_congr_right fun hbb => ?_
    obtain ⟨b1, b2, b3⟩ := c2 (g1.bounds ▸ gb.2 hbb)
    rw [check_false, g1.min, g1.max, g1.maxStalling, g1.backend, c1, b1, b2, b3]
    unfold St.latency at hl
    rw [g1.backend, c1] at hl
    cases hk : c.backend with
    | niq =>
      rw [hk] at hl
      simp only at hl ⊢
      obtain ⟨w, hw, hwv⟩ := Option.map_eq_some_iff.1 hl
      obtain ⟨hs, m, hm, hwm⟩ := (g2.niq w).1 hw
      rw [hw, ← hwv, hwm, hm]
      simp only [Option.map_some, Option.getD_some, true_and]
      constructor
      · intro h2; exact ⟨m, rfl, hs, h2⟩
      · rintro ⟨m', h1, _, h2⟩; injection h1 with h1; rw [h1]; exact h2
    | e2e =>
      rw [hk] at hl
      simp only at hl ⊢
      obtain ⟨hs, m, hm, hwm⟩ := (g2.e2e v).1 hl
      rw [hwm, hm]
      simp only [reduceCtorEq, false_and, and_false, not_false_eq_true, and_true]
      constructor
      · intro h2; exact ⟨m, rfl, hs, h2⟩
      · rintro ⟨m', h1, _, h2⟩; injection h1 with h1; rw [h1]; exact h2

/-- **C66.** Every scaling factor that `fetch_scaling` returns is zero, or tuning is enabled and it is within the configured tolerance of one. -/
theorem C66_scaling {E : Type} (conv : Int → Int) (est : Est E) (log : Nat) (e : E) (c : Cfg) (s0 s : St E) (h0 : create conv log e c = some s0) (l : List Op) (rs : List Res)
    (h : s0.runs conv est l = some (s, rs)) (v : Rat) (hv : .scaling v ∈ rs) : v = 0 ∨ (c.tuning = true ∧ 1 - c.delta ≤ v ∧ v ≤ 1 + c.delta) := by
  obtain ⟨k1, k2⟩ := known_init h0
  obtain ⟨_, hd, _, _, _, _, _, c1, c2, _⟩ := create_spec h0
  have := (history (fun ht => (hd ht).2) l (.refl s0) k1 k2 h).2.2.2 v hv
  rw [c1, c2] at this
  exact this

/-- **C66.** A scaling factor is returned at most once per update: if there was no `update_stream` since the last `fetch_scaling`, zero is returned. -/
theorem C66_once {E : Type} (conv : Int → Int) (est : Est E) (s0 s : St E) (l m : List Op) (rs : List Res)
    (h : s0.runs conv est (l ++ .fetch :: m) = some (s, rs)) (hm : .update ∉ m) : s.fetch.2 = 0 := by
  rw [runs_append] at h
  obtain ⟨⟨s1, r1⟩, _, h⟩ := Option.bind_eq_some_iff.1 h
  obtain ⟨⟨s2, r2⟩, h, e2⟩ := Option.map_eq_some_iff.1 h
  injection e2 with e2 _
  rw [← e2]
  simp only [St.runs, St.call, Option.bind_some] at h
  obtain ⟨⟨s3, r3⟩, h, e3⟩ := Option.map_eq_some_iff.1 h
  injection e3 with e3 _
  rw [← e3]
  have hf : s1.fetch.1.fresh = false := by
    unfold St.fetch
    split_ifs with hf
    · rfl
    · simpa using hf
  have key : ∀ (m : List Op) (t u : St E) (q : List Res), .update ∉ m → t.fresh = false → t.runs conv est m = some (u, q) → u.fresh = false := by
    intro m
    induction m with
    | nil =>
      intro t u q _ ht hr
      injection hr with hr
      injection hr with hr _
      rw [← hr]
      exact ht
    | cons o os ih =>
      intro t u q hm ht hr
      simp only [St.runs] at hr
      obtain ⟨⟨t1, q1⟩, e1, hr⟩ := Option.bind_eq_some_iff.1 hr
      obtain ⟨⟨t2, q2⟩, hr, e4⟩ := Option.map_eq_some_iff.1 hr
      injection e4 with e4 _
      rw [← e4]
      refine ih t1 t2 q2 (fun hc => hm (List.mem_cons_of_mem _ hc)) ?_ hr
      cases o with
      | update => exact absurd List.mem_cons_self hm
      | write w =>
        injection e1 with e1
        injection e1 with e1 _
        rw [← e1, (write_same conv t w).2.2.2.2.2.1]
        exact ht
      | advance d =>
        obtain ⟨w, e5, e6⟩ := Option.map_eq_some_iff.1 e1
        injection e6 with e6 _
        rw [← e6, (report_same e5).2.2.2.2.1]
        exact ht
      | fetch =>
        injection e1 with e1
        injection e1 with e1 _
        rw [← e1]
        unfold St.fetch
        rw [if_neg (by rw [ht]; simp)]
        exact ht
  have := key m _ _ _ hm hf h
  unfold St.fetch
  rw [if_neg (by rw [this]; simp)]

/-- A session with a latency of 20000 samples is terminated; with a latency of 100 samples it is not, if the queue stalls for 1500 samples. -/
example : ((sampleSt.runs id sampleEst [.write ⟨20000, 0, 0⟩, .advance 480]).bind fun r => (r.1.update sampleEst).map (·.2)) = some false ∧
    ((sampleSt.runs id sampleEst [.write ⟨100, 1500, 0⟩, .advance 480]).bind fun r => (r.1.update sampleEst).map (·.2)) = some true ∧
    ((sampleSt.runs id sampleEst [.write ⟨100, 500, 0⟩, .advance 480]).bind fun r => (r.1.update sampleEst).map (·.2)) = some false := by decide +kernel

example : ((sampleSt.runs id sampleEst [.write ⟨9600, 0, 0⟩, .advance 480, .update, .fetch, .advance 480]).map fun r => (r.1.count, r.2)) =
    some (3, [.unit, .unit, .alive true, .scaling 1, .unit]) := by decide +kernel

end Verif.LatencyTuner
