import Verif.Feedback.Spec
import Verif.LatencyTuner.Lemmas
import Verif.RateLimiter.Props
import Mathlib.Tactic.Linarith

namespace Verif.Feedback

open Verif.LatencyTuner

/-- The state agrees with the view of the history. -/
structure Inv {E : Type} (timeout : Int) (period : Nat) (past : List Ev) (m : M E) : Prop where
  started : m.started = started past
  has : m.has = (view timeout period past).cur.isSome
  cur : ∀ r, (view timeout period past).cur = some r → m.src = r.src ∧ m.lastTs = r.time ∧ m.lat = r.lat ∧ m.link = linkOf (view timeout period past).taken r
  pack : m.usePack = (view timeout period past).taken.any (fun q => q.link.total == 0)
  tmo : m.timeout = timeout
  per : m.lim.period = period
  fresh : (view timeout period past).changes = [] → m.start = none ∧ m.lim.pos = 0
  cell : ∀ c cs, (view timeout period past).changes = c :: cs → m.start = some ((c :: cs).getLastD 0) ∧ m.lim.pos = ((c - (c :: cs).getLastD 0) / period + 1) * period

theorem view_fresh {timeout : Int} {period : Nat} {past : List Ev} (h : started past = false) : view timeout period past = ⟨none, [], []⟩ := by
  induction past with
  | nil => rfl
  | cons e es ih =>
    have h1 : started es = false := by
      unfold started at h ⊢
      simp only [List.contains_cons, Bool.or_eq_false_iff] at h
      exact h.2
    cases e with
    | start => unfold started at h; simp at h
    | write now d i => simp only [view]; rw [ih h1]
    | report r => simp only [view]; rw [ih h1, if_pos h1]

theorem store_inv {E : Type} {timeout : Int} {period : Nat} {past past' : List Ev} {m m' : M E} {r : Report} {cs : List Nat} (h : Inv timeout period past m)
    (hs : m'.started = started past') (hsrc : m'.src = r.src) (hu : m'.usePack = m.usePack) (ht : m'.timeout = m.timeout) (hp : m'.lim.period = period)
    (hv : view timeout period past' = ⟨some r, cs, r :: (view timeout period past).taken⟩)
    (hf : cs = [] → m'.start = none ∧ m'.lim.pos = 0)
    (hc : ∀ a as, cs = a :: as → m'.start = some ((a :: as).getLastD 0) ∧ m'.lim.pos = ((a - (a :: as).getLastD 0) / period + 1) * period) :
    Inv timeout period past' (m'.store r) := by
  have hu' : m'.usePack = (view timeout period past).taken.any (fun q => q.link.total == 0) := by rw [hu, h.pack]
  by_cases hz : r.link.total = 0 ∨ m'.usePack = true
  · have key : (r :: (view timeout period past).taken).any (fun q => q.link.total == 0) = true := by
      rw [List.any_cons, Bool.or_eq_true]
      rcases hz with hz | hz
      · left; simpa using hz
      · right; rw [← hu']; exact hz
    unfold M.store
    simp only [if_pos hz]
    refine ⟨hs, by rw [hv]; rfl, ?_, by rw [hv]; exact key.symm, ht.trans h.tmo, hp, by rw [hv]; exact hf, by rw [hv]; exact hc⟩
    intro q hq
    rw [hv] at hq
    injection hq with hq
    subst hq
    rw [hv]
    refine ⟨hsrc, rfl, rfl, ?_⟩
    unfold linkOf
    rw [if_pos key]
  · have key : (r :: (view timeout period past).taken).any (fun q => q.link.total == 0) = false := by
      rw [not_or] at hz
      rw [List.any_cons, Bool.or_eq_false_iff]
      refine ⟨by simpa using hz.1, ?_⟩
      rw [← hu']
      simpa using hz.2
    have huf : m'.usePack = false := by
      rw [not_or] at hz
      simpa using hz.2
    unfold M.store
    simp only [if_neg hz]
    refine ⟨hs, by rw [hv]; rfl, ?_, by rw [hv]; simp only [huf]; exact key.symm, ht.trans h.tmo, hp, by rw [hv]; exact hf, by rw [hv]; exact hc⟩
    intro q hq
    rw [hv] at hq
    injection hq with hq
    subst hq
    rw [hv]
    refine ⟨hsrc, rfl, rfl, ?_⟩
    unfold linkOf
    rw [key, if_neg (by simp)]

theorem started_report {past : List Ev} {r : Report} : started (.report r :: past) = started past := by
  unfold started
  rw [List.contains_cons]
  rfl

theorem started_write {past : List Ev} {a b c : Nat} : started (.write a b c :: past) = started past := by
  unfold started
  rw [List.contains_cons]
  rfl

theorem started_start {past : List Ev} : started (.start :: past) = true := by
  unfold started
  rw [List.contains_cons]
  rfl

theorem getLastD_cons_cons {a b : Nat} {l : List Nat} : (a :: b :: l).getLastD 0 = (b :: l).getLastD 0 := by
  simp [List.getLastD]

theorem feedback_inv {E : Type} {timeout : Int} {period : Nat} (hp : 0 < period) {past : List Ev} {m : M E} (h : Inv timeout period past m) (r : Report) :
    Inv timeout period (.report r :: past) (m.feedback r) := by
  unfold M.feedback
  by_cases hs : m.started = false
  · rw [if_pos hs]
    have hs' : started past = false := by rw [← h.started]; exact hs
    have hv : view timeout period (.report r :: past) = view timeout period past := by simp only [view]; rw [if_pos hs']
    exact ⟨by rw [started_report]; exact h.started, by rw [hv]; exact h.has, by rw [hv]; exact h.cur, by rw [hv]; exact h.pack, h.tmo, h.per,
      by rw [hv]; exact h.fresh, by rw [hv]; exact h.cell⟩
  · rw [if_neg hs]
    have hs' : ¬ started past = false := by rw [← h.started]; exact hs
    cases hc : (view timeout period past).cur with
    | none =>
      have hh : m.has = false := by rw [h.has, hc]; rfl
      simp only [if_pos hh, hh, Bool.false_eq_true, false_and, if_false]
      refine store_inv (cs := (view timeout period past).changes) h (by rw [started_report]; exact h.started) rfl rfl rfl h.per ?_ h.fresh h.cell
      simp only [view]
      rw [if_neg hs', hc]
    | some c =>
      have hh : m.has = true := by rw [h.has, hc]; rfl
      obtain ⟨h1, h2, h3, h4⟩ := h.cur c hc
      simp only [hh, Bool.true_eq_false, if_false, true_and]
      by_cases he : c.src = r.src
      · rw [if_neg (by rw [h1]; simpa using he)]
        refine store_inv (cs := (view timeout period past).changes) h (by rw [started_report]; exact h.started) (h1.trans he) rfl rfl h.per ?_ h.fresh h.cell
        simp only [view]
        rw [if_neg hs', hc]
        simp only [if_pos he]
      · rw [if_pos (by rw [h1]; exact he)]
        cases hch : (view timeout period past).changes with
        | nil =>
          obtain ⟨f1, f2⟩ := h.fresh hch
          have ha : m.allow r.time = ({ m with lim := { m.lim with pos := (0 / m.lim.period + 1) * m.lim.period }, start := some r.time }, true) := by
            unfold M.allow
            rw [f1]
            simp only [RateLimiter.State.allow, f2, ge_iff_le, le_refl, if_true]
          rw [ha, if_neg (by simp)]
          refine store_inv (cs := [r.time]) h (by rw [started_report]; exact h.started) rfl rfl rfl h.per ?_ (fun hx => by cases hx) ?_
          · simp only [view]
            rw [if_neg hs', hc]
            simp only [if_neg he, hch, free, if_true]
          · intro a as hx
            injection hx with hx1 hx2
            subst hx1 hx2
            refine ⟨rfl, ?_⟩
            simp only [h.per, List.getLastD]
            simp
        | cons c' cs =>
          obtain ⟨f1, f2⟩ := h.cell c' cs hch
          by_cases hg : (c' - (c' :: cs).getLastD 0) / period < (r.time - (c' :: cs).getLastD 0) / period
          · have hle : m.lim.pos ≤ r.time - (c' :: cs).getLastD 0 := by
              rw [f2]
              exact (Nat.le_div_iff_mul_le hp).1 hg
            have ha : m.allow r.time = ({ m with lim := { m.lim with pos := ((r.time - (c' :: cs).getLastD 0) / m.lim.period + 1) * m.lim.period } }, true) := by
              unfold M.allow
              rw [f1]
              simp only [RateLimiter.State.allow, ge_iff_le, if_pos hle]
            rw [ha, if_neg (by simp)]
            refine store_inv (cs := r.time :: c' :: cs) h (by rw [started_report]; exact h.started) rfl rfl rfl h.per ?_ (fun hx => by cases hx) ?_
            · simp only [view]
              rw [if_neg hs', hc]
              simp only [if_neg he, hch, free, decide_eq_true_eq, if_pos hg]
            · intro a as hx
              injection hx with hx1 hx2
              subst hx1 hx2
              rw [getLastD_cons_cons]
              exact ⟨f1, by simp only [h.per]⟩
          · have hle : ¬ m.lim.pos ≤ r.time - (c' :: cs).getLastD 0 := by
              rw [f2]
              exact fun hx => hg ((Nat.le_div_iff_mul_le hp).2 hx)
            have ha : m.allow r.time = (m, false) := by
              unfold M.allow
              rw [f1]
              simp only [RateLimiter.State.allow, ge_iff_le, if_neg hle]
              rw [← f1]
            rw [ha, if_pos rfl]
            have hv : view timeout period (.report r :: past) = view timeout period past := by
              simp only [view]
              rw [if_neg hs', hc]
              simp only [if_neg he, hch, free, decide_eq_true_eq, if_neg hg]
            exact ⟨by rw [started_report]; exact h.started, by rw [hv]; exact h.has, by rw [hv]; exact h.cur, by rw [hv]; exact h.pack, h.tmo, h.per,
              by rw [hv]; exact h.fresh, by rw [hv]; exact h.cell⟩

/-- Fields that `write` may not touch. -/
theorem inv_tuner {E : Type} {timeout : Int} {period : Nat} {past : List Ev} {m : M E} (h : Inv timeout period past m) (t : St E) :
    Inv timeout period past { m with tuner := t } :=
  ⟨h.started, h.has, h.cur, h.pack, h.tmo, h.per, h.fresh, h.cell⟩

theorem updateTuner_inv {E : Type} {env : Env E} {timeout : Int} {period : Nat} {past : List Ev} {m m' : M E} (h : Inv timeout period past m) {now dur id : Nat}
    (hu : m.updateTuner env now dur = .ok m') : Inv timeout period (.write now dur id :: past) m' := by
  unfold M.updateTuner at hu
  cases hc : (view timeout period past).cur with
  | none =>
    have hh : m.has = false := by rw [h.has, hc]; rfl
    rw [if_pos hh] at hu
    injection hu with hu
    subst hu
    have hv : view timeout period (.write now dur id :: past) = view timeout period past := by simp only [view]; rw [hc]
    exact ⟨by rw [started_write]; exact h.started, by rw [hv]; exact h.has, by rw [hv]; exact h.cur, by rw [hv]; exact h.pack, h.tmo, h.per,
      by rw [hv]; exact h.fresh, by rw [hv]; exact h.cell⟩
  | some r =>
    have hh : m.has = true := by rw [h.has, hc]; rfl
    obtain ⟨h1, h2, h3, h4⟩ := h.cur r hc
    rw [if_neg (by rw [hh]; simp)] at hu
    by_cases ht : (now : Int) - r.time > timeout
    · rw [if_pos (by rw [h2, h.tmo]; exact ht)] at hu
      injection hu with hu
      subst hu
      have hv : view timeout period (.write now dur id :: past) = ⟨none, (view timeout period past).changes, (view timeout period past).taken⟩ := by
        simp only [view]; rw [hc]; simp only [if_pos ht]
      exact ⟨by rw [started_write]; exact h.started, by rw [hv]; rfl, by rw [hv]; exact fun r hr => (by cases hr), by rw [hv]; exact h.pack, h.tmo, h.per,
        by rw [hv]; exact h.fresh, by rw [hv]; exact h.cell⟩
    · rw [if_neg (by rw [h2, h.tmo]; exact ht)] at hu
      have hv : view timeout period (.write now dur id :: past) = view timeout period past := by
        simp only [view]; rw [hc]; simp only [if_neg ht]
      have hm : ∀ t : St E, Inv timeout period (.write now dur id :: past) { m with tuner := t } := fun t =>
        ⟨by rw [started_write]; exact h.started, by rw [hv]; exact h.has, by rw [hv]; exact h.cur, by rw [hv]; exact h.pack, h.tmo, h.per,
          by rw [hv]; exact h.fresh, by rw [hv]; exact h.cell⟩
      split at hu
      · cases hu
      · injection hu with hu; subst hu; exact hm _
      · split at hu
        · cases hu
        · injection hu with hu; subst hu; exact hm _

theorem write_inv {E : Type} {env : Env E} {timeout : Int} {period : Nat} {past : List Ev} {m m' : M E} {eff : List Eff} (h : Inv timeout period past m)
    {now dur id : Nat} (hu : m.write env now dur id = .ok (m', eff)) : Inv timeout period (.write now dur id :: past) m' := by
  unfold M.write at hu
  by_cases hs : m.started = false
  · rw [if_pos hs] at hu
    injection hu with hu
    injection hu with hu _
    subst hu
    have hv0 := view_fresh (timeout := timeout) (period := period) (past := past) (by rw [← h.started]; exact hs)
    have hv : view timeout period (.write now dur id :: past) = view timeout period past := by simp only [view]; rw [hv0]
    exact ⟨by rw [started_write]; exact h.started, by rw [hv]; exact h.has, by rw [hv]; exact h.cur, by rw [hv]; exact h.pack, h.tmo, h.per,
      by rw [hv]; exact h.fresh, by rw [hv]; exact h.cell⟩
  · rw [if_neg hs] at hu
    cases h1 : m.updateTuner env now dur with
    | error e => rw [h1] at hu; cases hu
    | ok m1 =>
      rw [h1] at hu
      have hi := updateTuner_inv (id := id) h h1
      simp only [Except.bind] at hu
      split_ifs at hu with h2
      · unfold M.updateScaling at hu
        simp only at hu
        split_ifs at hu
        · injection hu with hu; injection hu with hu _; subst hu; exact inv_tuner hi _
        · cases hu
        · injection hu with hu; injection hu with hu _; subst hu; exact inv_tuner hi _
      · injection hu with hu; injection hu with hu _; subst hu; exact hi

theorem call_inv {E : Type} {env : Env E} {timeout : Int} {period : Nat} (hp : 0 < period) {past : List Ev} {m m' : M E} {eff : List Eff} (h : Inv timeout period past m)
    {e : Ev} (hu : m.call env e = .ok (m', eff)) : Inv timeout period (e :: past) m' := by
  cases e with
  | start =>
    injection hu with hu
    injection hu with hu _
    subst hu
    exact ⟨started_start.symm, h.has, h.cur, h.pack, h.tmo, h.per, h.fresh, h.cell⟩
  | report r =>
    injection hu with hu
    injection hu with hu _
    subst hu
    exact feedback_inv hp h r
  | write now dur id => exact write_inv h hu

theorem run_inv {E : Type} {env : Env E} {timeout : Int} {period : Nat} (hp : 0 < period) (l : List Ev) : ∀ {past : List Ev} {m m' : M E} {eff : List Eff},
    Inv timeout period past m → m.run env l = .ok (m', eff) → Inv timeout period (l.reverse ++ past) m' := by
  induction l with
  | nil =>
    intro past m m' eff h hr
    injection hr with hr
    injection hr with hr _
    subst hr
    exact h
  | cons e es ih =>
    intro past m m' eff h hr
    simp only [M.run] at hr
    cases h1 : m.call env e with
    | error x => rw [h1] at hr; cases hr
    | ok a =>
      rw [h1] at hr
      simp only [Except.bind] at hr
      cases h2 : M.run env a.1 es with
      | error x => rw [h2] at hr; cases hr
      | ok b =>
        rw [h2] at hr
        injection hr with hr
        injection hr with hr _
        subst hr
        have := ih (call_inv (eff := a.2) hp h h1) h2
        rw [List.reverse_cons, List.append_assoc]
        exact this

theorem create_inv {E : Type} {env : Env E} {log : Nat} {e : E} {b : Bool} {f : FCfg} {c : Cfg} {m : M E} {fs : List Rat}
    (h : create env log e b f c = .ok (some m, fs)) : 0 < f.cooldown.toNat ∧ Inv f.timeout f.cooldown.toNat [] m ∧ m.scaling = c.tuning ∧
      LatencyTuner.create env.conv log e c = some m.tuner ∧ fs = (if c.tuning then [1] else []) := by
  unfold create at h
  unfold RateLimiter.State.init at h
  by_cases h0 : f.cooldown ≤ 0
  · rw [if_pos h0] at h
    cases h
  rw [if_neg h0] at h
  simp only at h
  cases ht : LatencyTuner.create env.conv log e c with
  | none => rw [ht] at h; injection h with h; injection h with h _; cases h
  | some t =>
    rw [ht] at h
    simp only at h
    refine ⟨by omega, ?_⟩
    have key : ∀ m0 : M E, m0 = ⟨t, ⟨0, 0, 0⟩, ⟨0, 0, 0, 0, 0, 0⟩, false, false, 0, f.timeout, c.tuning, 0, ⟨f.cooldown.toNat, 0⟩, none, false⟩ →
        Inv f.timeout f.cooldown.toNat [] m0 ∧ m0.scaling = c.tuning ∧ some t = some m0.tuner := by
      intro m0 hm
      subst hm
      exact ⟨⟨rfl, rfl, (fun r hr => by cases hr), rfl, rfl, rfl, (fun _ => ⟨rfl, rfl⟩), (fun _ _ hx => by cases hx)⟩, rfl, rfl⟩
    split_ifs at h with h1 h2 h3
    · injection h with h; injection h with h _; cases h
    · injection h with h; injection h with h hf; injection h with h
      obtain ⟨k1, k2, k3⟩ := key m h.symm
      exact ⟨k1, k2, k3, by rw [if_pos h1]; exact hf.symm⟩
    · injection h with h; injection h with h hf; injection h with h
      obtain ⟨k1, k2, k3⟩ := key m h.symm
      exact ⟨k1, k2, k3, by rw [if_neg h1]; exact hf.symm⟩

end Verif.Feedback
