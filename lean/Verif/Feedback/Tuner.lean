import Verif.Feedback.Lemmas
import Verif.LatencyTuner.Props

/-! # Feedback monitor: what the tuner sees -/

namespace Verif.Feedback

open Verif.LatencyTuner

/-- Metrics written to the tuner. -/
def writesOf (ops : List Op) : List Metrics := ops.filterMap fun o => match o with | .write m => some m | _ => none

/-- Factors fetched from the tuner, without zeros. -/
def fetched (rs : List Res) : List Rat := rs.filterMap fun r => match r with | .scaling v => if v > 0 then some v else none | _ => none

/-- What one call does to the tuner. -/
structure Sim {E : Type} (env : Env E) (t t' : St E) (w : List Metrics) (eff : List Eff) : Prop where
  ex : ∃ ops rs, t.runs env.conv env.est ops = some (t', rs) ∧ writesOf ops = w ∧ fetched rs = factors eff

theorem Sim.refl {E : Type} {env : Env E} (t : St E) {eff : List Eff} (h : factors eff = []) : Sim env t t [] eff := ⟨[], [], rfl, rfl, h.symm⟩

theorem Sim.trans {E : Type} {env : Env E} {t u v : St E} {w x : List Metrics} {e f : List Eff} (h1 : Sim env t u w e) (h2 : Sim env u v x f) : Sim env t v (w ++ x) (e ++ f) := by
  obtain ⟨o1, r1, a1, a2, a3⟩ := h1
  obtain ⟨o2, r2, b1, b2, b3⟩ := h2
  refine ⟨o1 ++ o2, r1 ++ r2, ?_, ?_, ?_⟩
  · rw [runs_append, a1]
    simp only [Option.bind_some, b1, Option.map_some]
  · unfold writesOf at *
    rw [List.filterMap_append, a2, b2]
  · unfold fetched factors at *
    rw [List.filterMap_append, List.filterMap_append, a3, b3]

theorem factors_frame (id : Nat) : factors [.frame id] = [] := rfl

theorem updateTuner_sim {E : Type} {env : Env E} {timeout : Int} {period : Nat} {past : List Ev} {m m' : M E} (h : Inv timeout period past m) {now dur id : Nat}
    (hu : m.updateTuner env now dur = .ok m') : Sim env m.tuner m'.tuner ((fed timeout period (.write now dur id :: past)).take ((fed timeout period (.write now dur id :: past)).length - (fed timeout period past).length)) [] ∧
      fed timeout period (.write now dur id :: past) = ((fed timeout period (.write now dur id :: past)).take ((fed timeout period (.write now dur id :: past)).length - (fed timeout period past).length)) ++ fed timeout period past ∧
      m'.scaling = m.scaling := by
  unfold M.updateTuner at hu
  cases hc : (view timeout period past).cur with
  | none =>
    have hh : m.has = false := by rw [h.has, hc]; rfl
    rw [if_pos hh] at hu
    injection hu with hu
    subst hu
    have hf : fed timeout period (.write now dur id :: past) = fed timeout period past := by simp only [fed]; rw [hc]
    rw [hf, Nat.sub_self, List.take_zero]
    exact ⟨.refl _ rfl, rfl, rfl⟩
  | some r =>
    have hh : m.has = true := by rw [h.has, hc]; rfl
    obtain ⟨h1, h2, h3, h4⟩ := h.cur r hc
    rw [if_neg (by rw [hh]; simp)] at hu
    by_cases ht : (now : Int) - r.time > timeout
    · rw [if_pos (by rw [h2, h.tmo]; exact ht)] at hu
      injection hu with hu
      subst hu
      have hf : fed timeout period (.write now dur id :: past) = fed timeout period past := by simp only [fed]; rw [hc]; simp only [if_pos ht]
      rw [hf, Nat.sub_self, List.take_zero]
      exact ⟨.refl _ rfl, rfl, rfl⟩
    · rw [if_neg (by rw [h2, h.tmo]; exact ht)] at hu
      have hf : fed timeout period (.write now dur id :: past) = r.lat :: fed timeout period past := by simp only [fed]; rw [hc]; simp only [if_neg ht]
      have hn : (r.lat :: fed timeout period past).length - (fed timeout period past).length = 1 := by rw [List.length_cons]; omega
      rw [hf, hn]
      rw [h3] at hu
      split at hu
      · cases hu
      · rename_i t heq
        injection hu with hu; subst hu
        refine ⟨⟨[.write r.lat, .update], [.unit, .alive false], ?_, rfl, rfl⟩, rfl, rfl⟩
        simp only [St.runs, St.call, Option.bind_some, heq, Option.map_some]
      · rename_i t heq
        split at hu
        · cases hu
        · rename_i t2 heq2
          injection hu with hu; subst hu
          refine ⟨⟨[.write r.lat, .update, .advance dur], [.unit, .alive true, .unit], ?_, rfl, rfl⟩, rfl, rfl⟩
          simp only [St.runs, St.call, Option.bind_some, heq, heq2, Option.map_some]

/-- The new part of what is fed to the tuner. -/
def newFed (timeout : Int) (period : Nat) (past : List Ev) (e : Ev) : List Metrics :=
  (fed timeout period (e :: past)).take ((fed timeout period (e :: past)).length - (fed timeout period past).length)

theorem updateScaling_sim {E : Type} {env : Env E} {m m' : M E} {fs : List Rat} (hu : m.updateScaling env = .ok (m', fs)) (id : Nat) :
    Sim env m.tuner m'.tuner [] (fs.map Eff.scale ++ [.frame id]) ∧ m'.scaling = m.scaling := by
  unfold M.updateScaling at hu
  simp only at hu
  split_ifs at hu with h1 h2
  · injection hu with hu
    injection hu with hu hf
    subst hu hf
    refine ⟨⟨[.fetch], [.scaling m.tuner.fetch.2], rfl, rfl, ?_⟩, rfl⟩
    simp only [fetched, factors, List.filterMap_cons, if_pos h1, List.filterMap_nil, List.map_cons, List.map_nil, List.cons_append, List.nil_append]
  · injection hu with hu
    injection hu with hu hf
    subst hu hf
    refine ⟨⟨[.fetch], [.scaling m.tuner.fetch.2], rfl, rfl, ?_⟩, rfl⟩
    simp only [fetched, factors, List.filterMap_cons, if_neg h1, List.filterMap_nil, List.map_nil, List.nil_append]

theorem fed_fresh {timeout : Int} {period : Nat} {past : List Ev} (h : started past = false) : fed timeout period past = [] := by
  induction past with
  | nil => rfl
  | cons e es ih =>
    have h1 : started es = false := by
      unfold started at h ⊢
      simp only [List.contains_cons, Bool.or_eq_false_iff] at h
      exact h.2
    cases e with
    | start => unfold started at h; simp at h
    | write now d i => simp only [fed]; rw [view_fresh h1]; exact ih h1
    | report r => exact ih h1

theorem call_sim {E : Type} {env : Env E} {timeout : Int} {period : Nat} {past : List Ev} {m m' : M E} {eff : List Eff} (h : Inv timeout period past m)
    {e : Ev} (hu : m.call env e = .ok (m', eff)) : Sim env m.tuner m'.tuner (newFed timeout period past e) eff ∧
      fed timeout period (e :: past) = newFed timeout period past e ++ fed timeout period past ∧ m'.scaling = m.scaling ∧ (newFed timeout period past e).length ≤ 1 := by
  cases e with
  | start =>
    injection hu with hu
    injection hu with hu he
    subst hu he
    have hf : newFed timeout period past .start = [] := by simp [newFed, fed]
    rw [hf]
    exact ⟨.refl _ rfl, rfl, rfl, by simp⟩
  | report r =>
    injection hu with hu
    injection hu with hu he
    subst hu he
    have hf : newFed timeout period past (.report r) = [] := by simp [newFed, fed]
    rw [hf]
    have ht : (m.feedback r).tuner = m.tuner ∧ (m.feedback r).scaling = m.scaling := by
      have ha : ∀ (x : M E) n, (x.allow n).1.tuner = x.tuner ∧ (x.allow n).1.scaling = x.scaling := by
        intro x n
        unfold M.allow
        split <;> exact ⟨rfl, rfl⟩
      have hst : ∀ (x : M E), (x.store r).tuner = x.tuner ∧ (x.store r).scaling = x.scaling := by
        intro x
        unfold M.store
        simp only
        split_ifs <;> exact ⟨rfl, rfl⟩
      unfold M.feedback
      simp only
      split_ifs
      all_goals first
        | exact ⟨rfl, rfl⟩
        | exact ha _ _
        | exact hst _
        | exact ⟨(hst _).1.trans (ha _ _).1, (hst _).2.trans (ha _ _).2⟩
    rw [ht.1, ht.2]
    exact ⟨.refl _ rfl, rfl, rfl, by simp⟩
  | write now dur id =>
    simp only [M.call] at hu
    unfold M.write at hu
    by_cases hs : m.started = false
    · rw [if_pos hs] at hu
      injection hu with hu
      injection hu with hu he
      subst hu he
      have hs' : started past = false := by rw [← h.started]; exact hs
      have hf1 : fed timeout period (.write now dur id :: past) = [] := fed_fresh (by rw [started_write]; exact hs')
      have hf : newFed timeout period past (.write now dur id) = [] := by unfold newFed; rw [hf1, List.take_nil]
      rw [hf, hf1, fed_fresh hs']
      exact ⟨.refl _ rfl, rfl, rfl, by simp⟩
    · rw [if_neg hs] at hu
      cases h1 : m.updateTuner env now dur with
      | error e => rw [h1] at hu; cases hu
      | ok m1 =>
        rw [h1] at hu
        obtain ⟨s1, s2, s3⟩ := updateTuner_sim (id := id) h h1
        have hlen : (newFed timeout period past (.write now dur id)).length ≤ 1 := by
          unfold newFed
          rw [List.length_take]
          refine le_trans (min_le_left _ _) ?_
          simp only [fed]
          split
          · simp
          · split_ifs
            · simp
            · rw [List.length_cons]; omega
        simp only [Except.bind] at hu
        split_ifs at hu with h2
        · cases h3 : m1.updateScaling env with
          | error e => rw [h3] at hu; cases hu
          | ok q =>
            rw [h3] at hu
            injection hu with hu
            injection hu with hu he
            subst hu he
            obtain ⟨u1, u2⟩ := updateScaling_sim h3 id
            have := s1.trans u1
            rw [List.append_nil, List.nil_append] at this
            exact ⟨this, s2, u2.trans s3, hlen⟩
        · injection hu with hu
          injection hu with hu he
          subst hu he
          have := s1.trans (Sim.refl (env := env) m1.tuner (eff := [.frame id]) rfl)
          rw [List.append_nil, List.nil_append] at this
          exact ⟨this, s2, s3, hlen⟩

theorem run_sim {E : Type} {env : Env E} {timeout : Int} {period : Nat} (hp : 0 < period) (l : List Ev) : ∀ {past : List Ev} {m m' : M E} {eff : List Eff},
    Inv timeout period past m → m.run env l = .ok (m', eff) → ∃ w, Sim env m.tuner m'.tuner w eff ∧ fed timeout period (l.reverse ++ past) = w.reverse ++ fed timeout period past ∧ m'.scaling = m.scaling := by
  induction l with
  | nil =>
    intro past m m' eff h hr
    injection hr with hr
    injection hr with hr he
    subst hr he
    exact ⟨[], .refl _ rfl, rfl, rfl⟩
  | cons e es ih =>
    intro past m m' eff h hr
    simp only [M.run] at hr
    cases h1 : m.call env e with
    | error x => rw [h1] at hr; cases hr
    | ok a =>
      rw [h1] at hr
      simp only [Except.bind] at hr
      cases h2 : M.run env a.1 es with
      | error x => rw [h2] at hr; cases hr
      | ok b =>
        rw [h2] at hr
        injection hr with hr
        injection hr with hr he
        subst hr he
        obtain ⟨c1, c2, c3, c4⟩ := call_sim (eff := a.2) h h1
        obtain ⟨w, d1, d2, d3⟩ := ih (call_inv (eff := a.2) hp h h1) h2
        refine ⟨newFed timeout period past e ++ w, c1.trans d1, ?_, d3.trans c3⟩
        rw [List.reverse_cons, List.append_assoc, List.reverse_append, List.append_assoc]
        refine d2.trans ?_
        rw [c2]
        have : (newFed timeout period past e).reverse = newFed timeout period past e := by
          cases hx : newFed timeout period past e with
          | nil => rfl
          | cons a as =>
            rw [hx, List.length_cons] at c4
            have : as = [] := List.length_eq_zero_iff.1 (by omega)
            rw [this]; rfl
        rw [this]

end Verif.Feedback
