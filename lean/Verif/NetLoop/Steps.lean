import Verif.NetLoop.Lemmas

/-!
# Network loop: every event keeps the invariant
-/

namespace Verif.NetLoop

/-- The invariant, with the number of ports. -/
structure Full (s : St) : Prop where
  inv : Inv s
  num : s.numOpen = s.opened.length
  en : s.ended = true → s.sems = false

/-- No failure, and the invariant is kept. -/
def Good : Except Err St → Prop
  | .ok s => Full s
  | .error e => e = .bad

theorem opn_not_cls {l : Life} (h : opn l) : ¬ cls l := by
  unfold opn cls clsFor at *
  rintro (⟨t, h' | h'⟩ | h') <;> rcases h with h | h <;> rw [h] at h' <;> cases h'

theorem good_wake {s : St} (h : Full s) : Good s.wake := by
  unfold St.wake
  split
  · rfl
  · refine ⟨inv_flags h.inv rfl rfl rfl rfl rfl rfl rfl id ?_ h.inv.stop h.inv.sems, h.num, h.en⟩
    intro _ e
    cases e

theorem good_sleep {s : St} (h : Full s) : Good s.sleep := by
  unfold St.sleep
  split
  · rfl
  · split
    · rename_i hc
      refine ⟨inv_flags h.inv rfl rfl rfl rfl rfl rfl rfl id ?_ h.inv.stop h.inv.sems, h.num, h.en⟩
      intro _ _ _ e
      rcases hc with hc | ⟨t, _, hc⟩
      · exact absurd hc e
      · intro e'
        simp only at e'
        rw [e'] at hc
        cases hc
    · rfl

theorem good_signal {s : St} (h : Full s) (t : Nat) : Good (s.signal t) := by
  unfold St.signal
  split
  · rfl
  · rename_i ht
    have ht : t ∈ s.unsig := by simpa using ht
    have hns : s.stopReq = false := by
      cases hs : s.stopReq with
      | false => rfl
      | true => rw [(h.inv.stop hs).2.1] at ht; cases ht
    split
    · rename_i hs
      rw [(h.inv.sems hs).1] at hns
      cases hns
    · refine ⟨inv_flags h.inv rfl rfl rfl rfl rfl rfl rfl id ?_ ?_ h.inv.sems, h.num, h.en⟩
      · intro _ _ e
        cases e
      · intro e
        simp only at e
        rw [hns] at e
        cases e

theorem good_destroy {s : St} (h : Full s) (hl : Legal s .destroy) : Good s.destroy := by
  unfold St.destroy
  split
  · rfl
  · obtain ⟨h1, h2, h3⟩ := hl
    refine ⟨inv_flags h.inv rfl rfl rfl rfl rfl rfl rfl (fun _ => rfl) h.inv.wk (fun _ => ⟨h1, h2, h3⟩) ?_, h.num, h.en⟩
    intro e
    exact ⟨rfl, (h.inv.sems e).2⟩

theorem good_drop {s : St} (h : Full s) (t : Nat) (hl : Legal s (.drop t)) : Good (s.drop t) := by
  unfold St.drop
  cases hx : s.tk t with
  | none => rfl
  | some x =>
    have hd := hl x hx
    simp only [hd]
    refine ⟨inv_task h.inv hx rfl rfl rfl rfl rfl rfl rfl rfl rfl rfl rfl ⟨?_, fun _ => rfl⟩ ?_ rfl ?_ ?_ ?_ ?_ ?_ ?_, h.num, h.en⟩
    · intro e; rw [hd] at e; cases e
    · simp
    · rw [hd]; simp
    · simp
    · have := h.inv.task t x hx
      unfold TaskOk at this ⊢
      obtain ⟨g1, g2, g3⟩ := this
      have hf : fin x.st := Or.inl hd
      refine ⟨fun _ => g1 hf, fun e => absurd (Or.inr rfl) e, ?_⟩
      cases hr : x.req with
      | start p => rw [hr] at g3; exact ⟨g3.1, Or.inr (Or.inr rfl), fun e => by simp at e⟩
      | remove p =>
        rw [hr] at g3
        obtain ⟨e1, e2, e3, y, e4, e5, e6, e7, e8⟩ := g3
        exact ⟨e1, by simp, fun _ => e3 (by rw [hd]; simp), y, e4, e5, fun e => by simp at e, fun e => by simp at e, fun _ => e8 hf⟩
      | add k =>
        rw [hr] at g3
        obtain ⟨e1, e2, e3, e4⟩ := g3
        exact ⟨by simp, fun e => by simp at e, fun e => by simp at e, fun _ => e4 hf⟩
      | resolve => rw [hr] at g3; exact ⟨g3.1, by simp⟩
    · intro _; exact ⟨Or.inr rfl, rfl, rfl⟩
    · intro _ _ _; exact Or.inl hd
    · intro p hp; exact h.inv.pb t x p hx hp

/-- A pending or resolving task that does not concern ports is finished. -/
theorem good_finish {s : St} (h : Full s) {t : Nat} {x : Task} (hx : s.tk t = some x) (b : Bool) (q : List Nat)
    (hst : (x.st = .pending ∧ s.awake = true ∧ q = s.queue.erase t) ∨ (x.st = .resolving ∧ q = s.queue))
    (hr : x.req = .resolve ∨ (∃ p, x.req = .start p) ∨ ((∃ k, x.req = .add k) ∧ b = false)) :
    Good ((({ s with queue := q } : St).setTask t { x with success := b }).finish t) := by
  unfold St.finish
  have e : (({ s with queue := q } : St).setTask t { x with success := b }).tk t = some { x with success := b } := upd_same _ _ _
  rw [e]
  have hng : x.st ≠ .gone := by rcases hst with h | h <;> rw [h.1] <;> simp
  have hnf : ¬ fin x.st := by rcases hst with h | h <;> rw [h.1] <;> simp [fin]
  have hnc : x.st ≠ .closing := by rcases hst with h | h <;> rw [h.1] <;> simp
  simp only
  rw [if_neg hng]
  obtain ⟨g1, g2, g3⟩ := h.inv.task t x hx
  refine ⟨inv_task (x' := { x with success := b, st := .done, notes := x.notes + 1 }) h.inv hx ?_ rfl rfl rfl rfl rfl rfl rfl rfl rfl rfl ?_ ?_ rfl hnc ?_ ?_ ?_ ?_ ?_, h.num, h.en⟩
  · funext u
    simp only [St.setTask, upd_eq]
    by_cases hu : u = t
    · simp [hu]
    · simp [hu]
  · refine ⟨fun e => ?_, fun e => ?_⟩
    · rcases hst with h | h
      · exact ⟨h.2.2, h.2.1⟩
      · rw [h.1] at e; cases e
    · rcases hst with h | h
      · exact absurd h.1 e
      · exact h.2
  · simp
  · simp
  · unfold TaskOk
    refine ⟨fun _ => by simp [g2 hnf], fun e => absurd (Or.inl rfl) e, ?_⟩
    rcases hr with hr | ⟨p, hr⟩ | ⟨⟨k, hr⟩, rfl⟩
    · rw [hr] at g3 ⊢; exact ⟨g3.1, by simp⟩
    · rw [hr] at g3 ⊢; exact ⟨g3.1, Or.inr (Or.inl rfl), fun e => by simp at e⟩
    · rw [hr] at g3 ⊢
      refine ⟨by simp, fun e => by simp at e, fun e => by simp at e, fun _ => ⟨fun _ p hp => ?_, fun e => by simp at e⟩⟩
      rcases hst with h | h
      · have := g3.2.1 h.1
        simp only at hp
        rw [this] at hp
        cases hp
      · exact absurd h.1 g3.1
  · intro e; exact absurd e hnf
  · intro k hk hb
    rcases hr with hr | ⟨p, hr⟩ | ⟨_, rfl⟩
    · rw [hr] at hk; cases hk
    · rw [hr] at hk; cases hk
    · simp at hb
  · intro p hp; exact h.inv.pb t x p hx hp

theorem good_resolved {s : St} (h : Full s) (t : Nat) (b : Bool) : Good (s.resolved t b) := by
  unfold St.resolved
  cases hx : s.tk t with
  | none => rfl
  | some x =>
    simp only
    split
    · rename_i hst
      have hr : x.req = .resolve := by
        obtain ⟨_, _, g3⟩ := h.inv.task t x hx
        cases hr : x.req with
        | start p => rw [hr] at g3; rcases g3.2.1 with e | e | e <;> rw [hst] at e <;> cases e
        | remove p => rw [hr] at g3; exact absurd hst g3.2.1
        | add k => rw [hr] at g3; exact absurd hst g3.1
        | resolve => rfl
      exact good_finish h hx b s.queue (Or.inr ⟨hst, rfl⟩) (Or.inl hr)
    · rfl

theorem good_schedule {s : St} (h : Full s) (r : Req) (hl : Legal s (.schedule r)) : Good (s.schedule r) := by
  have hns : s.stopReq = false := by
    cases r with
    | add k => exact hl
    | start p => exact hl.1
    | remove p => exact hl.1
    | resolve => exact hl
  have hsem : s.sems = true := by
    cases hs : s.sems with
    | true => rfl
    | false => rw [(h.inv.sems hs).1] at hns; cases hns
  unfold St.schedule
  split
  · rename_i he
    rw [h.en he] at hsem
    cases hsem
  · have hnt : s.tk s.nt = none := by
      cases hx : s.tk s.nt with
      | none => rfl
      | some x => have := h.inv.tkb _ _ hx; omega
    have hold : ∀ u z, s.tk u = some z → u ≠ s.nt := fun u z hz e => by rw [e, hnt] at hz; cases hz
    have hnq : s.nt ∉ s.queue := fun hm => by
      obtain ⟨z, hz, _⟩ := h.inv.q1 _ hm
      exact hold _ _ hz rfl
    refine ⟨⟨?_, h.inv.ptb, h.inv.oN, h.inv.cN, h.inv.o1, h.inv.c1, nodup_snoc h.inv.qN hnq, ?_, ?_, ?_, ?_, ?_, ?_, ?_, ?_, ?_, ?_, h.inv.sems⟩, h.num, h.en⟩
    · intro u z hz
      simp only at hz ⊢
      rcases upd_cases hz with ⟨rfl, _⟩ | ⟨_, hz⟩
      · omega
      · have := h.inv.tkb u z hz; omega
    · intro u hu
      simp only at hu ⊢
      rw [List.mem_append] at hu
      rcases hu with hu | hu
      · obtain ⟨z, hz, hp⟩ := h.inv.q1 u hu
        exact ⟨z, by rw [upd_ne _ _ (hold u z hz), hz], hp⟩
      · simp at hu
        subst hu
        exact ⟨_, upd_same _ _ _, rfl⟩
    · intro u z hz hp
      simp only at hz ⊢
      rw [List.mem_append]
      rcases upd_cases hz with ⟨rfl, _⟩ | ⟨_, hz⟩
      · exact Or.inr (by simp)
      · exact Or.inl (h.inv.q2 u z hz hp)
    · intro u z hz
      simp only at hz ⊢
      rcases upd_cases hz with ⟨rfl, rfl⟩ | ⟨_, hz⟩
      · unfold TaskOk
        refine ⟨fun e => (by rcases e with e | e <;> cases e), fun _ => rfl, ?_⟩
        cases r with
        | add k => exact ⟨by simp, fun _ => rfl, fun e => by simp at e, fun e => by rcases e with e | e <;> cases e⟩
        | resolve => exact ⟨rfl, by simp⟩
        | start p =>
          obtain ⟨_, ⟨t', x', k, e1, e2, e3, e4, e5⟩, hnr, hk⟩ := hl
          obtain ⟨_, _, g3⟩ := h.inv.task t' x' e1
          rw [e2] at g3
          obtain ⟨p', y, e6, e7, e8⟩ := (g3.2.2.2 e3).2 e4
          rw [e5] at e6
          injection e6 with e6
          subst e6
          have ho := h.inv.handle t' x' k p y e1 e2 e3 e4 e5 e7 (fun u w hw hreq => hnr ⟨u, w, hw, hreq⟩) hns
          refine ⟨rfl, Or.inl rfl, fun _ => ⟨y, e7, ?_, hk y e7⟩⟩
          rcases ho with ho | ho
          · exact ho
          · have := ((h.inv.port p y e7).2.2.2.1 (Or.inl ho)).1
            rw [hk y e7] at this
            cases this
        | remove p =>
          obtain ⟨_, ⟨t', x', k, e1, e2, e3, e4, e5⟩, hnr, hu, hk⟩ := hl
          obtain ⟨_, _, g3⟩ := h.inv.task t' x' e1
          rw [e2] at g3
          obtain ⟨p', y, e6, e7, e8⟩ := (g3.2.2.2 e3).2 e4
          rw [e5] at e6
          injection e6 with e6
          subst e6
          have ho := h.inv.handle t' x' k p y e1 e2 e3 e4 e5 e7 (fun u w hw hreq => hnr ⟨u, w, hw, hreq⟩) hns
          exact ⟨rfl, by simp, by simp, y, e7, (hk y e7).2, fun _ => ⟨ho, (hk y e7).1⟩, fun e => by simp at e, fun e => by rcases e with e | e <;> cases e⟩
      · exact h.inv.task u z hz
    · intro q z hz
      simp only at hz ⊢
      obtain ⟨g1, g2, g3, g4⟩ := h.inv.port q z hz
      refine ⟨g1, g2, fun u hu => ?_, g4⟩
      obtain ⟨w, e1, e2⟩ := g3 u hu
      exact ⟨w, by rw [upd_ne _ _ (hold u w e1), e1], e2⟩
    · intro u z p hz hzp
      simp only at hz ⊢
      rcases upd_cases hz with ⟨rfl, rfl⟩ | ⟨_, hz⟩
      · cases r with
        | add k => cases hzp
        | resolve => cases hzp
        | start q =>
          simp only at hzp
          injection hzp with hzp
          subst hzp
          obtain ⟨_, ⟨t', x', k, e1, e2, e3, e4, e5⟩, _⟩ := hl
          exact h.inv.pb t' x' _ e1 e5
        | remove q =>
          simp only at hzp
          injection hzp with hzp
          subst hzp
          obtain ⟨_, ⟨t', x', k, e1, e2, e3, e4, e5⟩, _⟩ := hl
          exact h.inv.pb t' x' _ e1 e5
      · exact h.inv.pb u z p hz hzp
    · intro u z k p y hz hk hf hsu hzp hy hrm hst
      simp only at hz hy hrm hst
      rcases upd_cases hz with ⟨rfl, rfl⟩ | ⟨_, hz⟩
      · rcases hf with e | e <;> cases e
      · exact h.inv.handle u z k p y hz hk hf hsu hzp hy (fun v w hw => hrm v w (by rw [upd_ne _ _ (hold v w hw), hw])) hst
    · intro u z v w p hz hw e1 e2
      simp only at hz hw
      rcases upd_cases hz with ⟨rfl, rfl⟩ | ⟨_, hz⟩
      · rcases upd_cases hw with ⟨rfl, rfl⟩ | ⟨_, hw⟩
        · rfl
        · simp only at e1
          subst e1
          exact absurd ⟨v, w, ‹s.tk v = some w›, e2⟩ hl.2.2.1
      · rcases upd_cases hw with ⟨rfl, rfl⟩ | ⟨_, hw⟩
        · simp only at e2
          subst e2
          exact absurd ⟨u, z, ‹_›, e1⟩ hl.2.2.1
        · exact h.inv.remU u z v w p ‹_› hw e1 e2
    · intro u z v w p hz hw e1 e2 e3
      simp only at hz hw
      rcases upd_cases hz with ⟨rfl, rfl⟩ | ⟨_, hz⟩
      · rcases upd_cases hw with ⟨rfl, rfl⟩ | ⟨_, hw⟩
        · simp only at e1 e3
          rw [e1] at e3
          cases e3
        · simp only at e1
          subst e1
          exact hl.2.2.1 ⟨v, w, ‹s.tk v = some w›, e3⟩
      · rcases upd_cases hw with ⟨rfl, rfl⟩ | ⟨_, hw⟩
        · simp only at e3
          subst e3
          rcases hl.2.2.2.1 u z ‹_› e1 with e | e <;> rw [e2] at e <;> cases e
        · exact h.inv.stR u z v w p ‹_› hw e1 e2 e3
    · intro _ _ _ _
      simp
    · intro e
      simp only at e
      rw [hns] at e
      cases e

theorem good_userTerm {s : St} (h : Full s) (p : Nat) : Good (s.userTerm p) := by
  unfold St.userTerm
  cases hy : s.pt p with
  | none => rfl
  | some y =>
    simp only
    split
    · rename_i hc
      obtain ⟨g1, g2, g3, g4, g5, g6⟩ := h.inv.port p y hy
      have hcn : y.conns = 0 := by
        by_cases e : 0 < y.conns
        · have := (g6 e).2
          rw [hc.1] at this
          cases this
        · omega
      have ho : opn y.life := Or.inl hc.2
      refine ⟨inv_port (y' := { y with life := .termd }) h.inv hy rfl rfl rfl rfl rfl rfl rfl rfl rfl rfl h.inv.oN h.inv.cN (fun _ _ => Iff.rfl) (fun _ _ => Iff.rfl) ?_ ?_
        (fun _ => Or.inl (Or.inr rfl)) (fun e => ⟨fun _ => by simp, hcn⟩) ?_, h.num, h.en⟩
      · intro u z hz hzp
        obtain ⟨t1, t2, t3⟩ := h.inv.task u z hz
        refine ⟨t1, t2, ?_⟩
        cases hr : z.req with
        | start q =>
          rw [hr] at t3
          rw [t3.1] at hzp
          injection hzp with hzp
          subst hzp
          refine ⟨t3.1, t3.2.1, fun e => ?_⟩
          obtain ⟨y', e1, e2, e3⟩ := t3.2.2 e
          rw [hy] at e1
          injection e1 with e1
          subst e1
          rw [hc.1] at e3
          cases e3
        | remove q =>
          rw [hr] at t3
          obtain ⟨e1, e2, e3, y', e4, e5, e6, e7, e8⟩ := t3
          rw [e1] at hzp
          injection hzp with hzp
          subst hzp
          rw [hy] at e4
          injection e4 with e4
          subst e4
          refine ⟨e1, e2, e3, _, upd_same _ _ _, e5, fun _ => ⟨Or.inr rfl, fun _ => rfl⟩, fun e => ?_, fun e => ?_⟩
          · have := e7 e; rw [hc.2] at this; rcases this with e | e <;> cases e
          · have := e8 e; rw [hc.2] at this; cases this
        | add k =>
          rw [hr] at t3
          obtain ⟨e1, e2, e3, e4⟩ := t3
          refine ⟨e1, e2, fun e => ?_, fun e => ⟨fun es q hq => ?_, fun es => ?_⟩⟩
          · obtain ⟨f1, q, y', f2, f3, f4⟩ := e3 e
            rw [hzp] at f2
            injection f2 with f2
            subst f2
            rw [hy] at f3
            injection f3 with f3
            subst f3
            rw [hc.2] at f4
            rcases f4 with f4 | f4 <;> cases f4
          · obtain ⟨y', f3, f4⟩ := (e4 e).1 es q hq
            rw [hzp] at hq
            injection hq with hq
            subst hq
            rw [hy] at f3
            injection f3 with f3
            subst f3
            rw [hc.2] at f4
            cases f4
          · obtain ⟨q, y', f2, f3, f4⟩ := (e4 e).2 es
            rw [hzp] at f2
            injection f2 with f2
            subst f2
            rw [hy] at f3
            injection f3 with f3
            subst f3
            exact ⟨_, _, hzp, upd_same _ _ _, f4⟩
        | resolve => rw [hr] at t3; exact t3
      · have hoo := g1.2 ho
        refine ⟨⟨fun _ => Or.inr rfl, fun _ => hoo⟩, ⟨fun e => absurd (g2.1 e) (opn_not_cls ho), fun e => absurd e (opn_not_cls (Or.inr rfl))⟩,
          fun t e => (by rcases e with e | e <;> cases e), fun _ => ⟨hc.1, g5 ho⟩, fun _ => g5 ho, fun e => ?_⟩
        simp only at e
        omega
      · intro e
        show p ∉ s.opened
        rw [(h.inv.sems e).2]
        simp
    · rfl

/-- A change of the number of connections. -/
theorem good_conns {s : St} (h : Full s) {p : Nat} {y : Port} (hy : s.pt p = some y) (hk : y.kind = .server) (n : Nat)
    (hn : 0 < n → y.life = .up ∧ s.stopReq = false ∧ (¬ s.removing p ∨ n ≤ y.conns)) : Full (s.setPort p { y with conns := n }) := by
  obtain ⟨g1, g2, g3, g4, g5, g6⟩ := h.inv.port p y hy
  refine ⟨inv_port (y' := { y with conns := n }) h.inv hy rfl rfl rfl rfl rfl rfl rfl rfl rfl rfl h.inv.oN h.inv.cN (fun _ _ => Iff.rfl) (fun _ _ => Iff.rfl) ?_
    ⟨g1, g2, g3, g4, g5, fun e => ⟨(hn e).1, hk⟩⟩ (fun e => Or.inl e) ?_ ?_, h.num, h.en⟩
  · intro u z hz hzp
    obtain ⟨t1, t2, t3⟩ := h.inv.task u z hz
    refine ⟨t1, t2, ?_⟩
    cases hr : z.req with
    | start q =>
      rw [hr] at t3
      rw [t3.1] at hzp
      injection hzp with hzp
      subst hzp
      refine ⟨t3.1, t3.2.1, fun e => ?_⟩
      obtain ⟨y', e1, e2, e3⟩ := t3.2.2 e
      rw [hy] at e1
      injection e1 with e1
      subst e1
      exact ⟨_, upd_same _ _ _, e2, e3⟩
    | remove q =>
      rw [hr] at t3
      obtain ⟨e1, e2, e3, y', e4, e5, e6, e7, e8⟩ := t3
      rw [e1] at hzp
      injection hzp with hzp
      subst hzp
      rw [hy] at e4
      injection e4 with e4
      subst e4
      refine ⟨e1, e2, e3, _, upd_same _ _ _, ?_, e6, e7, e8⟩
      by_cases e : 0 < n
      · rcases (hn e).2.2 with f | f
        · exact absurd ⟨u, z, hz, hr⟩ f
        · omega
      · show n = 0
        omega
    | add k =>
      rw [hr] at t3
      obtain ⟨e1, e2, e3, e4⟩ := t3
      refine ⟨e1, e2, fun e => ?_, fun e => ⟨fun es q hq => ?_, fun es => ?_⟩⟩
      · obtain ⟨f1, q, y', f2, f3, f4⟩ := e3 e
        rw [hzp] at f2
        injection f2 with f2
        subst f2
        rw [hy] at f3
        injection f3 with f3
        subst f3
        exact ⟨f1, _, _, hzp, upd_same _ _ _, f4⟩
      · obtain ⟨y', f3, f4⟩ := (e4 e).1 es q hq
        rw [hzp] at hq
        injection hq with hq
        subst hq
        rw [hy] at f3
        injection f3 with f3
        subst f3
        exact ⟨_, upd_same _ _ _, f4⟩
      · obtain ⟨q, y', f2, f3, f4⟩ := (e4 e).2 es
        rw [hzp] at f2
        injection f2 with f2
        subst f2
        rw [hy] at f3
        injection f3 with f3
        subst f3
        exact ⟨_, _, hzp, upd_same _ _ _, f4⟩
    | resolve => rw [hr] at t3; exact t3
  · intro e
    refine ⟨((h.inv.stop e).2.2 p y hy).1, ?_⟩
    by_cases e' : 0 < n
    · have := (hn e').2.1
      rw [e] at this
      cases this
    · show n = 0
      omega
  · intro e
    show p ∉ s.opened
    rw [(h.inv.sems e).2]
    simp

theorem good_connOpen {s : St} (h : Full s) (p : Nat) (hl : Legal s (.connOpen p)) : Good (s.connOpen p) := by
  unfold St.connOpen
  cases hy : s.pt p with
  | none => rfl
  | some y =>
    simp only
    split
    · rename_i hc
      exact good_conns h hy hc.1 _ (fun _ => ⟨hc.2, hl.1, Or.inl hl.2⟩)
    · rfl

theorem good_connGone {s : St} (h : Full s) (p : Nat) : Good (s.connGone p) := by
  unfold St.connGone
  cases hy : s.pt p with
  | none => rfl
  | some y =>
    simp only
    split
    · rename_i hc
      have h6 := (h.inv.port p y hy).2.2.2.2.2 hc.2
      refine good_conns h hy hc.1 _ (fun _ => ⟨h6.1, ?_, Or.inr (by omega)⟩)
      cases hs : s.stopReq with
      | false => rfl
      | true =>
        have := ((h.inv.stop hs).2.2 p y hy).2
        omega
    · rfl

theorem good_finishDtor {s : St} (h : Full s) : Good s.finishDtor := by
  unfold St.finishDtor
  split
  · rfl
  · rename_i hc
    have hnh : s.noHandles = true := by
      cases e : s.noHandles with
      | true => rfl
      | false => exact absurd (Or.inr e) hc
    unfold St.noHandles at hnh
    simp only [Bool.and_eq_true, decide_eq_true_eq, List.all_eq_true, List.mem_range] at hnh
    obtain ⟨⟨⟨h1, h2⟩, h3⟩, h4⟩ := hnh
    have hcl : ∀ p y, s.pt p = some y → y.life = .closed := by
      intro p y hy
      have := h3 p (h.inv.ptb p y hy)
      rw [hy] at this
      simpa using this
    have hcn : s.closing = [] := by
      rw [List.eq_nil_iff_forall_not_mem]
      intro q hq
      obtain ⟨y, hy⟩ := h.inv.c1 q hq
      have := (h.inv.port q y hy).2.1.1 hq
      rw [hcl q y hy] at this
      unfold cls clsFor at this
      rcases this with ⟨t, e | e⟩ | e <;> cases e
    rw [if_neg (by simp [(h.inv.sems h1).2]), if_neg (by simp [hcn])]
    exact ⟨inv_flags h.inv rfl rfl rfl rfl rfl rfl rfl id h.inv.wk h.inv.stop h.inv.sems, h.num, fun _ => h1⟩

/-- A task and a change of its port. -/
theorem taskOk_port {pt : Nat → Option Port} {u p : Nat} {z : Task} {y y' : Port} (h : TaskOk pt u z) (hy : pt p = some y) (hzp : z.port = some p) (hk : y'.kind = y.kind)
    (hcn : y.conns = 0 → y'.conns = 0) (hnp : z.st = .pending → y'.life = y.life) (hcl : z.st = .closing → clsFor y.life u → clsFor y'.life u)
    (hcd : y.life = .closed → y'.life = .closed) : TaskOk (upd pt p y') u z := by
  obtain ⟨t1, t2, t3⟩ := h
  refine ⟨t1, t2, ?_⟩
  cases hr : z.req with
  | start q =>
    rw [hr] at t3
    rw [t3.1] at hzp
    injection hzp with hzp
    subst hzp
    refine ⟨t3.1, t3.2.1, fun e => ?_⟩
    obtain ⟨y0, e1, e2, e3⟩ := t3.2.2 e
    rw [hy] at e1
    injection e1 with e1
    subst e1
    exact ⟨_, upd_same _ _ _, by rw [hnp e, e2], by rw [hk, e3]⟩
  | remove q =>
    rw [hr] at t3
    obtain ⟨e1, e2, e3, y0, e4, e5, e6, e7, e8⟩ := t3
    rw [e1] at hzp
    injection hzp with hzp
    subst hzp
    rw [hy] at e4
    injection e4 with e4
    subst e4
    refine ⟨e1, e2, e3, _, upd_same _ _ _, hcn e5, fun e => ?_, fun e => hcl e (e7 e), fun e => hcd (e8 e)⟩
    rw [hnp e, hk]
    exact e6 e
  | add k =>
    rw [hr] at t3
    obtain ⟨e1, e2, e3, e4⟩ := t3
    refine ⟨e1, e2, fun e => ?_, fun e => ⟨fun es q hq => ?_, fun es => ?_⟩⟩
    · obtain ⟨f1, q, y0, f2, f3, f4⟩ := e3 e
      rw [hzp] at f2
      injection f2 with f2
      subst f2
      rw [hy] at f3
      injection f3 with f3
      subst f3
      exact ⟨f1, _, _, hzp, upd_same _ _ _, hcl e f4⟩
    · obtain ⟨y0, f3, f4⟩ := (e4 e).1 es q hq
      rw [hzp] at hq
      injection hq with hq
      subst hq
      rw [hy] at f3
      injection f3 with f3
      subst f3
      exact ⟨_, upd_same _ _ _, hcd f4⟩
    · obtain ⟨q, y0, f2, f3, f4⟩ := (e4 e).2 es
      rw [hzp] at f2
      injection f2 with f2
      subst f2
      rw [hy] at f3
      injection f3 with f3
      subst f3
      exact ⟨_, _, hzp, upd_same _ _ _, by rw [hk, f4]⟩
  | resolve => rw [hr] at t3; exact t3

theorem clsFor_cls {l : Life} {t : Nat} (h : clsFor l t) : cls l := Or.inl ⟨t, h⟩

theorem not_closed_cls : ¬ cls .closed := by
  rintro (⟨t, e | e⟩ | e) <;> cases e

theorem not_closed_opn : ¬ opn .closed := by
  rintro (e | e) <;> cases e

theorem closing_not_opn {t : Option Nat} : ¬ opn (.closing t) := by
  rintro (e | e) <;> cases e

theorem closing_cls (t : Option Nat) : cls (.closing t) := by
  cases t with
  | none => exact Or.inr rfl
  | some t => exact Or.inl ⟨t, Or.inr rfl⟩

theorem clsFor_unique {l : Life} {t u : Nat} (h : clsFor l t) (h' : clsFor l u) : t = u := by
  unfold clsFor at *
  rcases h with h | h <;> rcases h' with h' | h' <;> rw [h] at h' <;> cases h' <;> rfl

theorem upd_upd {β : Type} (f : Nat → Option β) (i : Nat) (v w : β) : upd (upd f i v) i w = upd f i w := by
  funext j
  simp only [upd_eq]
  by_cases h : j = i <;> simp [h]

/-- The port of a task that is being closed. -/
theorem closing_port {s : St} (h : Inv s) {t : Nat} {x : Task} (hx : s.tk t = some x) (hst : x.st = .closing) :
    ∃ p y, x.port = some p ∧ s.pt p = some y ∧ clsFor y.life t := by
  obtain ⟨t1, t2, t3⟩ := h.task t x hx
  cases hr : x.req with
  | start q => rw [hr] at t3; rcases t3.2.1 with e | e | e <;> rw [hst] at e <;> cases e
  | remove q =>
    rw [hr] at t3
    obtain ⟨e1, _, _, y, e4, _, _, e7, _⟩ := t3
    exact ⟨q, y, e1, e4, e7 hst⟩
  | add k => rw [hr] at t3; exact (t3.2.2.1 hst).2
  | resolve => rw [hr] at t3; exact absurd hst t3.2

theorem good_closeDone {s : St} (h : Full s) (p : Nat) : Good (s.closeDone p) := by
  unfold St.closeDone
  cases hy : s.pt p with
  | none => rfl
  | some y =>
    simp only
    cases hl : y.life with
    | up => rfl
    | termd => rfl
    | terming t => rfl
    | closed => rfl
    | closing o =>
      obtain ⟨g1, g2, g3, g4, g5, g6⟩ := h.inv.port p y hy
      have hpc : p ∈ s.closing := g2.2 (hl ▸ closing_cls o)
      have hpo : p ∉ s.opened := fun e => by have := g1.1 e; rw [hl] at this; exact closing_not_opn this
      have hcn : y.conns = 0 := by
        by_cases e : 0 < y.conns
        · have := (g6 e).1
          rw [hl] at this
          cases this
        · omega
      have hnm : ∀ q, q ≠ p → (q ∈ s.closing.erase p ↔ q ∈ s.closing) := by
        intro q hq
        rw [List.Nodup.mem_erase_iff h.inv.cN]
        exact ⟨fun e => e.2, fun e => ⟨hq, e⟩⟩
      have hnp : p ∉ s.closing.erase p := by
        rw [List.Nodup.mem_erase_iff h.inv.cN]
        exact fun e => e.1 rfl
      simp only
      rw [if_neg (by simpa using hpc)]
      unfold St.finishClosing
      rw [if_neg (by simpa [St.setPort] using hpc)]
      have pok : ∀ tk : Nat → Option Task, PortOk tk s.opened (s.closing.erase p) p { y with life := .closed } := fun tk =>
        ⟨⟨fun e => absurd e hpo, fun e => absurd e not_closed_opn⟩, ⟨fun e => absurd e hnp, fun e => absurd e not_closed_cls⟩,
          fun t e => absurd (clsFor_cls e) not_closed_cls, fun e => (by rcases e with e | ⟨t, e⟩ <;> cases e), fun e => absurd e not_closed_opn, fun e => by simp only at e; omega⟩
      have others : ∀ u z, s.tk u = some z → z.port = some p → (∀ t, o = some t → u ≠ t) → TaskOk (upd s.pt p { y with life := .closed }) u z := by
        intro u z hz hzp hne
        refine taskOk_port (h.inv.task u z hz) hy hzp rfl id ?_ ?_ (fun _ => rfl)
        · intro e
          exfalso
          obtain ⟨t1, t2, t3⟩ := h.inv.task u z hz
          cases hr : z.req with
          | start q =>
            rw [hr] at t3
            obtain ⟨y0, e1, e2, _⟩ := t3.2.2 e
            rw [t3.1] at hzp
            injection hzp with hzp
            rw [hzp, hy] at e1
            injection e1 with e1
            rw [← e1, hl] at e2
            cases e2
          | remove q =>
            rw [hr] at t3
            obtain ⟨f1, _, _, y0, f4, _, f6, _⟩ := t3
            rw [f1] at hzp
            injection hzp with hzp
            rw [hzp, hy] at f4
            injection f4 with f4
            have := (f6 e).1
            rw [← f4, hl] at this
            exact closing_not_opn this
          | add k => rw [hr] at t3; rw [t3.2.1 e] at hzp; cases hzp
          | resolve => rw [hr] at t3; rw [t3.1] at hzp; cases hzp
        · intro _ e
          rw [hl] at e
          rcases e with e | e
          · cases e
          · injection e with e
            exact absurd rfl (hne u e)
      cases o with
      | none =>
        simp only
        refine ⟨inv_port (y' := { y with life := .closed }) h.inv hy rfl rfl rfl rfl rfl rfl rfl rfl rfl rfl h.inv.oN (h.inv.cN.erase p) (fun _ _ => Iff.rfl) hnm
          (fun u z hz hzp => others u z hz hzp (fun t e => by cases e)) (pok s.tk) (fun e => by rw [hl] at e; exact absurd e closing_not_opn) (fun _ => ⟨fun _ => by simp, hcn⟩)
          (fun _ => hpo), h.num, h.en⟩
      | some t =>
        obtain ⟨x, hx, hst, hxp⟩ := g3 t (hl ▸ Or.inr rfl)
        have hnf : ¬ fin x.st := by rw [hst]; rintro (e | e) <;> cases e
        obtain ⟨t1, t2, t3⟩ := h.inv.task t x hx
        simp only [St.finish, St.setPort, hx]
        rw [if_neg (by rw [hst]; simp)]
        refine ⟨inv_both (y' := { y with life := .closed }) (x' := { x with st := .done, notes := x.notes + 1 }) h.inv hx hnf rfl rfl rfl ⟨Nat.le_refl _, h.inv.ptb p y hy⟩ rfl rfl rfl rfl rfl
          ⟨fun e => (by rw [hst] at e; cases e), fun _ => rfl⟩ (by simp) rfl (fun _ => hxp) h.inv.oN (h.inv.cN.erase p) (fun _ _ => Iff.rfl) hnm ?_
          (fun u z hu hz hzp => others u z hz hzp (fun t' e => by injection e with e; exact e ▸ hu)) (pok _)
          (fun y0 e1 e2 => ?_) ?_ ?_, h.num, h.en⟩
        · refine ⟨fun _ => by simp [t2 hnf], fun e => absurd (Or.inl rfl) e, ?_⟩
          cases hr : x.req with
          | start q => rw [hr] at t3; rcases t3.2.1 with e | e
                       · rw [hst] at e; cases e
                       · exact absurd e hnf
          | remove q =>
            rw [hr] at t3
            obtain ⟨f1, f2, f3, y0, f4, f5, f6, f7, f8⟩ := t3
            rw [f1] at hxp
            injection hxp with hxp
            subst hxp
            exact ⟨f1, by simp, fun _ => f3 (by rw [hst]; simp), _, upd_same _ _ _, hcn, fun e => by simp at e, fun e => by simp at e, fun _ => rfl⟩
          | add k =>
            rw [hr] at t3
            refine ⟨by simp, fun e => by simp at e, fun e => by simp at e, fun _ => ⟨fun _ q hq => ?_, fun e => ?_⟩⟩
            · simp only at hq
              rw [hxp] at hq
              injection hq with hq
              subst hq
              exact ⟨_, upd_same _ _ _, rfl⟩
            · have := (t3.2.2.1 hst).1
              simp only at e
              rw [this] at e
              cases e
          | resolve => rw [hr] at t3; exact ⟨t3.1, by simp⟩
        · rw [hy] at e1
          injection e1 with e1
          rw [← e1, hl] at e2
          exact absurd e2 closing_not_opn
        · intro k q hk hs hq
          rw [hk] at t3
          simp only at hs
          rw [(t3.2.2.1 hst).1] at hs
          cases hs
        · intro q hq
          simp only at hq
          rw [hxp] at hq
          injection hq with hq
          subst hq
          exact ⟨_, upd_same _ _ _⟩

theorem good_termDone {s : St} (h : Full s) (p : Nat) : Good (s.termDone p) := by
  unfold St.termDone
  cases hy : s.pt p with
  | none => rfl
  | some y =>
    simp only
    cases hl : y.life with
    | up => rfl
    | termd => rfl
    | closing t => rfl
    | closed => rfl
    | terming t =>
      obtain ⟨g1, g2, g3, g4, g5, g6⟩ := h.inv.port p y hy
      have hcf : clsFor y.life t := Or.inl hl
      have hpc : p ∈ s.closing := g2.2 (clsFor_cls hcf)
      have hkh := g4 (Or.inr ⟨t, hl⟩)
      have hno : ¬ opn y.life := fun e => opn_not_cls e (clsFor_cls hcf)
      have hpo : p ∉ s.opened := fun e => hno (g1.1 e)
      have hcn : y.conns = 0 := by
        by_cases e : 0 < y.conns
        · have := (g6 e).1
          rw [hl] at this
          cases this
        · omega
      obtain ⟨x, hx, hst, hxp⟩ := g3 t hcf
      simp only
      rw [if_neg (by simpa using hpc)]
      have e : (s.setPort p { y with life := .termd }).asyncClose p false (some t) = .ok (s.setPort p { y with life := .closing (some t) }, true) := by
        unfold St.asyncClose
        rw [show (s.setPort p { y with life := .termd }).pt p = some { y with life := .termd } from upd_same _ _ _]
        simp only [Port.asyncClose, hkh.2, if_true, bind, Except.bind]
        rw [if_neg (by simpa [St.setPort] using hpc)]
        simp [St.setPort, upd_upd]
      rw [e]
      simp only [bind, Except.bind, if_true]
      refine ⟨inv_port (y' := { y with life := .closing (some t) }) h.inv hy rfl rfl rfl rfl rfl rfl rfl rfl rfl rfl h.inv.oN h.inv.cN (fun _ _ => Iff.rfl) (fun _ _ => Iff.rfl) ?_ ?_
        (fun e => absurd e hno) (fun _ => ⟨fun _ => by simp, hcn⟩) (fun _ => hpo), h.num, h.en⟩
      · intro u z hz hzp
        refine taskOk_port (h.inv.task u z hz) hy hzp rfl id ?_ ?_ ?_
        · intro e
          exfalso
          obtain ⟨t1, t2, t3⟩ := h.inv.task u z hz
          cases hr : z.req with
          | start q =>
            rw [hr] at t3
            obtain ⟨y0, e1, e2, _⟩ := t3.2.2 e
            rw [t3.1] at hzp
            injection hzp with hzp
            rw [hzp, hy] at e1
            injection e1 with e1
            rw [← e1, hl] at e2
            cases e2
          | remove q =>
            rw [hr] at t3
            obtain ⟨f1, _, _, y0, f4, _, f6, _⟩ := t3
            rw [f1] at hzp
            injection hzp with hzp
            rw [hzp, hy] at f4
            injection f4 with f4
            have := (f6 e).1
            rw [← f4] at this
            exact hno this
          | add k => rw [hr] at t3; rw [t3.2.1 e] at hzp; cases hzp
          | resolve => rw [hr] at t3; rw [t3.1] at hzp; cases hzp
        · intro _ e
          rw [← clsFor_unique hcf e]
          exact Or.inr rfl
        · intro e; rw [hl] at e; cases e
      · refine ⟨⟨fun e => absurd e hpo, fun e => absurd e closing_not_opn⟩, ⟨fun _ => closing_cls _, fun _ => hpc⟩, fun u e => ?_, fun e => (by rcases e with e | ⟨t, e⟩ <;> cases e),
          fun e => absurd e closing_not_opn, fun e => by simp only at e; omega⟩
        rcases e with e | e
        · cases e
        · injection e with e
          injection e with e
          subst e
          exact ⟨x, hx, hst, hxp⟩

/-- The first task of the queue. -/
theorem head_task {s : St} (h : Inv s) {t : Nat} {q : List Nat} (hq : s.queue = t :: q) : ∃ x, s.tk t = some x ∧ x.st = .pending ∧ q = s.queue.erase t := by
  obtain ⟨x, hx, hp⟩ := h.q1 t (by rw [hq]; simp)
  exact ⟨x, hx, hp, by rw [hq]; simp⟩

theorem doRemove_ok {s : St} (h : Full s) (haw : s.awake = true) {t : Nat} {q : List Nat} (hq : s.queue = t :: q) {x : Task} (hx : s.tk t = some x) {p : Nat} (hr : x.req = .remove p) :
    ∃ s', ({ s with queue := q } : St).doRemove t x p = .ok s' ∧ Full s' := by
  obtain ⟨x', hx', hst, hqe⟩ := head_task h.inv hq
  rw [hx] at hx'
  injection hx' with hx'
  subst hx'
  obtain ⟨t1, t2, t3⟩ := h.inv.task t x hx
  have t3' := t3
  rw [hr] at t3
  obtain ⟨f1, f2, f3, y, f4, f5, f6, f7, f8⟩ := t3
  obtain ⟨ho, hct⟩ := f6 hst
  obtain ⟨g1, g2, g3, g4, g5, g6⟩ := h.inv.port p y f4
  have hpo : p ∈ s.opened := g1.2 ho
  have hpc : p ∉ s.closing := fun e => opn_not_cls ho (g2.1 e)
  have hpe : p ∉ s.opened.erase p := by
    rw [List.Nodup.mem_erase_iff h.inv.oN]
    exact fun e => e.1 rfl
  have hnf : ¬ fin x.st := by rw [hst]; rintro (e | e) <;> cases e
  have hac : y.asyncClose false (some t) = .ok ({ y with life := .closing (some t) }, true) := by
    unfold Port.asyncClose
    rcases ho with ho | ho
    · rw [ho]
      simp only
      rw [if_neg, if_neg (by omega), if_pos (g5 (Or.inl ho))]
      rintro ⟨e, _⟩
      have := hct e
      rw [ho] at this
      cases this
    · rw [ho]
      simp only
      rw [if_pos (g5 (Or.inr ho))]
  unfold St.doRemove
  rw [if_neg (by simpa using hpo)]
  simp only [St.asyncClose, St.setTask, f4, hac, bind, Except.bind, St.setPort]
  simp only [hpc, hpe, not_false_eq_true, and_self, if_true, if_false, upd_upd]
  refine ⟨_, rfl, inv_both (t := t) (p := p) (y' := { y with life := .closing (some t) }) (x' := { x with success := true, st := .closing }) h.inv hx hnf rfl rfl rfl
    ⟨Nat.le_refl _, h.inv.ptb p y f4⟩ rfl rfl rfl rfl rfl ⟨fun _ => ⟨hqe, haw⟩, fun e => absurd hst e⟩ (by simp) rfl (fun e => by rw [hst] at e; cases e)
    (h.inv.oN.erase p) (nodup_snoc h.inv.cN hpc) ?_ ?_ ?_ ?_ ?_ (fun _ _ _ => Or.inr hr) ?_ ?_, rfl, h.en⟩
  · intro q' hq'
    show q' ∈ s.opened.erase p ↔ _
    rw [List.Nodup.mem_erase_iff h.inv.oN]
    exact ⟨fun e => e.2, fun e => ⟨hq', e⟩⟩
  · intro q' hq'
    show q' ∈ s.closing ++ [p] ↔ _
    simp [hq']
  · refine ⟨fun e => (by rcases e with e | e <;> cases e), fun _ => t2 hnf, ?_⟩
    rw [hr]
    exact ⟨f1, by simp, fun _ => rfl, _, upd_same _ _ _, f5, fun e => by simp at e, fun _ => Or.inr rfl, fun e => by rcases e with e | e <;> cases e⟩
  · intro u z hu hz hzp
    refine taskOk_port (h.inv.task u z hz) f4 hzp rfl id ?_ ?_ ?_
    · intro e
      exfalso
      obtain ⟨_, _, z3⟩ := h.inv.task u z hz
      cases hzr : z.req with
      | start q' =>
        rw [hzr] at z3
        rw [z3.1] at hzp
        injection hzp with hzp
        exact h.inv.stR u z t x p hz hx (by rw [hzr, hzp]) e hr
      | remove q' =>
        rw [hzr] at z3
        rw [z3.1] at hzp
        injection hzp with hzp
        exact hu (h.inv.remU u z t x p hz hx (by rw [hzr, hzp]) hr)
      | add k => rw [hzr] at z3; rw [z3.2.1 e] at hzp; cases hzp
      | resolve => rw [hzr] at z3; rw [z3.1] at hzp; cases hzp
    · intro _ e
      exact absurd (clsFor_cls e) (opn_not_cls ho)
    · intro e
      rw [e] at ho
      exact absurd ho not_closed_opn
  · refine ⟨⟨fun e => absurd e hpe, fun e => absurd e closing_not_opn⟩, ⟨fun _ => closing_cls _, fun _ => by simp⟩, fun u e => ?_, fun e => (by rcases e with e | ⟨t, e⟩ <;> cases e),
      fun e => absurd e closing_not_opn, fun e => (by simp only at e; omega)⟩
    rcases e with e | e
    · cases e
    · injection e with e
      injection e with e
      subst e
      exact ⟨_, upd_same _ _ _, rfl, f1⟩
  · intro k q' hk
    rw [hr] at hk
    cases hk
  · intro q' hq'
    simp only at hq'
    rw [f1] at hq'
    injection hq' with hq'
    subst hq'
    exact ⟨_, upd_same _ _ _⟩

theorem good_doRemove {s : St} (h : Full s) (haw : s.awake = true) {t : Nat} {q : List Nat} (hq : s.queue = t :: q) {x : Task} (hx : s.tk t = some x) {p : Nat} (hr : x.req = .remove p) :
    Good (({ s with queue := q } : St).doRemove t x p) := by
  obtain ⟨s', e, h'⟩ := doRemove_ok h haw hq hx hr
  rw [e]
  exact h'

/-- A new port for an `add` task that becomes closing or finished. -/
theorem good_new {s s' : St} (h : Full s) (haw : s.awake = true) {t : Nat} {q : List Nat} (hq : s.queue = t :: q) {x x' : Task} (hx : s.tk t = some x) {k : Kind} (hr : x.req = .add k)
    {y' : Port} (h1 : s'.tk = upd s.tk t x') (h2 : s'.nt = s.nt) (h3 : s'.pt = upd s.pt s.np y') (h4 : s'.np = s.np + 1)
    (h7 : s'.stopReq = s.stopReq) (h8 : s'.sems = s.sems) (h9 : s'.unsig = s.unsig) (h10 : s'.awake = s.awake) (h11 : s'.sig = s.sig) (h12 : s'.queue = q) (h13 : s'.ended = s.ended)
    (hxr : x'.req = x.req) (hxp : x'.port = some s.np) (hk : y'.kind = k) (hcn : y'.conns = 0) (hnum : s'.numOpen = s'.opened.length)
    (hc : (x'.st = .closing ∧ x'.notes = x.notes ∧ x'.success = false ∧ clsFor y'.life t ∧ s'.opened = s.opened ∧ s'.closing = s.closing ++ [s.np]) ∨
      (x'.st = .done ∧ x'.notes = x.notes + 1 ∧ x'.success = false ∧ y'.life = .closed ∧ s'.opened = s.opened ∧ s'.closing = s.closing) ∨
      (x'.st = .done ∧ x'.notes = x.notes + 1 ∧ x'.success = true ∧ y'.life = .up ∧ s'.opened = s.opened ++ [s.np] ∧ s'.closing = s.closing))
    (hh : y'.life ≠ .closed → y'.handles = true) (hte : ∀ u, y'.life = .terming u → y'.kind = .client) : Full s' := by
  obtain ⟨x0, hx0, hst, hqe⟩ := head_task h.inv hq
  rw [hx] at hx0
  injection hx0 with hx0
  subst hx0
  obtain ⟨t1, t2, t3⟩ := h.inv.task t x hx
  rw [hr] at t3
  have hnp : s.pt s.np = none := by
    cases e : s.pt s.np with
    | none => rfl
    | some y => have := h.inv.ptb _ _ e; omega
  have hno : s.np ∉ s.opened := fun e => by obtain ⟨y, hy⟩ := h.inv.o1 _ e; rw [hnp] at hy; cases hy
  have hnc : s.np ∉ s.closing := fun e => by obtain ⟨y, hy⟩ := h.inv.c1 _ e; rw [hnp] at hy; cases hy
  have hnf : ¬ fin x.st := by rw [hst]; rintro (e | e) <;> cases e
  refine ⟨inv_both (t := t) (p := s.np) (y' := y') (x' := x') h.inv hx hnf h1 h2 h3 ⟨by omega, by omega⟩ h7 h8 h9 h10 h11 ⟨fun _ => ⟨by rw [h12, hqe], haw⟩, fun e => absurd hst e⟩ ?_ hxr
    (fun e => by rw [hst] at e; cases e) ?_ ?_ ?_ ?_ ?_ ?_ ?_ (fun y e => by rw [hnp] at e; cases e) ?_ ?_, hnum, by rw [h13, h8]; exact h.en⟩
  · rcases hc with c | c | c <;> rw [c.1] <;> simp
  · rcases hc with c | c | c <;> rw [c.2.2.2.2.1]
    · exact h.inv.oN
    · exact h.inv.oN
    · exact nodup_snoc h.inv.oN hno
  · rcases hc with c | c | c <;> rw [c.2.2.2.2.2]
    · exact nodup_snoc h.inv.cN hnc
    · exact h.inv.cN
    · exact h.inv.cN
  · intro q' hq'
    rcases hc with c | c | c <;> rw [c.2.2.2.2.1]
    simp [hq']
  · intro q' hq'
    rcases hc with c | c | c <;> rw [c.2.2.2.2.2]
    simp [hq']
  · rw [h3]
    have t2 := t2 hnf
    rcases hc with c | c | c
    · refine ⟨fun e => ?_, fun _ => by rw [c.2.1, t2], ?_⟩
      · rw [c.1] at e; rcases e with e | e <;> cases e
      · rw [hxr, hr]
        refine ⟨by rw [c.1]; simp, fun e => ?_, fun _ => ⟨c.2.2.1, s.np, y', hxp, upd_same _ _ _, c.2.2.2.1⟩, fun e => ?_⟩
        · rw [c.1] at e; cases e
        · rw [c.1] at e; rcases e with e | e <;> cases e
    · refine ⟨fun _ => by rw [c.2.1, t2], fun e => absurd (Or.inl c.1) e, ?_⟩
      rw [hxr, hr]
      refine ⟨by rw [c.1]; simp, fun e => ?_, fun e => ?_, fun _ => ⟨fun _ p' hp' => ?_, fun e => ?_⟩⟩
      · rw [c.1] at e; cases e
      · rw [c.1] at e; cases e
      · rw [hxp] at hp'
        injection hp' with hp'
        subst hp'
        exact ⟨y', upd_same _ _ _, c.2.2.2.1⟩
      · rw [c.2.2.1] at e; cases e
    · refine ⟨fun _ => by rw [c.2.1, t2], fun e => absurd (Or.inl c.1) e, ?_⟩
      rw [hxr, hr]
      refine ⟨by rw [c.1]; simp, fun e => ?_, fun e => ?_, fun _ => ⟨fun e => ?_, fun _ => ⟨s.np, y', hxp, upd_same _ _ _, hk⟩⟩⟩
      · rw [c.1] at e; cases e
      · rw [c.1] at e; cases e
      · rw [c.2.2.1] at e; cases e
  · intro u z hu hz hzp
    obtain ⟨y, hy⟩ := h.inv.pb u z _ hz hzp
    rw [hnp] at hy
    cases hy
  · rw [h1]
    rcases hc with c | c | c
    · have hncl : y'.life ≠ .closed := by
        intro e
        have := c.2.2.2.1
        rw [e] at this
        rcases this with e | e <;> cases e
      refine ⟨⟨fun e => ?_, fun e => ?_⟩, ⟨fun _ => clsFor_cls c.2.2.2.1, fun _ => ?_⟩, fun u e => ?_, fun e => ?_, fun e => ?_, fun e => ?_⟩
      · rw [c.2.2.2.2.1] at e; exact absurd e hno
      · exact absurd (clsFor_cls c.2.2.2.1) (opn_not_cls e)
      · rw [c.2.2.2.2.2]; simp
      · have := clsFor_unique e c.2.2.2.1
        subst this
        exact ⟨x', upd_same _ _ _, c.1, hxp⟩
      · rcases e with e | ⟨u, e⟩
        · exact absurd (clsFor_cls c.2.2.2.1) (opn_not_cls (Or.inr e))
        · exact ⟨hte u e, hh hncl⟩
      · exact hh hncl
      · omega
    · rw [c.2.2.2.2.1, c.2.2.2.2.2]
      refine ⟨⟨fun e => absurd e hno, fun e => ?_⟩, ⟨fun e => absurd e hnc, fun e => ?_⟩, fun u e => ?_, fun e => ?_, fun e => ?_, fun e => ?_⟩
      · rw [c.2.2.2.1] at e; exact absurd e not_closed_opn
      · rw [c.2.2.2.1] at e; exact absurd e not_closed_cls
      · rw [c.2.2.2.1] at e; exact absurd (clsFor_cls e) not_closed_cls
      · rw [c.2.2.2.1] at e; rcases e with e | ⟨u, e⟩ <;> cases e
      · rw [c.2.2.2.1] at e; exact absurd e not_closed_opn
      · omega
    · rw [c.2.2.2.2.1, c.2.2.2.2.2]
      have ho : opn y'.life := Or.inl c.2.2.2.1
      refine ⟨⟨fun _ => ho, fun _ => by simp⟩, ⟨fun e => absurd e hnc, fun e => absurd e (opn_not_cls ho)⟩, fun u e => absurd (clsFor_cls e) (opn_not_cls ho), fun e => ?_,
        fun _ => hh (by rw [c.2.2.2.1]; simp), fun e => ?_⟩
      · rw [c.2.2.2.1] at e; rcases e with e | ⟨u, e⟩ <;> cases e
      · omega
  · intro k' q' _ hs hp
    rw [hxp] at hp
    injection hp with hp
    rcases hc with c | c | c
    · rw [c.2.2.1] at hs; cases hs
    · rw [c.2.2.1] at hs; cases hs
    · exact ⟨hp.symm, Or.inl c.2.2.2.1⟩
  · intro q' hq'
    rw [hxp] at hq'
    injection hq' with hq'
    subst hq'
    rw [h3]
    exact ⟨_, upd_same _ _ _⟩

theorem good_doAdd {s : St} (h : Full s) (haw : s.awake = true) {t : Nat} {q : List Nat} (hq : s.queue = t :: q) {x : Task} (hx : s.tk t = some x) {k : Kind} (hr : x.req = .add k)
    (r : Res) : Good (({ s with queue := q } : St).doAdd t x k r) := by
  obtain ⟨x0, hx0, hst, hqe⟩ := head_task h.inv hq
  rw [hx] at hx0
  injection hx0 with hx0
  subst hx0
  have hnp : s.pt s.np = none := by
    cases e : s.pt s.np with
    | none => rfl
    | some y => have := h.inv.ptb _ _ e; omega
  have hno : s.np ∉ s.opened := fun e => by obtain ⟨y, hy⟩ := h.inv.o1 _ e; rw [hnp] at hy; cases hy
  have hnc : s.np ∉ s.closing := fun e => by obtain ⟨y, hy⟩ := h.inv.c1 _ e; rw [hnp] at hy; cases hy
  cases r with
  | noMem => exact good_finish h hx false q (Or.inl ⟨hst, haw, hqe⟩) (Or.inr (Or.inr ⟨⟨k, hr⟩, rfl⟩))
  | openFail hb =>
    unfold St.doAdd
    cases hb with
    | true =>
      have hac : (⟨k, .up, true, 0⟩ : Port).asyncClose true (some t) = .ok (⟨k, .closing (some t), true, 0⟩, true) := by
        unfold Port.asyncClose
        simp
      simp only [St.asyncClose, St.setTask, bind, Except.bind, St.setPort, Nat.add_sub_cancel, upd_same, hac, hnc, hno, not_false_eq_true, and_self, if_true, if_false, upd_upd]
      exact good_new (y' := ⟨k, .closing (some t), true, 0⟩) (x' := { x with success := false, port := some s.np, st := .closing }) h haw hq hx hr rfl rfl rfl rfl rfl rfl rfl rfl rfl rfl rfl
        rfl rfl rfl rfl h.num (Or.inl ⟨rfl, rfl, rfl, Or.inr rfl, rfl, rfl⟩) (fun _ => rfl) (fun u e => by cases e)
    | false =>
      have hac : (⟨k, .up, false, 0⟩ : Port).asyncClose true (some t) = .ok (⟨k, .closed, false, 0⟩, false) := by
        unfold Port.asyncClose
        simp
      simp only [St.asyncClose, St.setTask, bind, Except.bind, St.setPort, Nat.add_sub_cancel, upd_same, hac, Bool.false_eq_true, false_and, if_false, St.finish]
      rw [if_neg (by rw [hst]; simp)]
      exact good_new (y' := ⟨k, .closed, false, 0⟩) (x' := { x with success := false, port := some s.np, st := .done, notes := x.notes + 1 }) h haw hq hx hr (by simp only [upd_upd]) rfl (by simp only [upd_upd]) rfl rfl rfl rfl rfl rfl rfl rfl
        rfl rfl rfl rfl h.num (Or.inr (Or.inl ⟨rfl, rfl, rfl, rfl, rfl, rfl⟩)) (fun e => absurd rfl e) (fun u e => by cases e)
  | connFail =>
    unfold St.doAdd
    simp only
    split
    · rfl
    · rename_i hk
      have hk : k = .client := by simpa using hk
      simp only [St.setTask, Nat.add_sub_cancel]
      exact good_new (y' := ⟨k, .terming t, true, 0⟩) (x' := { x with success := false, port := some s.np, st := .closing }) h haw hq hx hr rfl rfl rfl rfl rfl rfl rfl rfl rfl rfl rfl
        rfl rfl rfl rfl h.num (Or.inl ⟨rfl, rfl, rfl, Or.inl rfl, rfl, rfl⟩) (fun _ => rfl) (fun u e => hk)
  | ok =>
    unfold St.doAdd
    simp only [St.setTask, Nat.add_sub_cancel, St.finish, upd_same]
    rw [if_neg (by rw [hst]; simp)]
    exact good_new (y' := ⟨k, .up, true, 0⟩) (x' := { x with success := true, port := some s.np, st := .done, notes := x.notes + 1 }) h haw hq hx hr (by simp only [upd_upd]) rfl rfl rfl rfl rfl rfl rfl rfl rfl rfl
      rfl rfl rfl rfl rfl (Or.inr (Or.inr ⟨rfl, rfl, rfl, rfl, rfl, rfl⟩)) (fun _ => rfl) (fun u e => by cases e)
  | result b => rfl
  | async => rfl

theorem good_doStart {s : St} (h : Full s) (haw : s.awake = true) {t : Nat} {q : List Nat} (hq : s.queue = t :: q) {x : Task} (hx : s.tk t = some x) {p : Nat} (hr : x.req = .start p)
    (r : Res) : Good (({ s with queue := q } : St).doStart t x p r) := by
  obtain ⟨x0, hx0, hst, hqe⟩ := head_task h.inv hq
  rw [hx] at hx0
  injection hx0 with hx0
  subst hx0
  unfold St.doStart
  cases r with
  | result b =>
    obtain ⟨_, _, t3⟩ := h.inv.task t x hx
    rw [hr] at t3
    obtain ⟨y, hy, hl, hk⟩ := t3.2.2 hst
    simp only [hy]
    rw [if_neg (by simp [hl, hk])]
    exact good_finish h hx b q (Or.inl ⟨hst, haw, hqe⟩) (Or.inr (Or.inl ⟨p, hr⟩))
  | _ => rfl

theorem good_doResolve {s : St} (h : Full s) (haw : s.awake = true) {t : Nat} {q : List Nat} (hq : s.queue = t :: q) {x : Task} (hx : s.tk t = some x) (hr : x.req = .resolve)
    (r : Res) : Good (({ s with queue := q } : St).doResolve t x r) := by
  obtain ⟨x0, hx0, hst, hqe⟩ := head_task h.inv hq
  rw [hx] at hx0
  injection hx0 with hx0
  subst hx0
  have hnf : ¬ fin x.st := by rw [hst]; rintro (e | e) <;> cases e
  obtain ⟨t1, t2, t3⟩ := h.inv.task t x hx
  unfold St.doResolve
  cases r with
  | result b => exact good_finish h hx b q (Or.inl ⟨hst, haw, hqe⟩) (Or.inl hr)
  | async =>
    refine ⟨inv_task (x' := { x with st := .resolving }) h.inv hx rfl rfl rfl rfl rfl rfl rfl rfl rfl rfl rfl ⟨fun _ => ⟨hqe, haw⟩, fun e => absurd hst e⟩ (by simp) rfl (by rw [hst]; simp) (by simp) ?_
      (fun e => absurd e hnf) (fun k hk => by rw [hr] at hk; cases hk) (h.inv.pb t x · hx), h.num, h.en⟩
    refine ⟨fun e => (by rcases e with e | e <;> cases e), fun _ => t2 hnf, ?_⟩
    rw [hr] at t3 ⊢
    exact ⟨t3.1, by simp⟩
  | _ => rfl

theorem good_proc {s : St} (h : Full s) (r : Res) : Good (s.proc r) := by
  unfold St.proc
  split
  · rfl
  · rename_i haw
    have haw : s.awake = true := by simpa using haw
    cases hq : s.queue with
    | nil => rfl
    | cons t q =>
      obtain ⟨x, hx, hst, hqe⟩ := head_task h.inv hq
      simp only [hx]
      rw [if_neg (by rw [hst]; simp)]
      cases hr : x.req with
      | add k => exact good_doAdd h haw hq hx hr r
      | start p => exact good_doStart h haw hq hx hr r
      | remove p => exact good_doRemove h haw hq hx hr
      | resolve => exact good_doResolve h haw hq hx hr r

/-- One iteration of `close_all_ports_`. -/
theorem close_one {s : St} (h : Inv s) (hs : s.stopReq = true) {p : Nat} {ps : List Nat} (ho : s.opened = p :: ps) :
    ∃ s', ({ s with opened := ps } : St).asyncClose p false none = .ok (s', true) ∧ Inv s' ∧ s'.opened = ps ∧ s'.stopReq = s.stopReq ∧ s'.ended = s.ended ∧ s'.unsig = s.unsig ∧
      s'.sems = s.sems := by
  obtain ⟨y, hy⟩ := h.o1 p (by rw [ho]; simp)
  obtain ⟨g1, g2, g3, g4, g5, g6⟩ := h.port p y hy
  have hop : opn y.life := g1.1 (by rw [ho]; simp)
  obtain ⟨hf, hu, hst⟩ := h.stop hs
  obtain ⟨hcu, hcn⟩ := hst p y hy
  have hoN := h.oN
  rw [ho] at hoN
  obtain ⟨hps, hpsN⟩ := List.nodup_cons.1 hoN
  have hpc : p ∉ s.closing := fun e => opn_not_cls hop (g2.1 e)
  have hac : y.asyncClose false none = .ok ({ y with life := .closing none }, true) := by
    unfold Port.asyncClose
    rcases hop with ho' | ho'
    · rw [ho']
      simp only
      rw [if_neg, if_neg (by omega), if_pos (g5 (Or.inl ho'))]
      rintro ⟨e, _⟩
      exact hcu e ho'
    · rw [ho']
      simp only
      rw [if_pos (g5 (Or.inr ho'))]
  refine ⟨{ s with opened := ps, pt := upd s.pt p { y with life := .closing none }, closing := s.closing ++ [p] }, ?_, ?_, rfl, rfl, rfl, rfl, rfl⟩
  · simp only [St.asyncClose, hy, hac, bind, Except.bind, St.setPort]
    simp only [hpc, hps, not_false_eq_true, and_self, if_true, if_false]
  · refine inv_port (y' := { y with life := .closing none }) h hy rfl rfl rfl rfl rfl rfl rfl rfl rfl rfl hpsN (nodup_snoc h.cN hpc) ?_ ?_ ?_ ?_ (fun _ => Or.inr hs)
      (fun _ => ⟨fun _ => by simp, hcn⟩) (fun _ => hps)
    · intro q hq
      show q ∈ ps ↔ _
      rw [ho]
      simp [hq]
    · intro q hq
      show q ∈ s.closing ++ [p] ↔ _
      simp [hq]
    · intro u z hz hzp
      refine taskOk_port (h.task u z hz) hy hzp rfl id ?_ ?_ ?_
      · intro e
        rcases hf u z hz with e' | e' <;> rw [e] at e' <;> cases e'
      · intro e
        rcases hf u z hz with e' | e' <;> rw [e] at e' <;> cases e'
      · intro e
        rw [e] at hop
        exact absurd hop not_closed_opn
    · refine ⟨⟨fun e => absurd e hps, fun e => absurd e closing_not_opn⟩, ⟨fun _ => closing_cls _, fun _ => by simp⟩, fun u e => ?_, fun e => (by rcases e with e | ⟨t, e⟩ <;> cases e),
        fun e => absurd e closing_not_opn, fun e => (by simp only at e; omega)⟩
      rcases e with e | e <;> cases e

theorem close_all : ∀ (n : Nat) {s : St}, Inv s → s.stopReq = true → s.opened.length = n →
    ∃ s', s.closeAll n = .ok s' ∧ Inv s' ∧ s'.opened = [] ∧ s'.numOpen = 0 ∧ s'.stopReq = true ∧ s'.ended = s.ended
  | 0, s, h, hs, hn => by
    have hn : s.opened = [] := List.length_eq_zero_iff.1 hn
    refine ⟨_, rfl, inv_flags h rfl rfl rfl rfl rfl rfl rfl id h.wk h.stop h.sems, hn, ?_, hs, rfl⟩
    simp [hn]
  | n + 1, s, h, hs, hn => by
    match ho : s.opened with
    | [] => rw [ho] at hn; cases hn
    | p :: ps =>
      obtain ⟨s1, e1, e2, e3, e4, e5, _⟩ := close_one h hs ho
      obtain ⟨s2, f1, f2, f3, f4, f5, f6⟩ := close_all n e2 (e4.trans hs) (by rw [e3]; rw [ho] at hn; simpa using hn)
      refine ⟨s2, ?_, f2, f3, f4, f5, f6.trans e5⟩
      unfold St.closeAll
      rw [ho]
      simp only [e1, bind, Except.bind]
      exact f1

theorem good_stopCb {s : St} (h : Full s) : Good s.stopCb := by
  unfold St.stopCb
  split
  · rfl
  · rename_i hc
    have hs : s.stopReq = true := by
      cases e : s.stopReq with
      | true => rfl
      | false => exact absurd (Or.inl e) hc
    obtain ⟨s', e1, e2, e3, e4, e5, e6⟩ := close_all _ h.inv hs rfl
    simp only [e1, bind, Except.bind]
    exact ⟨inv_flags e2 rfl rfl rfl rfl rfl rfl rfl id (fun e => by cases e) e2.stop (fun _ => ⟨e5, e3⟩), by simp [e3, e4], fun _ => rfl⟩

theorem good_step {s : St} (h : Full s) (e : Ev) (hl : Legal s e) : Good (s.step e) := by
  cases e with
  | schedule r => exact good_schedule h r hl
  | again t => exact hl.elim
  | signal t => exact good_signal h t
  | drop t => exact good_drop h t hl
  | wake => exact good_wake h
  | sleep => exact good_sleep h
  | proc r => exact good_proc h r
  | closeDone p => exact good_closeDone h p
  | termDone p => exact good_termDone h p
  | resolved t b => exact good_resolved h t b
  | userTerm p => exact good_userTerm h p
  | connOpen p => exact good_connOpen h p hl
  | connGone p => exact good_connGone h p
  | destroy => exact good_destroy h hl
  | stopCb => exact good_stopCb h
  | finishDtor => exact good_finishDtor h

theorem reach_full {s : St} (h : Reach s) : Full s := by
  induction h with
  | init => exact ⟨inv_init, rfl, fun e => by cases e⟩
  | step _ e hl hs ih =>
    have := good_step ih e hl
    rw [hs] at this
    exact this

end Verif.NetLoop
