import Verif.TcpConn.Lemmas

/-!
# Invariant of all runs of a TCP connection
-/

namespace Verif.TcpConn

/-- First operations of a callback that has seen an error, when a termination came in between. -/
inductive Late : List Micro → Prop
  | none : Late []
  | sw : Late [.sw .broken]
  | cas (o : St) (h : o = .established ∨ o = .terminating) : Late [.cas o .broken]
  | rep : Late [.rep .broken]

/-- A termination that has interrupted a callback. -/
inductive Racing (s : Bool) : W → Prop
  | mk (st : St) (wf se : Bool) (wr rd : Io) (p k : List Micro) (u : Usr) (sp : Bool) (ds : List Dir) (hst : st = .terminating ∨ st = .broken)
      (hp : Late p) (hk : k.all Micro.isIo = true) (hu : (∃ n, u = .sending n ∧ sp = false) ∨ (u = .done ∧ sp = true)) :
      Racing s ⟨⟨s, st, true, wf, true, true, true, true, true, s, false, se, wr, rd⟩,
      .leaving, p ++ k, u, sp, false, false, .established :: ds.map Cb.io, 0, 0, none, false⟩

/-- A termination that has interrupted a callback and led to a panic. -/
inductive Dead (s : Bool) : W → Prop
  | mk (c : Conn) (u : Usr) (ds : List Dir) :
      Dead s ⟨c, .leaving, [], u, false, false, false, .established :: ds.map Cb.io, 0, 0, none, true⟩

/-- Invariant of all runs. -/
def GInv (s : Bool) (w : W) : Prop := (∃ e f t, Inv s w e f t) ∨ Racing s w ∨ Dead s w

theorem racing_mk (s : Bool) (st : St) (wf se : Bool) (wr rd : Io) (p k net : List Micro) (u : Usr) (sp : Bool) (ds : List Dir) (cbs : List Cb)
    (hn : net = p ++ k) (hc : cbs = .established :: ds.map Cb.io) (hst : st = .terminating ∨ st = .broken)
      (hp : Late p) (hk : k.all Micro.isIo = true) (hu : (∃ n, u = .sending n ∧ sp = false) ∨ (u = .done ∧ sp = true)) :
      Racing s ⟨⟨s, st, true, wf, true, true, true, true, true, s, false, se, wr, rd⟩,
      .leaving, net, u, sp, false, false, cbs, 0, 0, none, false⟩ := by
  subst hn hc
  exact .mk st wf se wr rd p k u sp ds hst hp hk hu

theorem Racing.step {s : Bool} {w w' : W} {l : L} (hr : Racing s w) (h : w.step l = some w') :
    GInv s w' ∧ (w'.aborted = true → (∃ a b, l = .async a b) ∧ w.c.st = .broken) := by
  obtain ⟨st, wf, se, wr, rd, p, k, u, sp, ds, hst, hp, hk, hu⟩ := hr
  cases l with
  | poll x y z =>
    have hn : p = [] ∧ k = [] := by
      simp [W.step, W.poll] at h
      exact h.1
    obtain ⟨rfl, rfl⟩ := hn
    have h2 : w' = ⟨⟨s, st, true, wf, true, true, true, true, true, s, false, se, wr, rd⟩,
      .leaving, pollCb st x y z, u, sp, false, false, .established :: ds.map Cb.io, 0, 0, none, false⟩ := by
      simp [W.step, W.poll] at h
      exact h.symm
    subst h2
    refine ⟨.inr (.inl (racing_mk s st wf se wr rd [] [] _ u sp ds _ ?_ rfl hst .none rfl hu)), by simp⟩
    rcases hst with rfl | rfl <;> simp [pollCb]
  | net =>
    cases hp with
    | none =>
      cases k with
      | nil => simp [W.step, W.runNet] at h
      | cons m k =>
        cases m <;> simp only [List.all_cons, Bool.and_eq_true, Micro.isIo, Bool.false_eq_true, false_and] at hk
        · simp [W.step, W.runNet] at h
        · simp [W.step, W.runNet] at h
          subst h
          rename_i d
          exact ⟨.inr (.inl (racing_mk s st wf se wr rd [] k _ u sp (ds ++ [d]) _ rfl (by simp) hst .none hk.2 hu)), by simp⟩
    | sw =>
      rcases hst with rfl | rfl
      · simp [W.step, W.runNet] at h
        subst h
        exact ⟨.inr (.inl (racing_mk s _ wf se wr rd _ k _ u sp ds _ rfl rfl (.inl rfl) (.cas .terminating (.inr rfl)) hk hu)), by simp⟩
      · simp [W.step, W.runNet] at h
        subst h
        exact ⟨.inr (.inl (racing_mk s _ wf se wr rd [] k _ u sp ds _ rfl rfl (.inr rfl) .none hk hu)), by simp⟩
    | cas o ho =>
      rcases hst with rfl | rfl <;> rcases ho with rfl | rfl
      · simp [W.step, W.runNet, Conn.maybeSwitch, Conn.flags] at h
        subst h
        exact ⟨.inr (.inl (racing_mk s _ true se wr rd _ k _ u sp ds _ rfl rfl (.inl rfl) .sw hk hu)), by simp⟩
      · simp [W.step, W.runNet, Conn.maybeSwitch, Conn.flags] at h
        subst h
        exact ⟨.inr (.inl (racing_mk s _ true se wr rd _ k _ u sp ds _ rfl rfl (.inr rfl) .rep hk hu)), by simp⟩
      · simp [W.step, W.runNet, Conn.maybeSwitch, Conn.flags] at h
        subst h
        exact ⟨.inr (.inl (racing_mk s _ true se wr rd _ k _ u sp ds _ rfl rfl (.inr rfl) .sw hk hu)), by simp⟩
      · simp [W.step, W.runNet, Conn.maybeSwitch, Conn.flags] at h
        subst h
        exact ⟨.inr (.inl (racing_mk s _ true se wr rd _ k _ u sp ds _ rfl rfl (.inr rfl) .sw hk hu)), by simp⟩
    | rep =>
      simp [W.step, W.runNet, Conn.report] at h
      subst h
      exact ⟨.inr (.inl (racing_mk s _ wf se wr rd [] k _ u sp ds _ rfl rfl hst .none hk hu)), by simp⟩
  | ready d =>
    cases hp with
    | none =>
      cases k with
      | nil => simp [W.step, W.ready] at h
      | cons m k =>
        cases m <;> simp only [List.all_cons, Bool.and_eq_true, Micro.isIo, Bool.false_eq_true, false_and] at hk <;> simp [W.step, W.ready] at h
        obtain ⟨rfl, h⟩ := h
        subst h
        rename_i d
        cases d
        · exact ⟨.inr (.inl (racing_mk s st wf se .avail rd [] k _ u sp ds _ rfl rfl hst .none hk.2 hu)), by simp [Conn.setIo]⟩
        · exact ⟨.inr (.inl (racing_mk s st wf se wr .avail [] k _ u sp ds _ rfl rfl hst .none hk.2 hu)), by simp [Conn.setIo]⟩
    | _ => simp [W.step, W.ready] at h
  | async x y =>
    rcases hu with ⟨n, rfl, rfl⟩ | ⟨rfl, rfl⟩
    · simp [W.step, W.async] at h
    · have hn : p = [] ∧ k = [] := by
        simp [W.step, W.async] at h
        exact h.1
      obtain ⟨rfl, rfl⟩ := hn
      rcases hst with rfl | rfl
      · simp [W.step, W.async] at h
        subst h
        refine ⟨.inl ⟨true, wf, true, ?_⟩, by simp⟩
        exact .leaving true wf true true false true s se wr rd .done false true _ _ (by simp) (by simp) (by simp) (by simp) (.inr (by simp))
      · simp [W.step, W.async, W.abort] at h
        subst h
        exact ⟨.inr (.inr (.mk _ _ ds)), fun _ => ⟨⟨x, y, rfl⟩, rfl⟩⟩
  | send =>
    rcases hu with ⟨n, rfl, rfl⟩ | ⟨rfl, rfl⟩
    · simp [W.step, W.send] at h
      subst h
      exact ⟨.inr (.inl (racing_mk s st _ se wr rd p k _ .done true ds _ rfl rfl hst hp hk (.inr ⟨rfl, rfl⟩))), by simp⟩
    · simp [W.step, W.send] at h
  | endConnect ok =>
    exfalso
    cases hp <;> (try simp [W.step, W.endConnect] at h)
    cases k with
    | nil => simp at h
    | cons m k => cases m <;> simp [Micro.isIo] at hk <;> simp at h
  | term n => rcases hu with ⟨n, rfl, _⟩ | ⟨rfl, _⟩ <;> simp [W.step, W.term] at h
  | begin_ d => rcases hu with ⟨n, rfl, _⟩ | ⟨rfl, _⟩ <;> simp [W.step, W.begin_] at h
  | busy d => rcases hu with ⟨n, rfl, _⟩ | ⟨rfl, _⟩ <;> simp [W.step, W.busy] at h
  | sys d r => rcases hu with ⟨n, rfl, _⟩ | ⟨rfl, _⟩ <;> simp [W.step, W.sys] at h
  | upd => rcases hu with ⟨n, rfl, _⟩ | ⟨rfl, _⟩ <;> simp [W.step, W.upd] at h
  | fail => rcases hu with ⟨n, rfl, _⟩ | ⟨rfl, _⟩ <;> simp [W.step, W.fail] at h
  | open_ ok => simp [W.step, W.open_] at h
  | dial d => simp [W.step, W.dial] at h
  | attach => simp [W.step, W.attach] at h
  | giveUp => simp [W.step, W.giveUp] at h
  | close => simp [W.step, W.close] at h
  | pollClosed x y => simp [W.step, W.pollClosed] at h
  | semClosed => simp [W.step, W.semClosed] at h

theorem Inv.alive {s : Bool} {w : W} {e f t : Bool} (h : Inv s w e f t) : w.aborted = false := by cases h <;> rfl

/-- A termination that interrupts a callback starts a race. -/
theorem Inv.term_race {s : Bool} {w w' : W} {e f t n : Bool} (hi : Inv s w e f t) (hn : w.net ≠ []) (h : w.step (.term n) = some w') : Racing s w' := by
  cases hi with
  | estab b se wr rd p k u ds hk hu f hf =>
    have hi : u = .idle := by
      by_contra hne
      simp [W.step, W.term, hne] at h
    subst hi
    have h2 : w' = ⟨⟨s, .terminating, true, b, true, true, true, true, true, s, false, se, wr, rd⟩,
      .leaving, p.ops ++ k, .sending n, false, false, false, .established :: ds.map Cb.io, 0, 0, none, false⟩ := by
      cases b <;> simp [W.step, W.term, W.known, W.asyncTerminate, Conn.maybeSwitch, Conn.flags, St.usable] at h <;> exact h.symm
    subst h2
    refine .mk .terminating b se wr rd p.ops k _ false ds (.inl rfl) ?_ hk (.inl ⟨n, rfl, rfl⟩)
    cases p
    · exact .none
    · exact .sw
    · exact .cas _ (.inl rfl)
    · exact .rep
  | leaving => exact absurd rfl hn
  | connecting net e f hs hd => simp [W.step, W.term, W.known] at h
  | repR hs => simp [W.step, W.term, W.known] at h
  | repE hs => simp [W.step, W.term, W.known] at h
  | _ => exact absurd rfl hn

theorem GInv.step {s : Bool} {w w' : W} {l : L} (hg : GInv s w) (h : w.step l = some w') :
    GInv s w' ∧ (w'.aborted = true → (∃ a b, l = .async a b) ∧ w.c.st = .broken) := by
  rcases hg with ⟨e, f, t, hi⟩ | hr | ⟨c, u, ds⟩
  · by_cases hq : (∃ n, l = .term n) → w.net = []
    · have := hi.step hq h
      exact ⟨.inl ⟨_, _, _, this⟩, by simp [this.alive]⟩
    · simp only [not_forall] at hq
      obtain ⟨⟨n, rfl⟩, hn⟩ := hq
      have hr := hi.term_race hn h
      refine ⟨.inr (.inl hr), ?_⟩
      obtain ⟨⟩ := hr
      simp
  · exact hr.step h
  · simp [W.step] at h

theorem Reach.ginv {q s : Bool} {ls : List L} {w : W} (h : Reach q s ls w) : GInv s w := by
  induction h with
  | new => exact .inl ⟨_, _, _, .fresh⟩
  | step h0 hq hs ih => exact (ih.step hs).1

end Verif.TcpConn
