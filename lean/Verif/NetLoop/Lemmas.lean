import Verif.NetLoop.Spec

/-!
# Network loop: the invariant
-/

namespace Verif.NetLoop

/-- Finished. -/
def fin (st : TS) : Prop := st = .done ∨ st = .gone

/-- The port is open. -/
def opn (l : Life) : Prop := l = .up ∨ l = .termd

/-- The port is being closed for task `t`. -/
def clsFor (l : Life) (t : Nat) : Prop := l = .terming t ∨ l = .closing (some t)

/-- The port is being closed. -/
def cls (l : Life) : Prop := (∃ t, clsFor l t) ∨ l = .closing none

/-- What is known about a task. -/
def TaskOk (pt : Nat → Option Port) (t : Nat) (x : Task) : Prop :=
  (fin x.st → x.notes = 1) ∧ (¬ fin x.st → x.notes = 0) ∧
  match x.req with
  | .start p => x.port = some p ∧ (x.st = .pending ∨ fin x.st) ∧ (x.st = .pending → ∃ y, pt p = some y ∧ y.life = .up ∧ y.kind = .udp)
  | .remove p => x.port = some p ∧ x.st ≠ .resolving ∧ (x.st ≠ .pending → x.success = true) ∧ ∃ y, pt p = some y ∧ y.conns = 0 ∧
      (x.st = .pending → opn y.life ∧ (y.kind = .client → y.life = .termd)) ∧ (x.st = .closing → clsFor y.life t) ∧ (fin x.st → y.life = .closed)
  | .add k => x.st ≠ .resolving ∧ (x.st = .pending → x.port = none) ∧ (x.st = .closing → x.success = false ∧ ∃ p y, x.port = some p ∧ pt p = some y ∧ clsFor y.life t) ∧
      (fin x.st → (x.success = false → ∀ p, x.port = some p → ∃ y, pt p = some y ∧ y.life = .closed) ∧
        (x.success = true → ∃ p y, x.port = some p ∧ pt p = some y ∧ y.kind = k))
  | .resolve => x.port = none ∧ x.st ≠ .closing

/-- What is known about a port. -/
def PortOk (tk : Nat → Option Task) (opened closing : List Nat) (p : Nat) (y : Port) : Prop :=
  (p ∈ opened ↔ opn y.life) ∧ (p ∈ closing ↔ cls y.life) ∧ (∀ t, clsFor y.life t → ∃ x, tk t = some x ∧ x.st = .closing ∧ x.port = some p) ∧
  (y.life = .termd ∨ (∃ t, y.life = .terming t) → y.kind = .client ∧ y.handles = true) ∧ (opn y.life → y.handles = true) ∧ (0 < y.conns → y.life = .up ∧ y.kind = .server)

/-- The invariant, without the number of ports. -/
structure Inv (s : St) : Prop where
  tkb : ∀ t x, s.tk t = some x → t < s.nt
  ptb : ∀ p y, s.pt p = some y → p < s.np
  oN : s.opened.Nodup
  cN : s.closing.Nodup
  o1 : ∀ p, p ∈ s.opened → ∃ y, s.pt p = some y
  c1 : ∀ p, p ∈ s.closing → ∃ y, s.pt p = some y
  qN : s.queue.Nodup
  q1 : ∀ t, t ∈ s.queue → ∃ x, s.tk t = some x ∧ x.st = .pending
  q2 : ∀ t x, s.tk t = some x → x.st = .pending → t ∈ s.queue
  task : ∀ t x, s.tk t = some x → TaskOk s.pt t x
  port : ∀ p y, s.pt p = some y → PortOk s.tk s.opened s.closing p y
  pb : ∀ t x p, s.tk t = some x → x.port = some p → ∃ y, s.pt p = some y
  handle : ∀ t x k p y, s.tk t = some x → x.req = .add k → fin x.st → x.success = true → x.port = some p → s.pt p = some y →
    (∀ t' x', s.tk t' = some x' → x'.req ≠ .remove p) → s.stopReq = false → opn y.life
  remU : ∀ t x t' x' p, s.tk t = some x → s.tk t' = some x' → x.req = .remove p → x'.req = .remove p → t = t'
  stR : ∀ t x t' x' p, s.tk t = some x → s.tk t' = some x' → x.req = .start p → x.st = .pending → x'.req = .remove p → False
  wk : s.sems = true → s.awake = false → s.sig = false → s.queue ≠ [] → s.unsig ≠ []
  stop : s.stopReq = true → (∀ t x, s.tk t = some x → fin x.st) ∧ s.unsig = [] ∧ ∀ p y, s.pt p = some y → (y.kind = .client → y.life ≠ .up) ∧ y.conns = 0
  sems : s.sems = false → s.stopReq = true ∧ s.opened = []

theorem inv_init : Inv St.init := by
  constructor <;> simp [St.init]

theorem upd_eq {β : Type} (f : Nat → Option β) (i : Nat) (v : β) (j : Nat) : upd f i v j = if j = i then some v else f j := rfl

theorem upd_same {β : Type} (f : Nat → Option β) (i : Nat) (v : β) : upd f i v i = some v := if_pos rfl

theorem upd_ne {β : Type} (f : Nat → Option β) {i j : Nat} (v : β) (h : j ≠ i) : upd f i v j = f j := if_neg h

theorem upd_cases {β : Type} {f : Nat → Option β} {i j : Nat} {v w : β} (h : upd f i v j = some w) : (j = i ∧ w = v) ∨ (j ≠ i ∧ f j = some w) := by
  rw [upd_eq] at h
  split at h
  · rename_i e
    injection h with h
    exact Or.inl ⟨e, h.symm⟩
  · rename_i e
    exact Or.inr ⟨e, h⟩

theorem nodup_snoc {l : List Nat} (h : l.Nodup) {a : Nat} (ha : a ∉ l) : (l ++ [a]).Nodup := by
  rw [List.nodup_append]
  refine ⟨h, by simp, ?_⟩
  intro x hx y hy
  simp at hy
  subst hy
  exact fun e => ha (e ▸ hx)

/-- A change of task `t` that keeps its request. Ports being closed keep their tasks, tasks keep what they know. -/
theorem inv_task {s s' : St} (h : Inv s) {t : Nat} {x x' : Task} (hx : s.tk t = some x)
    (h1 : s'.tk = upd s.tk t x') (h2 : s'.nt = s.nt) (h3 : s'.pt = s.pt) (h4 : s'.np = s.np) (h5 : s'.opened = s.opened) (h6 : s'.closing = s.closing)
    (h7 : s'.stopReq = s.stopReq) (h8 : s'.sems = s.sems) (h9 : s'.unsig = s.unsig) (h10 : s'.awake = s.awake) (h11 : s'.sig = s.sig)
    (hq : (x.st = .pending → s'.queue = s.queue.erase t ∧ s.awake = true) ∧ (x.st ≠ .pending → s'.queue = s.queue)) (hp : x'.st ≠ .pending) (hr : x'.req = x.req) (hc : x.st ≠ .closing)
    (hc' : x'.st ≠ .closing) (ht : TaskOk s.pt t x') (hf : fin x.st → fin x'.st ∧ x'.success = x.success ∧ x'.port = x.port)
    (ha : ∀ k, x.req = .add k → x'.success = true → fin x.st) (hpb : ∀ p, x'.port = some p → ∃ y, s.pt p = some y) : Inv s' := by
  have hq1 : ∀ u, u ∈ s'.queue ↔ u ∈ s.queue ∧ u ≠ t := by
    intro u
    by_cases hp : x.st = .pending
    · rw [(hq.1 hp).1, List.Nodup.mem_erase_iff h.qN, and_comm]
    · rw [hq.2 hp]
      constructor
      · intro hu
        refine ⟨hu, fun e => ?_⟩
        subst e
        obtain ⟨z, hz, hz'⟩ := h.q1 _ hu
        rw [hx] at hz
        injection hz with hz
        subst hz
        exact hp hz'
      · exact fun hu => hu.1
  refine ⟨?_, ?_, ?_, ?_, ?_, ?_, ?_, ?_, ?_, ?_, ?_, ?_, ?_, ?_, ?_, ?_, ?_, ?_⟩
  · intro u z hz
    rw [h1] at hz
    rw [h2]
    rcases upd_cases hz with ⟨rfl, _⟩ | ⟨_, hz⟩
    · exact h.tkb u x hx
    · exact h.tkb u z hz
  · rw [h3, h4]; exact h.ptb
  · rw [h5]; exact h.oN
  · rw [h6]; exact h.cN
  · rw [h5, h3]; exact h.o1
  · rw [h6, h3]; exact h.c1
  · by_cases hp : x.st = .pending
    · rw [(hq.1 hp).1]; exact h.qN.erase t
    · rw [hq.2 hp]; exact h.qN
  · intro u hu
    obtain ⟨hu, hne⟩ := (hq1 u).1 hu
    rw [h1, upd_ne _ _ hne]
    exact h.q1 u hu
  · intro u z hz hzp
    rw [h1] at hz
    rcases upd_cases hz with ⟨rfl, rfl⟩ | ⟨hne, hz⟩
    · exact absurd hzp hp
    · exact (hq1 u).2 ⟨h.q2 u z hz hzp, hne⟩
  · intro u z hz
    rw [h1] at hz
    rw [h3]
    rcases upd_cases hz with ⟨rfl, rfl⟩ | ⟨hne, hz⟩
    · exact ht
    · exact h.task u z hz
  · intro p y hy
    rw [h3] at hy
    obtain ⟨g1, g2, g3, g4⟩ := h.port p y hy
    rw [h5, h6]
    refine ⟨g1, g2, fun u hu => ?_, g4⟩
    obtain ⟨z, e1, e2, e3⟩ := g3 u hu
    rw [h1]
    by_cases hut : u = t
    · subst hut
      rw [hx] at e1
      injection e1 with e1
      subst e1
      exact absurd e2 hc
    · exact ⟨z, by rw [upd_ne _ _ hut, e1], e2, e3⟩
  · intro u z p hz hzp
    rw [h1] at hz
    rw [h3]
    rcases upd_cases hz with ⟨rfl, rfl⟩ | ⟨hne, hz⟩
    · exact hpb p hzp
    · exact h.pb u z p hz hzp
  · intro u z k p y hz hk hzf hzs hzp hy hrm hst
    rw [h1] at hz hrm
    rw [h3] at hy
    rw [h7] at hst
    have hrm' : ∀ v w, s.tk v = some w → w.req ≠ .remove p := by
      intro v w hw
      by_cases hv : v = t
      · subst hv
        rw [hx] at hw
        injection hw with hw
        subst hw
        rw [← hr]
        exact hrm v x' (upd_same _ _ _)
      · exact hrm v w (by rw [upd_ne _ _ hv, hw])
    rcases upd_cases hz with ⟨rfl, rfl⟩ | ⟨hne, hz⟩
    · have hxf := ha k (hr ▸ hk) hzs
      obtain ⟨_, e2, e3⟩ := hf hxf
      exact h.handle u x k p y hx (hr ▸ hk) hxf (e2 ▸ hzs) (e3 ▸ hzp) hy hrm' hst
    · exact h.handle u z k p y hz hk hzf hzs hzp hy hrm' hst
  · intro u z v w p hz hw e1 e2
    rw [h1] at hz hw
    rcases upd_cases hz with ⟨rfl, rfl⟩ | ⟨hne, hz⟩
    · rcases upd_cases hw with ⟨rfl, rfl⟩ | ⟨hne', hw⟩
      · rfl
      · exact h.remU u x v w p hx hw (hr ▸ e1) e2
    · rcases upd_cases hw with ⟨rfl, rfl⟩ | ⟨hne', hw⟩
      · exact h.remU u z v x p ‹_› hx e1 (hr ▸ e2)
      · exact h.remU u z v w p ‹_› hw e1 e2
  · intro u z v w p hz hw e1 e2 e3
    rw [h1] at hz hw
    rcases upd_cases hz with ⟨rfl, rfl⟩ | ⟨hne, hz⟩
    · exact hp e2
    · rcases upd_cases hw with ⟨rfl, rfl⟩ | ⟨hne', hw⟩
      · exact h.stR u z v x p ‹_› hx e1 e2 (hr ▸ e3)
      · exact h.stR u z v w p ‹_› hw e1 e2 e3
  · intro e1 e2 e3 e4
    rw [h9]
    rw [h8] at e1
    rw [h10] at e2
    rw [h11] at e3
    by_cases hp : x.st = .pending
    · rw [(hq.1 hp).2] at e2; cases e2
    · rw [hq.2 hp] at e4
      exact h.wk e1 e2 e3 e4
  · intro e1
    rw [h7] at e1
    obtain ⟨g1, g2, g3⟩ := h.stop e1
    rw [h1, h9, h3]
    refine ⟨?_, g2, g3⟩
    intro u z hz
    rcases upd_cases hz with ⟨rfl, rfl⟩ | ⟨hne, hz⟩
    · exact (hf (g1 u x hx)).1
    · exact g1 u z hz
  · rw [h8, h7, h5]; exact h.sems

/-- A task knows only its own port. -/
theorem taskOk_congr {pt pt' : Nat → Option Port} {t : Nat} {x : Task} (h : TaskOk pt t x) (hp : ∀ p, x.port = some p → pt' p = pt p) : TaskOk pt' t x := by
  unfold TaskOk at h ⊢
  obtain ⟨g1, g2, g3⟩ := h
  refine ⟨g1, g2, ?_⟩
  cases hr : x.req with
  | start p =>
    rw [hr] at g3
    simp only at g3 ⊢
    refine ⟨g3.1, g3.2.1, fun hs => ?_⟩
    rw [hp p g3.1]
    exact g3.2.2 hs
  | remove p =>
    rw [hr] at g3
    simp only at g3 ⊢
    rw [hp p g3.1]
    exact g3
  | add k =>
    rw [hr] at g3
    simp only at g3 ⊢
    refine ⟨g3.1, g3.2.1, fun hs => ?_, fun hf => ⟨fun hs p hpp => ?_, fun hs => ?_⟩⟩
    · obtain ⟨e1, p, y, e2, e3⟩ := g3.2.2.1 hs
      exact ⟨e1, p, y, e2, by rw [hp p e2]; exact e3⟩
    · rw [hp p hpp]
      exact (g3.2.2.2 hf).1 hs p hpp
    · obtain ⟨p, y, e2, e3⟩ := (g3.2.2.2 hf).2 hs
      exact ⟨p, y, e2, by rw [hp p e2]; exact e3⟩
  | resolve =>
    rw [hr] at g3
    exact g3

/-- A change of a task that is not finished, and of a port. -/
theorem inv_both {s s' : St} (h : Inv s) {t p : Nat} {x x' : Task} {y' : Port} (hx : s.tk t = some x) (hnf : ¬ fin x.st)
    (h1 : s'.tk = upd s.tk t x') (h2 : s'.nt = s.nt) (h3 : s'.pt = upd s.pt p y') (h4 : s.np ≤ s'.np ∧ p < s'.np)
    (h7 : s'.stopReq = s.stopReq) (h8 : s'.sems = s.sems) (h9 : s'.unsig = s.unsig) (h10 : s'.awake = s.awake) (h11 : s'.sig = s.sig)
    (hq : (x.st = .pending → s'.queue = s.queue.erase t ∧ s.awake = true) ∧ (x.st ≠ .pending → s'.queue = s.queue)) (hp : x'.st ≠ .pending) (hr : x'.req = x.req)
    (hc : x.st = .closing → x.port = some p)
    (oN : s'.opened.Nodup) (cN : s'.closing.Nodup) (ol : ∀ q, q ≠ p → (q ∈ s'.opened ↔ q ∈ s.opened)) (cl : ∀ q, q ≠ p → (q ∈ s'.closing ↔ q ∈ s.closing))
    (ht : TaskOk s'.pt t x') (hot : ∀ u z, u ≠ t → s.tk u = some z → z.port = some p → TaskOk s'.pt u z)
    (hpo : PortOk s'.tk s'.opened s'.closing p y')
    (hh : ∀ y, s.pt p = some y → opn y.life → opn y'.life ∨ x.req = .remove p)
    (ha : ∀ k q, x.req = .add k → x'.success = true → x'.port = some q → q = p ∧ opn y'.life) (hpb : ∀ q, x'.port = some q → ∃ y, s'.pt q = some y) : Inv s' := by
  have hns : s.stopReq = false := by
    cases hs : s.stopReq with
    | false => rfl
    | true => exact absurd ((h.stop hs).1 t x hx) hnf
  have hq1 : ∀ u, u ∈ s'.queue ↔ u ∈ s.queue ∧ u ≠ t := by
    intro u
    by_cases hp : x.st = .pending
    · rw [(hq.1 hp).1, List.Nodup.mem_erase_iff h.qN, and_comm]
    · rw [hq.2 hp]
      constructor
      · intro hu
        refine ⟨hu, fun e => ?_⟩
        subst e
        obtain ⟨z, hz, hz'⟩ := h.q1 _ hu
        rw [hx] at hz
        injection hz with hz
        subst hz
        exact hp hz'
      · exact fun hu => hu.1
  refine ⟨?_, ?_, oN, cN, ?_, ?_, ?_, ?_, ?_, ?_, ?_, ?_, ?_, ?_, ?_, ?_, ?_, ?_⟩
  · intro u z hz
    rw [h1] at hz
    rw [h2]
    rcases upd_cases hz with ⟨rfl, _⟩ | ⟨_, hz⟩
    · exact h.tkb u x hx
    · exact h.tkb u z hz
  · intro q z hz
    rw [h3] at hz
    rcases upd_cases hz with ⟨rfl, _⟩ | ⟨_, hz⟩
    · exact h4.2
    · have := h.ptb q z hz
      omega
  · intro q hq'
    rw [h3]
    by_cases e : q = p
    · subst e; exact ⟨y', upd_same _ _ _⟩
    · rw [upd_ne _ _ e]; exact h.o1 q ((ol q e).1 hq')
  · intro q hq'
    rw [h3]
    by_cases e : q = p
    · subst e; exact ⟨y', upd_same _ _ _⟩
    · rw [upd_ne _ _ e]; exact h.c1 q ((cl q e).1 hq')
  · by_cases hp : x.st = .pending
    · rw [(hq.1 hp).1]; exact h.qN.erase t
    · rw [hq.2 hp]; exact h.qN
  · intro u hu
    obtain ⟨hu, hne⟩ := (hq1 u).1 hu
    rw [h1, upd_ne _ _ hne]
    exact h.q1 u hu
  · intro u z hz hzp
    rw [h1] at hz
    rcases upd_cases hz with ⟨rfl, rfl⟩ | ⟨hne, hz⟩
    · exact absurd hzp hp
    · exact (hq1 u).2 ⟨h.q2 u z hz hzp, hne⟩
  · intro u z hz
    rw [h1] at hz
    rcases upd_cases hz with ⟨rfl, rfl⟩ | ⟨hne, hz⟩
    · exact ht
    · by_cases hzp : z.port = some p
      · exact hot u z hne hz hzp
      · refine taskOk_congr (h.task u z hz) (fun q hq' => ?_)
        rw [h3, upd_ne]
        intro e
        subst e
        exact hzp hq'
  · intro q z hz
    rw [h3] at hz
    rcases upd_cases hz with ⟨rfl, rfl⟩ | ⟨hne, hz⟩
    · exact hpo
    · obtain ⟨g1, g2, g3, g4⟩ := h.port q z hz
      refine ⟨(ol q hne).trans g1, (cl q hne).trans g2, fun u hu => ?_, g4⟩
      obtain ⟨w, e1, e2, e3⟩ := g3 u hu
      rw [h1]
      by_cases hut : u = t
      · subst hut
        rw [hx] at e1
        injection e1 with e1
        subst e1
        rw [hc e2] at e3
        injection e3 with e3
        exact absurd e3.symm hne
      · exact ⟨w, by rw [upd_ne _ _ hut, e1], e2, e3⟩
  · intro u z q hz hzp
    rw [h1] at hz
    rcases upd_cases hz with ⟨rfl, rfl⟩ | ⟨hne, hz⟩
    · exact hpb q hzp
    · rw [h3]
      by_cases e : q = p
      · subst e; exact ⟨y', upd_same _ _ _⟩
      · rw [upd_ne _ _ e]; exact h.pb u z q hz hzp
  · intro u z k q y hz hk hzf hzs hzp hy hrm hst
    rw [h1] at hz hrm
    rw [h3] at hy
    have hrm' : ∀ v w, s.tk v = some w → w.req ≠ .remove q := by
      intro v w hw
      by_cases hv : v = t
      · subst hv
        rw [hx] at hw
        injection hw with hw
        subst hw
        rw [← hr]
        exact hrm v x' (upd_same _ _ _)
      · exact hrm v w (by rw [upd_ne _ _ hv, hw])
    rcases upd_cases hz with ⟨rfl, rfl⟩ | ⟨hne, hz⟩
    · obtain ⟨rfl, ho⟩ := ha k q (hr ▸ hk) hzs hzp
      rcases upd_cases hy with ⟨_, rfl⟩ | ⟨hne, _⟩
      · exact ho
      · exact absurd rfl hne
    · rcases upd_cases hy with ⟨rfl, rfl⟩ | ⟨hne, hy⟩
      · cases hpp : s.pt q with
        | none =>
          obtain ⟨y0, hy0⟩ := h.pb u z q hz hzp
          rw [hpp] at hy0
          cases hy0
        | some y0 =>
          have := h.handle u z k q y0 hz hk hzf hzs hzp hpp hrm' hns
          rcases hh y0 hpp this with e | e
          · exact e
          · exact absurd e (hrm' t x hx)
      · exact h.handle u z k q y hz hk hzf hzs hzp hy hrm' hns
  · intro u z v w p hz hw e1 e2
    rw [h1] at hz hw
    rcases upd_cases hz with ⟨rfl, rfl⟩ | ⟨hne, hz⟩
    · rcases upd_cases hw with ⟨rfl, rfl⟩ | ⟨hne', hw⟩
      · rfl
      · exact h.remU u x v w p hx hw (hr ▸ e1) e2
    · rcases upd_cases hw with ⟨rfl, rfl⟩ | ⟨hne', hw⟩
      · exact h.remU u z v x p ‹_› hx e1 (hr ▸ e2)
      · exact h.remU u z v w p ‹_› hw e1 e2
  · intro u z v w p hz hw e1 e2 e3
    rw [h1] at hz hw
    rcases upd_cases hz with ⟨rfl, rfl⟩ | ⟨hne, hz⟩
    · exact hp e2
    · rcases upd_cases hw with ⟨rfl, rfl⟩ | ⟨hne', hw⟩
      · exact h.stR u z v x p ‹_› hx e1 e2 (hr ▸ e3)
      · exact h.stR u z v w p ‹_› hw e1 e2 e3
  · intro e1 e2 e3 e4
    rw [h9]
    rw [h8] at e1
    rw [h10] at e2
    rw [h11] at e3
    by_cases hp : x.st = .pending
    · rw [(hq.1 hp).2] at e2; cases e2
    · rw [hq.2 hp] at e4
      exact h.wk e1 e2 e3 e4
  · intro e1
    rw [h7, hns] at e1
    cases e1
  · intro e
    rw [h8] at e
    rw [(h.sems e).1] at hns
    cases hns

/-- A change of a port. -/
theorem inv_port {s s' : St} (h : Inv s) {p : Nat} {y y' : Port} (hy : s.pt p = some y)
    (h1 : s'.tk = s.tk) (h2 : s'.nt = s.nt) (h3 : s'.pt = upd s.pt p y') (h4 : s'.np = s.np)
    (h7 : s'.stopReq = s.stopReq) (h8 : s'.sems = s.sems) (h9 : s'.unsig = s.unsig) (h10 : s'.awake = s.awake) (h11 : s'.sig = s.sig)
    (hq : s'.queue = s.queue)
    (oN : s'.opened.Nodup) (cN : s'.closing.Nodup) (ol : ∀ q, q ≠ p → (q ∈ s'.opened ↔ q ∈ s.opened)) (cl : ∀ q, q ≠ p → (q ∈ s'.closing ↔ q ∈ s.closing))
    (hot : ∀ u z, s.tk u = some z → z.port = some p → TaskOk s'.pt u z)
    (hpo : PortOk s.tk s'.opened s'.closing p y')
    (hh : opn y.life → opn y'.life ∨ s.stopReq = true)
    (hst : s.stopReq = true → (y'.kind = .client → y'.life ≠ .up) ∧ y'.conns = 0) (hse : s.sems = false → p ∉ s'.opened) : Inv s' := by
  refine ⟨?_, ?_, oN, cN, ?_, ?_, ?_, ?_, ?_, ?_, ?_, ?_, ?_, ?_, ?_, ?_, ?_, ?_⟩
  · rw [h1, h2]; exact h.tkb
  · intro q z hz
    rw [h3] at hz
    rw [h4]
    rcases upd_cases hz with ⟨rfl, _⟩ | ⟨_, hz⟩
    · exact h.ptb _ _ hy
    · exact h.ptb q z hz
  · intro q hq'
    rw [h3]
    by_cases e : q = p
    · subst e; exact ⟨y', upd_same _ _ _⟩
    · rw [upd_ne _ _ e]; exact h.o1 q ((ol q e).1 hq')
  · intro q hq'
    rw [h3]
    by_cases e : q = p
    · subst e; exact ⟨y', upd_same _ _ _⟩
    · rw [upd_ne _ _ e]; exact h.c1 q ((cl q e).1 hq')
  · rw [hq]; exact h.qN
  · rw [hq, h1]; exact h.q1
  · rw [hq, h1]; exact h.q2
  · intro u z hz
    rw [h1] at hz
    by_cases hzp : z.port = some p
    · exact hot u z hz hzp
    · refine taskOk_congr (h.task u z hz) (fun q hq' => ?_)
      rw [h3, upd_ne]
      intro e
      subst e
      exact hzp hq'
  · intro q z hz
    rw [h3] at hz
    rw [h1]
    rcases upd_cases hz with ⟨rfl, rfl⟩ | ⟨hne, hz⟩
    · exact hpo
    · obtain ⟨g1, g2, g3, g4⟩ := h.port q z hz
      exact ⟨(ol q hne).trans g1, (cl q hne).trans g2, g3, g4⟩
  · intro u z q hz hzp
    rw [h1] at hz
    rw [h3]
    by_cases e : q = p
    · subst e; exact ⟨y', upd_same _ _ _⟩
    · rw [upd_ne _ _ e]; exact h.pb u z q hz hzp
  · intro u z k q w hz hk hzf hzs hzp hw hrm hs0
    rw [h1] at hz hrm
    rw [h3] at hw
    rw [h7] at hs0
    rcases upd_cases hw with ⟨rfl, rfl⟩ | ⟨hne, hw⟩
    · rcases hh (h.handle u z k q y hz hk hzf hzs hzp hy hrm hs0) with e | e
      · exact e
      · rw [e] at hs0; cases hs0
    · exact h.handle u z k q w hz hk hzf hzs hzp hw hrm hs0
  · rw [h1]; exact h.remU
  · rw [h1]; exact h.stR
  · rw [h8, h9, h10, h11, hq]; exact h.wk
  · intro e
    rw [h7] at e
    obtain ⟨g1, g2, g3⟩ := h.stop e
    rw [h1, h9]
    refine ⟨g1, g2, fun q z hz => ?_⟩
    rw [h3] at hz
    rcases upd_cases hz with ⟨rfl, rfl⟩ | ⟨hne, hz⟩
    · exact hst e
    · exact g3 q z hz
  · intro e
    rw [h8] at e
    obtain ⟨g1, g2⟩ := h.sems e
    rw [h7]
    refine ⟨g1, ?_⟩
    rw [List.eq_nil_iff_forall_not_mem]
    intro q hq'
    by_cases eq : q = p
    · subst eq; exact hse e hq'
    · have := (ol q eq).1 hq'
      rw [g2] at this
      cases this

/-- A change of the flags only. -/
theorem inv_flags {s s' : St} (h : Inv s) (h1 : s'.tk = s.tk) (h2 : s'.nt = s.nt) (h3 : s'.pt = s.pt) (h4 : s'.np = s.np) (h5 : s'.opened = s.opened) (h6 : s'.closing = s.closing)
    (hq : s'.queue = s.queue) (h7 : s.stopReq = true → s'.stopReq = true) (hwk : s'.sems = true → s'.awake = false → s'.sig = false → s.queue ≠ [] → s'.unsig ≠ [])
    (hst : s'.stopReq = true → (∀ t x, s.tk t = some x → fin x.st) ∧ s'.unsig = [] ∧ ∀ p y, s.pt p = some y → (y.kind = .client → y.life ≠ .up) ∧ y.conns = 0)
    (hse : s'.sems = false → s'.stopReq = true ∧ s.opened = []) : Inv s' := by
  refine ⟨by rw [h1, h2]; exact h.tkb, by rw [h3, h4]; exact h.ptb, by rw [h5]; exact h.oN, by rw [h6]; exact h.cN, by rw [h5, h3]; exact h.o1, by rw [h6, h3]; exact h.c1,
    by rw [hq]; exact h.qN, by rw [hq, h1]; exact h.q1, by rw [hq, h1]; exact h.q2, by rw [h1, h3]; exact h.task, by rw [h1, h3, h5, h6]; exact h.port, by rw [h1, h3]; exact h.pb, ?_,
    by rw [h1]; exact h.remU, by rw [h1]; exact h.stR, by rw [hq]; exact hwk, by rw [h1, h3]; exact hst, by rw [h5]; exact hse⟩
  rw [h1, h3]
  intro t x k p y e1 e2 e3 e4 e5 e6 e7 e8
  refine h.handle t x k p y e1 e2 e3 e4 e5 e6 e7 ?_
  cases hs : s.stopReq with
  | false => rfl
  | true => rw [h7 hs] at e8; cases e8

end Verif.NetLoop
