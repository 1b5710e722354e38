import Verif.UdpPort.Lemmas

/-!
# Opening and closing of a UDP port
-/

namespace Verif.UdpPort

theorem CInv.fresh : CInv fresh := by
  constructor <;> simp [UdpPort.fresh]

theorem CInv.startClosing {s : State} (h : CInv s) (hw : s.want = true) (hp : s.pending = 0) :
    CInv s.startClosing := by
  obtain ⟨h1, h2, h3, h4, h5, h6, h7, h8, h9, h10, h11, h12, h13, h14⟩ := h
  unfold State.startClosing
  split
  · exact ⟨h1, h2, h3, h4, h5, h6, h7, h8, h9, h10, h11, h12, h13, h14⟩
  · rename_i hf
    simp only [State.fullyClosed, Bool.not_eq_true, Bool.or_eq_false_iff] at hf
    constructor <;> grind

theorem CInv.ofSame {s t : State} (h : CInv s) (e1 : t.act = s.act) (e2 : t.want = s.want) (e3 : t.handler = s.handler)
    (e4 : t.hClosing = s.hClosing) (e5 : t.sClosing = s.sClosing) (e6 : t.closed = s.closed)
    (e7 : t.pending = s.pending) (e8 : t.init = s.init) (e9 : t.sem = s.sem) (e10 : t.result = s.result)
    (e11 : t.closeCalls = s.closeCalls) (e12 : t.recvOn = s.recvOn) : CInv t := by
  obtain ⟨h1, h2, h3, h4, h5, h6, h7, h8, h9, h10, h11, h12, h13, h14⟩ := h
  constructor <;> grind

theorem stepWr_frame {c : Cfg} {s s' : State} {i : Nat} {w : Wr} {k : Kernel} (hs : s.stepWr c i w k = some s') :
    s'.want = s.want ∧ s'.handler = s.handler ∧ s'.hClosing = s.hClosing ∧ s'.sClosing = s.sClosing ∧
    s'.closed = s.closed ∧ s'.init = s.init ∧ s'.sem = s.sem ∧ s'.result = s.result ∧
    s'.closeCalls = s.closeCalls ∧ s'.recvOn = s.recvOn := by
  unfold State.stepWr at hs
  cases hp : w.pc <;> rw [hp] at hs <;> simp only at hs
  all_goals
    repeat' split at hs
  all_goals
    first
      | (cases hs; done)
      | (cases hs; exact ⟨rfl, rfl, rfl, rfl, rfl, rfl, rfl, rfl, rfl, rfl⟩)

theorem CInv.step {c : Cfg} {s s' : State} {e : Ev} (hI : Inv s) (h : CInv s) (hl : legal s e)
    (hs : s.step c e = some s') : CInv s' := by
  unfold State.step at hs
  split at hs
  · simp only [Option.some.injEq] at hs; subst hs; exact h
  · cases e
    case open_ a b =>
      simp only [legal] at hl
      subst hl
      simp only [State.open_, Option.some.injEq] at hs
      subst hs
      split
      · exact h
      · constructor <;> simp [UdpPort.fresh]
    case startSend ok =>
      simp only [legal] at hl
      obtain ⟨h1, h2, h3, h4, h5, h6, h7, h8, h9, h10, h11, h12, h13, h14⟩ := id h
      simp only [State.startSend, Option.some.injEq] at hs
      subst hs
      split_ifs
      · exact h
      · exact h
      · constructor <;> grind
      · exact h
    case startRecv w a b =>
      simp only [legal] at hl
      obtain ⟨h1, h2, h3, h4, h5, h6, h7, h8, h9, h10, h11, h12, h13, h14⟩ := id h
      simp only [State.startRecv, Option.some.injEq] at hs
      subst hs
      split_ifs <;>
        first
          | exact h
          | (constructor <;> grind)
    case asyncClose =>
      simp only [legal] at hl
      obtain ⟨h1, h2, h3, h4, h5, h6, h7, h8, h9, h10, h11, h12, h13, h14⟩ := id h
      simp only [State.asyncClose] at hs
      split at hs
      · cases hs
      · split at hs
        · rename_i hf
          simp only [State.fullyClosed] at hf
          simp only [Option.some.injEq] at hs
          subst hs
          constructor <;> grind
        · rename_i hf
          simp only [State.fullyClosed] at hf
          simp only [Option.some.injEq] at hs
          subst hs
          split
          · rename_i hp
            unfold State.startClosing
            rw [if_neg (by simpa only [State.fullyClosed] using hf)]
            constructor <;> grind
          · rename_i hp
            constructor <;> grind
    case write size =>
      simp only [legal] at hl
      obtain ⟨h1, h2, h3, h4, h5, h6, h7, h8, h9, h10, h11, h12, h13, h14⟩ := id h
      simp only at hs
      split at hs
      · cases hs
      · simp only [Option.some.injEq] at hs
        subst hs
        constructor <;> grind
    case step i k =>
      simp only at hs
      split at hs
      · simp only [Option.some.injEq] at hs; subst hs; exact h
      · rename_i w hw
        have hne : s.act ≠ [] := by
          intro h0; rw [h0] at hw; simp at hw
        obtain ⟨g1, g2, g3, g4, g5, g6, g7, g8, g9, g10⟩ := stepWr_frame hs
        obtain ⟨h1, h2, h3, h4, h5, h6, h7, h8, h9, h10, h11, h12, h13, h14⟩ := id h
        have hlive := h8 (Or.inr hne)
        have hw0 : s.want = false := by
          cases hwant : s.want
          · rfl
          · exact absurd (h1 hwant) hne
        constructor <;> grind
    case wake =>
      simp only at hs
      split at hs
      · simp only [Option.some.injEq] at hs
        subst hs
        exact h.ofSame rfl rfl rfl rfl rfl rfl rfl rfl rfl rfl rfl rfl
      · simp only [Option.some.injEq] at hs; subst hs; exact h
    case pop ok =>
      simp only at hs
      split at hs
      · simp only [State.pop] at hs
        split at hs
        · cases hs; exact h.ofSame rfl rfl rfl rfl rfl rfl rfl rfl rfl rfl rfl rfl
        · split_ifs at hs <;> (cases hs; exact h.ofSame rfl rfl rfl rfl rfl rfl rfl rfl rfl rfl rfl rfl)
      · simp only [Option.some.injEq] at hs; subst hs; exact h
    case transmit ok =>
      simp only at hs
      split at hs
      · cases hs; exact h
      · split_ifs at hs <;> (cases hs; exact h.ofSame rfl rfl rfl rfl rfl rfl rfl rfl rfl rfl rfl rfl)
    case complete =>
      simp only at hs
      split at hs
      · simp only [Option.some.injEq] at hs; subst hs; exact h
      · rename_i p d hd
        simp only [Option.some.injEq] at hs
        subst hs
        have hcnt := hI.cnt
        rw [hd] at hcnt
        simp only [List.length_cons] at hcnt
        obtain ⟨h1, h2, h3, h4, h5, h6, h7, h8, h9, h10, h11, h12, h13, h14⟩ := id h
        simp only [State.complete]
        have hne : s.pending ≠ 0 := by omega
        have hlive := h8 (Or.inl hne)
        split
        · rename_i hp
          unfold State.startClosing
          rw [if_neg (by simp only [State.fullyClosed]; grind)]
          constructor <;> grind
        · rename_i hp
          constructor <;> grind
    case closedH =>
      simp only at hs
      obtain ⟨h1, h2, h3, h4, h5, h6, h7, h8, h9, h10, h11, h12, h13, h14⟩ := id h
      split at hs
      · rename_i hcl
        have hres : s.result = some true := by
          rcases hr : s.result with _ | _ | _
          · grind
          · grind
          · rfl
        simp only [State.closeCb] at hs
        split_ifs at hs
        · cases hs
          constructor <;> grind
        · cases hs
          constructor <;> grind
      · simp only [Option.some.injEq] at hs; subst hs; exact h
    case closedS =>
      simp only at hs
      obtain ⟨h1, h2, h3, h4, h5, h6, h7, h8, h9, h10, h11, h12, h13, h14⟩ := id h
      split at hs
      · rename_i hcl
        have hres : s.result = some true := by
          rcases hr : s.result with _ | _ | _
          · grind
          · grind
          · rfl
        simp only [State.closeCb] at hs
        split_ifs at hs
        · cases hs
          constructor <;> grind
        · cases hs
          constructor <;> grind
      · simp only [Option.some.injEq] at hs; subst hs; exact h
    case recv r a b d =>
      simp only at hs
      split at hs
      · rw [recv_eq hs]
        exact h.ofSame rfl rfl rfl rfl rfl rfl rfl rfl rfl rfl rfl rfl
      · simp only [Option.some.injEq] at hs; subst hs; exact h

theorem Reach.cinv {c : Cfg} {s : State} (h : Reach c s) : CInv s := by
  induction h with
  | fresh => exact CInv.fresh
  | step s s' e hr hl hs ih => exact ih.step hr.inv hl hs

theorem step_internal_legal {s : State} {e : Ev} (h : internal e = true) : legal s e := by
  cases e <;> simp_all [internal, legal]

theorem startClosing_done (s : State) : s.startClosing.done = s.done := by
  unfold State.startClosing; split <;> rfl

theorem complete_done (s : State) (d : List Pkt) : (s.complete d).done = d := by
  unfold State.complete
  simp only
  split
  · rw [startClosing_done]
  · rfl

/-- When nothing goes on, nothing is left anywhere. -/
theorem idle_empty {c : Cfg} {s : State} (hr : Reach c s) (h : Idle c s) :
    s.act = [] ∧ s.draining = false ∧ s.unsent = [] ∧ s.done = [] ∧ s.queue = [] ∧ s.hClosing = false ∧
      s.sClosing = false := by
  have hI := hr.inv
  have hC := hr.cinv
  have hdr : s.draining = false := by
    cases hd : s.draining
    · rfl
    · exfalso
      have := h (.pop true) rfl
      simp only [State.step, Ev.network, hd, Bool.false_eq_true, and_false, if_false, if_true] at this
      unfold State.pop at this
      split at this
      · simp only [Option.some.injEq] at this
        have h2 := congrArg State.draining this
        simp only [hd] at h2
        cases h2
      · rename_i p q hq
        split at this
        · simp only [Option.some.injEq] at this
          have h2 := congrArg State.draining this
          simp only [hd] at h2
          cases h2
        · split at this
          · cases this
          · simp only [if_true, Option.some.injEq] at this
            have h2 := congrArg (fun s => s.queue.length) this
            simp only [hq, List.length_cons] at h2
            omega
  have hact : s.act = [] := by
    cases ha : s.act with
    | nil => rfl
    | cons w t =>
      exfalso
      have := h (.step 0 .sent) rfl
      have hlive := hC.live (Or.inr (by rw [ha]; simp))
      simp only [State.step, hdr, Bool.false_eq_true, false_and, if_false, ha, List.getElem?_cons_zero] at this
      obtain ⟨p, pc⟩ := w
      cases pc <;> simp only [State.stepWr, ha, List.eraseIdx, hlive.2.1] at this
      · simp only [Option.some.injEq] at this
        have h2 := congrArg State.pending this
        simp only at h2
        omega
      · split_ifs at this
        all_goals
          simp only [Option.some.injEq] at this
          have h2 := congrArg State.act this
          simp only [ha, List.cons.injEq, Wr.mk.injEq, reduceCtorEq, and_false, false_and] at h2
      · simp only [Option.some.injEq] at this
        have h2 := congrArg State.act this
        simp only [ha, List.cons.injEq, Wr.mk.injEq, reduceCtorEq, and_false, false_and] at h2
      · simp only [Option.some.injEq] at this
        have h2 := congrArg State.act this
        simp only [ha, List.cons.injEq, Wr.mk.injEq, reduceCtorEq, and_false, false_and] at h2
      · simp only [Bool.true_eq_false, if_false, Option.some.injEq] at this
        have h2 := congrArg (fun s => s.act.length) this
        simp only [ha, List.length_cons] at h2
        omega
      · simp only [Option.some.injEq] at this
        have h2 := congrArg State.pending this
        simp only at h2
        omega
  have hun : s.unsent = [] := by
    cases hu : s.unsent with
    | nil => rfl
    | cons p u =>
      exfalso
      have := h (.transmit true) rfl
      simp only [State.step, hdr, Bool.false_eq_true, false_and, if_false, hu, if_true, Option.some.injEq] at this
      have h2 := congrArg (fun s => s.unsent.length) this
      simp only [hu, List.length_cons] at h2
      omega
  have hdo : s.done = [] := by
    cases hu : s.done with
    | nil => rfl
    | cons p d =>
      exfalso
      have := h .complete rfl
      simp only [State.step, hdr, Bool.false_eq_true, false_and, if_false, hu, Option.some.injEq] at this
      have h2 := congrArg (fun s => s.done.length) this
      simp only [hu, List.length_cons, complete_done] at h2
      omega
  refine ⟨hact, hdr, hun, hdo, ?_, ?_, ?_⟩
  · by_contra hne
    have hp : s.pending ≠ 0 := by
      have := hI.cnt
      have h2 : s.queue.length ≠ 0 := fun h => hne (List.length_eq_zero_iff.mp h)
      omega
    have hlive := hC.live (Or.inl hp)
    rcases hI.wake hne with h1 | h1 | ⟨w, hw, _⟩
    · have := h .wake rfl
      simp only [State.step, hdr, Bool.false_eq_true, false_and, if_false, h1, hlive.2.1, hlive.2.2.2, and_self,
        if_true, Option.some.injEq] at this
      have h2 := congrArg State.draining this
      simp only [hdr] at h2
      cases h2
    · rw [hdr] at h1; cases h1
    · rw [hact] at hw; cases hw
  · cases hh : s.hClosing
    · rfl
    · exfalso
      have := h .closedH rfl
      simp only [State.step, hdr, Bool.false_eq_true, false_and, if_false, hh, if_true, State.closeCb] at this
      split_ifs at this
      all_goals
        simp only [Option.some.injEq] at this
        have h2 := congrArg State.hClosing this
        simp only [hh] at h2
        cases h2
  · cases hh : s.sClosing
    · rfl
    · exfalso
      have := h .closedS rfl
      simp only [State.step, hdr, Bool.false_eq_true, false_and, if_false, hh, if_true, State.closeCb] at this
      split_ifs at this
      all_goals
        simp only [Option.some.injEq] at this
        have h2 := congrArg State.sClosing this
        simp only [hh] at h2
        cases h2

/-- Work that a call in progress can still cause. -/
def Pc.work : Pc → Nat
  | .checked => 10
  | .trying => 9
  | .push => 8
  | .link => 4
  | .signal => 3
  | .dec => 1

/-- Work of calls in progress. -/
def workAct : List Wr → Nat
  | [] => 0
  | w :: l => w.pc.work + workAct l

/-- Number of things that can still happen by themselves. -/
def State.work (s : State) : Nat :=
  workAct s.act + 3 * s.queue.length + 2 * s.unsent.length + s.done.length + (if s.flag then 2 else 0)
    + (if s.draining then 1 else 0) + (if s.init then if s.hClosing then 1 else 2 else 0)
    + (if s.sem then if s.sClosing then 1 else 2 else 0)

theorem workAct_erase {l : List Wr} {i : Nat} {w : Wr} (h : l[i]? = some w) :
    workAct l = w.pc.work + workAct (l.eraseIdx i) := by
  induction l generalizing i with
  | nil => simp at h
  | cons a t ih =>
    cases i with
    | zero =>
      simp only [List.getElem?_cons_zero, Option.some.injEq] at h
      subst h
      rfl
    | succ i =>
      simp only [List.getElem?_cons_succ] at h
      simp only [List.eraseIdx, workAct, ih h]
      omega

theorem startClosing_work (s : State) : s.startClosing.work ≤ s.work := by
  unfold State.startClosing
  split
  · exact Nat.le_refl _
  · simp only [State.work]
    cases s.init <;> cases s.hClosing <;> cases s.sem <;> cases s.sClosing <;>
      simp only [Bool.or_true, Bool.or_false, Bool.false_eq_true, if_true, if_false] <;> omega

theorem step_work {c : Cfg} {s s' : State} {e : Ev} (hr : Reach c s) (he : internal e = true)
    (hs : s.step c e = some s') : s' = s ∨ s'.work < s.work := by
  have hC := hr.cinv
  unfold State.step at hs
  split at hs
  · cases hs; exact Or.inl rfl
  · cases e <;> simp only [internal, Bool.false_eq_true] at he
    case step i k =>
      simp only at hs
      split at hs
      · cases hs; exact Or.inl rfl
      · rename_i w hw
        have hwk := workAct_erase hw
        obtain ⟨p, pc⟩ := w
        right
        cases pc <;> simp only [State.stepWr] at hs
        · cases hs
          have h9 : (if s.pending + 1 > 1 then Pc.push else Pc.trying).work ≤ 9 := by split <;> decide
          have h10 : Pc.checked.work = 10 := rfl
          simp only [State.work, workAct, hwk]
          omega
        · repeat' split at hs
          all_goals
            cases hs
            simp only [State.work, workAct, hwk, Pc.work]
            omega
        · cases hs
          simp only [State.work, workAct, hwk, Pc.work, List.length_append, List.length_cons, List.length_nil]
          omega
        · cases hs
          simp only [State.work, workAct, hwk, Pc.work]
          omega
        · split at hs
          · cases hs
          · cases hs
            simp only [State.work, hwk, Pc.work, if_true]
            split <;> omega
        · cases hs
          simp only [State.work, hwk, Pc.work]
          omega
    case wake =>
      simp only at hs
      split at hs
      · rename_i hf
        cases hs
        right
        simp only [State.work, hf.1, hf.2.2.2, if_true, Bool.false_eq_true, if_false]
        omega
      · cases hs; exact Or.inl rfl
    case pop ok =>
      simp only at hs
      split at hs
      · rename_i hd
        right
        unfold State.pop at hs
        split at hs
        · cases hs
          simp only [State.work, hd, if_true, Bool.false_eq_true, if_false]
          omega
        · rename_i p q hq
          split_ifs at hs
          · cases hs
            simp only [State.work, hd, if_true, Bool.false_eq_true, if_false]
            omega
          · cases hs
            simp only [State.work, hq, List.length_append, List.length_cons, List.length_nil]
            omega
          · cases hs
            simp only [State.work, hq, List.length_append, List.length_cons, List.length_nil]
            omega
      · cases hs; exact Or.inl rfl
    case transmit ok =>
      simp only at hs
      split at hs
      · cases hs; exact Or.inl rfl
      · rename_i p u hu
        right
        split_ifs at hs <;>
        · cases hs
          simp only [State.work, hu, List.length_append, List.length_cons, List.length_nil]
          omega
    case complete =>
      simp only at hs
      split at hs
      · cases hs; exact Or.inl rfl
      · rename_i p d hd
        right
        cases hs
        have h0 : ({ s with done := d, pending := s.pending - 1 } : State).work < s.work := by
          simp only [State.work, hd, List.length_cons]
          omega
        simp only [State.complete]
        split
        · exact Nat.lt_of_le_of_lt (startClosing_work _) h0
        · exact h0
    case closedH =>
      simp only at hs
      split at hs
      · rename_i hh
        right
        have hi := hC.hInit hh
        simp only [State.closeCb] at hs
        split_ifs at hs <;>
        · cases hs
          simp only [State.work, hi, hh, if_true, Bool.false_eq_true, if_false]
          omega
      · cases hs; exact Or.inl rfl
    case closedS =>
      simp only at hs
      split at hs
      · rename_i hh
        right
        have hi := hC.sInit hh
        simp only [State.closeCb] at hs
        split_ifs at hs <;>
        · cases hs
          simp only [State.work, hi, hh, if_true, Bool.false_eq_true, if_false]
          omega
      · cases hs; exact Or.inl rfl

end Verif.UdpPort
