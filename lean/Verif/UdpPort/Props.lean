import Mathlib.Data.List.Nodup
import Verif.UdpPort.Close

/-!
# C106: UDP port

`Reach`: states of a port that is used by its rules, with any number of writing threads, any interleaving and
any results of system calls. `Idle`: nothing goes on by itself.
-/

namespace Verif.UdpPort

instance (s : State) (e : Ev) : Decidable (legal s e) := by
  cases e <;> simp only [legal] <;> infer_instance

/-- Run that is rejected when a rule is not followed (only for examples). -/
def legalRun (c : Cfg) (s : State) : List Ev → Option State
  | [] => some s
  | e :: l => if legal s e then (s.step c e).bind fun s => legalRun c s l else none

theorem legalRun_reach {c : Cfg} {l : List Ev} {s t : State} (hr : Reach c s) (h : legalRun c s l = some t) :
    Reach c t := by
  induction l generalizing s with
  | nil => cases h; exact hr
  | cons e l ih =>
    simp only [legalRun] at h
    split at h
    · rename_i hl
      cases hs : s.step c e with
      | none => rw [hs] at h; cases h
      | some u => rw [hs] at h; exact ih (.step s u e hr hl hs) h
    · cases h

/-- Both. -/
def someAnd (o : Option State) (f : State → Bool) : Bool := match o with | some s => f s | none => false

theorem someAnd_reach {c : Cfg} {l : List Ev} {f : State → Bool} (h : someAnd (legalRun c fresh l) f = true) :
    ∃ s, Reach c s ∧ f s = true := by
  cases hs : legalRun c fresh l with
  | none => rw [hs] at h; cases h
  | some s => rw [hs] at h; exact ⟨s, legalRun_reach .fresh hs, h⟩

/-- A configuration for examples. -/
def exCfg : Cfg := ⟨false, false, false, 0, false, true, 2048⟩

/-- **C106**: packets go to the wire in the order of writing: no packet is sent after one whose `write` began
when its own `write` had already returned, whatever threads write, with and without non-blocking writes; and
none is sent twice. -/
theorem C106_order {c : Cfg} {s : State} (h : Reach c s) :
    (s.wire.Pairwise fun p q => q.id ∉ p.seen) ∧ (s.wire.map Pkt.id).Nodup := by
  have hI := h.inv
  refine ⟨?_, ?_⟩
  · have := hI.order
    rw [State.line, List.pairwise_append] at this
    exact this.1
  · rw [List.nodup_iff_count_le_one]
    intro x
    have := hI.places x
    simp only [State.places, ids] at this
    split_ifs at this <;> omega

/-- Two threads: the first cannot send immediately, the second waits behind it; the third packet is sent last,
and knows that both returned. -/
example : ∃ s, Reach { exCfg with nonBlocking := false } s ∧
    decide (s.wire.map Pkt.id = [1, 0, 2] ∧ s.wire.map Pkt.seen = [[], [], [0, 1]]) = true :=
  someAnd_reach (l := [.open_ true true, .startSend true, .write 10, .write 20, .step 1 .sent, .step 1 .sent,
    .step 0 .sent, .step 1 .sent, .step 0 .sent, .step 0 .sent, .step 1 .sent, .step 0 .sent, .step 0 .sent,
    .wake, .pop true, .pop true, .pop true,
    .transmit true, .transmit true, .write 5, .complete, .step 0 .sent, .step 0 .sent, .step 0 .sent, .step 0 .sent,
    .complete, .wake, .pop true, .pop true, .transmit true]) (by decide +kernel)

/-- **C106**: every packet written is in exactly one place: sent, refused by the kernel, given to libuv,
in the queue, or still in its `write` call. -/
theorem C106_once {c : Cfg} {s : State} (h : Reach c s) :
    ((s.wire ++ s.failed ++ s.dropped ++ s.lost ++ s.unsent ++ s.queue).map Pkt.id).Nodup ∧
    ∀ x < s.next, x ∈ (s.wire ++ s.failed ++ s.dropped ++ s.lost ++ s.unsent ++ s.queue).map Pkt.id ∨
      ∃ w ∈ s.act, w.pkt.id = x := by
  have hI := h.inv
  refine ⟨?_, ?_⟩
  · rw [List.nodup_iff_count_le_one]
    intro x
    have := hI.places x
    simp only [State.places, ids] at this
    simp only [List.map_append, List.count_append]
    split_ifs at this <;> omega
  · intro x hx
    have := hI.places x
    rw [if_pos hx] at this
    by_cases h0 : 0 < s.act.countP fun w => w.pc.held && decide (w.pkt.id = x)
    · obtain ⟨w, hw, h1⟩ := List.countP_pos_iff.mp h0
      simp only [Bool.and_eq_true, decide_eq_true_eq] at h1
      exact Or.inr ⟨w, hw, h1.2⟩
    · left
      rw [← List.count_pos_iff]
      simp only [State.places, ids] at this
      simp only [List.map_append, List.count_append]
      omega

theorem step_dropped {c : Cfg} {s s' : State} {e : Ev} (hs : s.step c e = some s') :
    s.dropped ⊆ s'.dropped ∧ s.lost ⊆ s'.lost ∧ (c.nonBlocking = false → s'.dropped = s.dropped) := by
  have hsc : ∀ t : State, t.startClosing.dropped = t.dropped ∧ t.startClosing.lost = t.lost := by
    intro t; unfold State.startClosing; split <;> exact ⟨rfl, rfl⟩
  unfold State.step at hs
  split at hs
  · cases hs; exact ⟨fun _ h => h, fun _ h => h, fun _ => rfl⟩
  · cases e <;> simp only at hs
    case open_ => cases hs; unfold State.open_; split <;> exact ⟨fun _ h => h, fun _ h => h, fun _ => rfl⟩
    case startSend => cases hs; unfold State.startSend; split_ifs <;> exact ⟨fun _ h => h, fun _ h => h, fun _ => rfl⟩
    case startRecv =>
      cases hs; unfold State.startRecv; simp only; split_ifs <;> exact ⟨fun _ h => h, fun _ h => h, fun _ => rfl⟩
    case asyncClose =>
      unfold State.asyncClose at hs
      simp only at hs
      split at hs
      · cases hs
      · split at hs
        · cases hs; exact ⟨fun _ h => h, fun _ h => h, fun _ => rfl⟩
        · simp only [Option.some.injEq] at hs
          subst hs
          split
          · refine ⟨?_, ?_, ?_⟩
            · exact fun _ h => by simpa only [(hsc _).1] using h
            · exact fun _ h => by simpa only [(hsc _).2] using h
            · exact fun _ => by simp only [(hsc _).1]
          · exact ⟨fun _ h => h, fun _ h => h, fun _ => rfl⟩
    case write => split at hs <;> cases hs; exact ⟨fun _ h => h, fun _ h => h, fun _ => rfl⟩
    case step i k =>
      split at hs
      · cases hs; exact ⟨fun _ h => h, fun _ h => h, fun _ => rfl⟩
      · rename_i w _
        unfold State.stepWr at hs
        cases hp : w.pc <;> rw [hp] at hs <;> simp only at hs
        all_goals
          repeat' split at hs
        all_goals
          first
            | (cases hs; done)
            | (cases hs; exact ⟨fun _ h => h, fun _ h => h, fun _ => rfl⟩)
            | (cases hs
               refine ⟨fun _ h => List.mem_append_left _ h, fun _ h => h, fun hb => ?_⟩
               simp_all [tryWrite])
    case wake => split at hs <;> cases hs <;> exact ⟨fun _ h => h, fun _ h => h, fun _ => rfl⟩
    case pop =>
      split at hs
      · unfold State.pop at hs
        split at hs
        · cases hs; exact ⟨fun _ h => h, fun _ h => h, fun _ => rfl⟩
        · split_ifs at hs <;> cases hs
          · exact ⟨fun _ h => h, fun _ h => h, fun _ => rfl⟩
          · exact ⟨fun _ h => h, fun _ h => h, fun _ => rfl⟩
          · exact ⟨fun _ h => h, fun _ h => List.mem_append_left _ h, fun _ => rfl⟩
      · cases hs; exact ⟨fun _ h => h, fun _ h => h, fun _ => rfl⟩
    case transmit =>
      split at hs
      · cases hs; exact ⟨fun _ h => h, fun _ h => h, fun _ => rfl⟩
      · split_ifs at hs <;> cases hs <;> exact ⟨fun _ h => h, fun _ h => h, fun _ => rfl⟩
    case complete =>
      split at hs
      · cases hs; exact ⟨fun _ h => h, fun _ h => h, fun _ => rfl⟩
      · cases hs
        unfold State.complete
        simp only
        split
        · refine ⟨?_, ?_, ?_⟩
          · exact fun _ h => by simpa only [(hsc _).1] using h
          · exact fun _ h => by simpa only [(hsc _).2] using h
          · exact fun _ => by simp only [(hsc _).1]
        · exact ⟨fun _ h => h, fun _ h => h, fun _ => rfl⟩
    case closedH =>
      split at hs
      · unfold State.closeCb at hs
        split_ifs at hs <;> cases hs <;> exact ⟨fun _ h => h, fun _ h => h, fun _ => rfl⟩
      · cases hs; exact ⟨fun _ h => h, fun _ h => h, fun _ => rfl⟩
    case closedS =>
      split at hs
      · unfold State.closeCb at hs
        split_ifs at hs <;> cases hs <;> exact ⟨fun _ h => h, fun _ h => h, fun _ => rfl⟩
      · cases hs; exact ⟨fun _ h => h, fun _ h => h, fun _ => rfl⟩
    case recv =>
      split at hs
      · rw [recv_eq hs]; exact ⟨fun _ h => h, fun _ h => h, fun _ => rfl⟩
      · cases hs; exact ⟨fun _ h => h, fun _ h => h, fun _ => rfl⟩

theorem Reach.noDrop {c : Cfg} {s : State} (h : Reach c s) (hc : c.nonBlocking = false) : s.dropped = [] := by
  induction h with
  | fresh => rfl
  | step s s' e _ _ hs ih => rw [(step_dropped hs).2.2 hc, ih]

/-- **C106**: no wakeup is lost: when nothing goes on, all packets written were sent or were refused by the
kernel, except for those for which `uv_udp_send` returned an error; and if non-blocking writes are disabled,
nothing was dropped by a `write` call. -/
theorem C106_flushed {c : Cfg} {s : State} (h : Reach c s) (hi : Idle c s) :
    s.act = [] ∧ (∀ x < s.next, x ∈ (s.wire ++ s.failed ++ s.dropped ++ s.lost).map Pkt.id) ∧
      (c.nonBlocking = false → s.dropped = []) := by
  obtain ⟨h1, _, h3, _, h5, _, _⟩ := idle_empty h hi
  refine ⟨h1, ?_, h.noDrop⟩
  intro x hx
  rcases (C106_once h).2 x hx with h' | ⟨w, hw, _⟩
  · simpa only [h3, h5, List.append_nil] using h'
  · rw [h1] at hw; cases hw

/-- The events that can change an idle state, for examples: it is enough to look at fields. -/
theorem idle_of {c : Cfg} {s : State} (h1 : s.act = []) (h2 : s.draining = false) (h3 : s.unsent = [])
    (h4 : s.done = []) (h5 : s.flag = false) (h6 : s.hClosing = false) (h7 : s.sClosing = false) : Idle c s := by
  intro e he
  cases e <;> simp only [internal, Bool.false_eq_true] at he <;>
    simp [State.step, h1, h2, h3, h4, h5, h6, h7]

/-- Fields of an idle state. -/
def quiet (s : State) : Bool :=
  decide (s.act = [] ∧ s.draining = false ∧ s.unsent = [] ∧ s.done = [] ∧ s.flag = false ∧ s.hClosing = false ∧
    s.sClosing = false)

theorem quiet_idle {c : Cfg} {s : State} (h : quiet s = true) : Idle c s := by
  simp only [quiet, decide_eq_true_eq] at h
  exact idle_of h.1 h.2.1 h.2.2.1 h.2.2.2.1 h.2.2.2.2.1 h.2.2.2.2.2.1 h.2.2.2.2.2.2

/-- A run to an idle state in which one packet was sent directly and one through the loop. -/
example : ∃ s, Reach exCfg s ∧ Idle exCfg s ∧ s.next = 2 ∧ s.wire.length = 2 := by
  obtain ⟨s, h1, h2⟩ := someAnd_reach (c := exCfg) (f := fun s => quiet s && decide (s.next = 2 ∧ s.wire.length = 2))
    (l := [.open_ true true, .startSend true, .write 10, .write 20, .step 0 .sent, .step 1 .sent, .step 0 .sent,
      .step 0 .sent, .step 0 .sent, .step 0 .sent, .step 0 .sent,
      .wake, .pop true, .pop true, .transmit true, .complete]) (by decide +kernel)
  simp only [Bool.and_eq_true, decide_eq_true_eq] at h2
  exact ⟨s, h1, quiet_idle h2.1, h2.2.1, h2.2.2⟩

theorem After.reach {c : Cfg} {s t : State} (h : After c s t) (hr : Reach c s) : Reach c t := by
  induction h with
  | refl => exact hr
  | step s' s'' e _ hl hs ih => exact .step s' s'' e ih hl hs

theorem After.dropped {c : Cfg} {s t : State} (h : After c s t) : s.dropped ⊆ t.dropped := by
  induction h with
  | refl => exact fun _ h => h
  | step s' s'' e _ _ hs ih => exact fun _ h => (step_dropped hs).1 (ih h)

/-- **C106** (false): "if a non-blocking write can't be performed, the port falls back to a regular
asynchronous write" (`udp_port.h:50-53`). When the kernel would block, `write` returns `StatusOK` and the
packet is never sent: `try_nonblocking_write_` takes the negative error code for success. -/
theorem C106_fallback_fails {c : Cfg} (hc : c.nonBlocking = true) : ∃ l s,
    (∀ e ∈ l, ∀ i k, e = .step i k → k = .sent ∨ k = .wouldBlock) ∧
    legalRun c fresh l = some s ∧ Idle c s ∧ s.returned = [0] ∧
    ∀ t, After c s t → 0 ∉ t.wire.map Pkt.id := by
  refine ⟨[.open_ true true, .startSend true, .write 10, .step 0 .sent, .step 0 .wouldBlock, .step 0 .sent],
    { fresh with init := true, sem := true, next := 1, dropped := [⟨0, 10, []⟩], returned := [0] },
    ?_, ?_, ?_, rfl, ?_⟩
  · intro e he i k hk
    subst hk
    simp only [List.mem_cons, Ev.step.injEq, reduceCtorEq, List.not_mem_nil, or_false, false_or] at he
    rcases he with h | h | h
    · exact Or.inl h.2
    · exact Or.inr h.2
    · exact Or.inl h.2
  · simp [legalRun, legal, State.step, State.open_, State.startSend, State.stepWr, fresh, Ev.network, tryWrite,
      trySendTo, hc]
  · exact quiet_idle rfl
  · intro t ht hm
    have hr : Reach c t := by
      refine ht.reach (legalRun_reach (l := [.open_ true true, .startSend true, .write 10, .step 0 .sent,
        .step 0 .wouldBlock, .step 0 .sent]) .fresh ?_)
      simp [legalRun, legal, State.step, State.open_, State.startSend, State.stepWr, fresh, Ev.network, tryWrite,
        trySendTo, hc]
    have hd := ht.dropped (List.mem_cons_self (a := (⟨0, 10, []⟩ : Pkt)) (l := []))
    have hn := hr.inv.places 0
    have h1 : 0 < (ids t.wire).count 0 := List.count_pos_iff.mpr hm
    have h2 : 0 < (ids t.dropped).count 0 := by
      refine List.count_pos_iff.mpr ?_
      exact List.mem_map.mpr ⟨_, hd, rfl⟩
    simp only [State.places] at hn
    split_ifs at hn <;> omega

/-- **C106** (partial: if no `uv_udp_send` returned an error): closing a port comes to an end. When nothing
goes on any more, the port is closed, its handler was called exactly once (not at all if `async_close` had
reported that it was already closed), and the destructor does not abort. Missing: see `C106_close_fails`. -/
theorem C106_close_partial {c : Cfg} {s : State} (h : Reach c s) (hw : s.want = true) (hi : Idle c s)
    (hl : s.lost = []) :
    s.init = false ∧ s.sem = false ∧ s.dtorAborts = false ∧
      ((s.result = some true ∧ s.closeCalls = 1) ∨ (s.result = some false ∧ s.closeCalls = 0)) := by
  obtain ⟨h1, h2, h3, h4, h5, h6, h7⟩ := idle_empty h hi
  have hI := h.inv
  have hC := h.cinv
  have hp : s.pending = 0 := by
    have := hI.cnt
    rw [h1, h3, h4, h5, hl] at this
    simpa using this
  obtain ⟨g1, g2⟩ := (hC.started hw).resolve_left (fun hn => hn hp)
  have hi0 : s.init = false := by
    cases hx : s.init
    · rfl
    · rw [g1 hx] at h6; cases h6
  have hs0 : s.sem = false := by
    cases hx : s.sem
    · rfl
    · rw [g2 hx] at h7; cases h7
  refine ⟨hi0, hs0, by simp [State.dtorAborts, hi0, hp], ?_⟩
  rcases hr : s.result with _ | _ | _
  · exact absurd hr (hC.result.mp hw)
  · exact Or.inr ⟨rfl, hC.notClosed (hC.resFalse hr).2.2⟩
  · exact Or.inl ⟨rfl, (hC.closed (hC.resTrue hr hi0 hs0)).2.2.1⟩

/-- A port that is closed while packets are in the queue. -/
example : ∃ s, Reach exCfg s ∧ s.want = true ∧ Idle exCfg s ∧ s.lost = [] ∧ s.wire.length = 2 := by
  obtain ⟨s, h1, h2⟩ := someAnd_reach (c := exCfg)
    (f := fun s => quiet s && decide (s.want = true ∧ s.lost = [] ∧ s.wire.length = 2))
    (l := [.open_ true true, .startSend true, .startRecv 1 true true, .write 10, .write 20, .step 0 .sent, .step 1 .sent,
      .step 0 .sent, .step 0 .sent, .step 0 .sent, .step 0 .sent, .step 0 .sent, .asyncClose,
      .wake, .pop true, .pop true, .transmit true, .complete, .closedS, .closedH]) (by decide +kernel)
  simp only [Bool.and_eq_true, decide_eq_true_eq] at h2
  exact ⟨s, h1, h2.2.1, quiet_idle h2.1, h2.2.2.1, h2.2.2.2⟩

/-- **C106** (false): closing does not always come to an end. After `uv_udp_send` returned an error once, the
counter of pending packets never becomes zero: `async_close` starts, but the handler is never called, and the
destructor would abort. -/
theorem C106_close_fails {c : Cfg} {s : State} (h : Reach c s) (hl : s.lost ≠ []) :
    s.closeCalls = 0 ∧ s.result ≠ some false ∧ s.dtorAborts = true ∧
      ∀ t, After c s t → t.lost ≠ [] := by
  have hI := h.inv
  have hC := h.cinv
  have hp : s.pending ≠ 0 := by
    have := hI.cnt
    have h2 : s.lost.length ≠ 0 := fun h => hl (List.length_eq_zero_iff.mp h)
    omega
  have hlive := hC.live (Or.inl hp)
  refine ⟨?_, ?_, by simp [State.dtorAborts, hlive.1], ?_⟩
  · refine hC.notClosed ?_
    cases hx : s.closed
    · rfl
    · rw [(hC.closed hx).1] at hlive; cases hlive.1
  · intro hr
    rw [(hC.resFalse hr).1] at hlive
    cases hlive.1
  · intro t ht
    induction ht with
    | refl => exact hl
    | step s' s'' e _ _ hs ih =>
      intro h0
      have := (step_dropped hs).2.1
      rw [h0] at this
      exact ih (List.subset_nil.mp this)

/-- Closing was requested, nothing goes on, and the port is open for ever. -/
example : ∃ s, Reach exCfg s ∧ s.lost ≠ [] ∧ s.result = some true ∧ Idle exCfg s := by
  obtain ⟨s, h1, h2⟩ := someAnd_reach (c := exCfg) (f := fun s => quiet s && decide (s.lost ≠ [] ∧ s.result = some true))
    (l := [.open_ true true, .startSend true, .write 10, .write 20, .step 0 .sent, .step 1 .sent, .step 0 .sent,
      .step 0 .sent, .step 0 .sent, .step 0 .sent, .step 0 .sent,
      .wake, .pop false, .pop true, .asyncClose]) (by decide +kernel)
  simp only [Bool.and_eq_true, decide_eq_true_eq] at h2
  exact ⟨s, h1, h2.2.1, h2.2.2, quiet_idle h2.1⟩

/-- A sequence of things that happen by themselves, each of which changes something. -/
def busy (c : Cfg) (s : State) : List Ev → Prop
  | [] => True
  | e :: l => internal e = true ∧ ∃ t, s.step c e = some t ∧ t ≠ s ∧ busy c t l

/-- **C106**: without new calls, the port becomes idle after a bounded number of steps. -/
theorem C106_finite {c : Cfg} {s : State} (h : Reach c s) : ∃ n, ∀ l, busy c s l → l.length ≤ n := by
  refine ⟨s.work, ?_⟩
  intro l
  induction l generalizing s with
  | nil => intro _; exact Nat.zero_le _
  | cons e l ih =>
    intro hb
    obtain ⟨hi, t, hs, hne, hb⟩ := hb
    have ht : Reach c t := .step s t e h (step_internal_legal hi) hs
    have := ih ht hb
    rcases step_work h hi hs with h1 | h1
    · exact absurd h1 hne
    · simp only [List.length_cons]; omega

/-- A port that is being closed. -/
def exClosing : State :=
  { fresh with init := true, sem := true, handler := true, want := true, hClosing := true, sClosing := true,
               result := some true }

example : busy exCfg exClosing [.closedS, .closedH] := by
  refine ⟨rfl, _, rfl, ?_, rfl, _, rfl, ?_, trivial⟩ <;> decide

/-- **C106**: a port used by its rules does not abort, as long as there is memory for buffers and the inbound
writer accepts packets. -/
theorem C106_no_abort {c : Cfg} {s : State} {e : Ev} (h : Reach c s) (hl : legal s e)
    (hr : ∀ r a b d, e = .recv r a b d → a = true ∧ d = true) : s.step c e ≠ none := by
  have hI := h.inv
  have hC := h.cinv
  unfold State.step
  split
  · simp
  · cases e <;> simp only
    case open_ => simp
    case startSend => simp
    case startRecv => simp
    case asyncClose =>
      simp only [legal] at hl
      unfold State.asyncClose
      rw [if_neg (by rw [hC.handler, hl.1]; decide)]
      simp only
      split <;> simp
    case write =>
      rw [if_neg (by rw [hl.2.1]; decide)]
      simp
    case step i k =>
      split
      · simp
      · rename_i w hw
        have hne : s.act ≠ [] := by
          intro h0; rw [h0] at hw; simp at hw
        have hlive := hC.live (Or.inr hne)
        unfold State.stepWr
        cases w.pc <;> simp only
        all_goals first
          | (rw [if_neg (by rw [hlive.2.1]; decide)]; simp; done)
          | (split <;> simp; done)
          | simp
    case wake => split <;> simp
    case pop =>
      split
      · unfold State.pop
        split
        · simp
        · rename_i p q hq
          split
          · simp
          · have hp : s.pending ≠ 0 := by
              have := hI.cnt
              rw [hq] at this
              simp only [List.length_cons] at this
              omega
            have hlive := hC.live (Or.inl hp)
            rw [if_neg (by rw [hlive.1, hlive.2.2.1]; decide)]
            split <;> simp
      · simp
    case transmit =>
      split
      · simp
      · split <;> simp
    case complete => split <;> simp
    case closedH =>
      split
      · rename_i hh
        have hw := (hC.closing (Or.inl hh)).1
        unfold State.closeCb
        split
        · simp
        · rw [if_neg (by rw [hC.handler, hw]; decide)]
          simp
      · simp
    case closedS =>
      split
      · rename_i hh
        have hw := (hC.closing (Or.inr (Or.inl hh))).1
        unfold State.closeCb
        split
        · simp
        · rw [if_neg (by rw [hC.handler, hw]; decide)]
          simp
      · simp
    case recv r a b d _ =>
      obtain ⟨ha, hd⟩ := hr r a b d rfl
      subst ha hd
      split
      · unfold State.recv
        simp only [Bool.true_eq_false, if_false]
        cases r <;> simp only
        · repeat' split
          all_goals simp_all
        · simp
        · simp
      · simp

example : legal { fresh with init := true, sem := true } (.write 100) := ⟨rfl, rfl, by decide⟩

/-- **C106** (false): without memory for a buffer a received datagram is not just dropped: the callback
computes a buffer from a null pointer and uses it. -/
theorem C106_no_buffer_fails {c : Cfg} {s : State} (r : Rx) (pktOk wrOk : Bool) (hd : s.draining = false)
    (hr : s.recvOn = true) : s.step c (.recv r false pktOk wrOk) = none := by
  simp [State.step, hd, hr, State.recv]

example : ∃ s, Reach exCfg s ∧ (s.draining = false ∧ s.recvOn = true) := by
  obtain ⟨s, h1, h2⟩ := someAnd_reach (c := exCfg) (f := fun s => decide (s.draining = false ∧ s.recvOn = true))
    (l := [.open_ true true, .startRecv 1 true true]) (by decide +kernel)
  exact ⟨s, h1, by simpa using h2⟩

/-- **C106**: with memory, every datagram that is not empty and fits into a buffer (and into 64 KiB) is given
to the current inbound writer once, with all of its bytes and its source; other datagrams and errors are
dropped; nothing else of the port changes. -/
theorem C106_recv {c : Cfg} {s s' : State} {r : Rx} {pktOk : Bool} (hd : s.draining = false) (hr : s.recvOn = true)
    (hs : s.step c (.recv r true pktOk true) = some s') :
    s' = { s with delivered := s'.delivered } ∧
    s'.delivered = s.delivered ++
      (match r, s.inbound with
       | .dgram d, some w =>
         if d.bytes ≠ [] ∧ d.bytes.length ≤ 65536 ∧ d.bytes.length ≤ c.bufSize ∧ pktOk = true then [(w, d)] else []
       | _, _ => []) := by
  simp only [State.step, hd, Bool.false_eq_true, false_and, if_false, hr, if_true] at hs
  refine ⟨recv_eq hs, ?_⟩
  simp only [State.recv, Bool.true_eq_false, if_false] at hs
  cases r with
  | error => cases hs; simp
  | none => cases hs; simp
  | dgram d =>
    simp only at hs
    by_cases h1 : d.bytes = []
    · rw [if_pos h1] at hs
      cases hs
      cases hin : s.inbound <;> simp [h1]
    · rw [if_neg h1] at hs
      by_cases h2 : d.bytes.length > min 65536 c.bufSize
      · rw [if_pos h2] at hs
        cases hs
        cases hin : s.inbound
        · simp
        · simp only
          rw [if_neg (by omega)]
          simp
      · rw [if_neg h2] at hs
        by_cases h3 : pktOk = false
        · rw [if_pos h3] at hs
          cases hs
          cases hin : s.inbound
          · simp
          · simp only
            rw [if_neg (by simp [h3])]
            simp
        · rw [if_neg h3] at hs
          cases hin : s.inbound
          · rw [hin] at hs
            cases hs
            simp
          · rw [hin] at hs
            simp only [if_true] at hs
            cases hs
            simp only
            rw [if_pos ⟨h1, by omega, by omega, by simpa using h3⟩]

example : ∃ s', State.step exCfg { fresh with init := true, recvOn := true, inbound := some 3 }
    (.recv (.dgram ⟨[1, 2], 9⟩) true true true) = some s' ∧ s'.delivered = [(3, ⟨[1, 2], 9⟩)] :=
  ⟨_, rfl, rfl⟩

/-- **C106**: a receiving port has a writer, and once the close handler was called, nothing is received, sent
or reported any more. -/
theorem C106_silent {c : Cfg} {s s' : State} {e : Ev} (h : Reach c s) (h1 : s.closeCalls = 1) (hl : legal s e)
    (hs : s.step c e = some s') :
    s'.delivered = s.delivered ∧ s'.wire = s.wire ∧ s'.closeCalls = 1 := by
  have hI := h.inv
  have hC := h.cinv
  have hcl : s.closed = true := by
    cases hx : s.closed
    · rw [hC.notClosed hx] at h1; cases h1
    · rfl
  obtain ⟨g1, g2, g3, g4⟩ := hC.closed hcl
  obtain ⟨g5, g6⟩ := hC.closing (Or.inr (Or.inr hcl))
  have g7 := hC.wantAct g5
  have hcnt := hI.cnt
  have g8 : s.unsent = [] := List.length_eq_zero_iff.mp (by omega)
  have g9 : s.done = [] := List.length_eq_zero_iff.mp (by omega)
  have g10 : s.hClosing = false := by
    cases hx : s.hClosing
    · rfl
    · have := hC.hInit hx; rw [g1] at this; cases this
  have g11 : s.sClosing = false := by
    cases hx : s.sClosing
    · rfl
    · have := hC.sInit hx; rw [g2] at this; cases this
  have g12 : s.recvOn = false := by
    cases hx : s.recvOn
    · rfl
    · have := (hC.recvOn hx).1; rw [g1] at this; cases this
  unfold State.step at hs
  split at hs
  · cases hs; exact ⟨rfl, rfl, h1⟩
  · cases e <;> simp only at hs
    case open_ =>
      simp only [legal] at hl
      rw [hl] at h1; cases h1
    case startSend => simp only [legal] at hl; rw [hl] at g5; cases g5
    case startRecv => simp only [legal] at hl; rw [hl] at g5; cases g5
    case asyncClose => simp only [legal] at hl; rw [hl.1] at g5; cases g5
    case write => simp only [legal] at hl; rw [hl.2.1] at g5; cases g5
    case step i k =>
      rw [g7] at hs
      simp only [List.getElem?_nil] at hs
      cases hs; exact ⟨rfl, rfl, h1⟩
    case wake =>
      rw [if_neg (by rw [g2]; simp)] at hs
      cases hs; exact ⟨rfl, rfl, h1⟩
    case pop =>
      split at hs
      · unfold State.pop at hs
        split at hs
        · cases hs; exact ⟨rfl, rfl, h1⟩
        · split_ifs at hs <;> cases hs <;> exact ⟨rfl, rfl, h1⟩
      · cases hs; exact ⟨rfl, rfl, h1⟩
    case transmit => rw [g8] at hs; cases hs; exact ⟨rfl, rfl, h1⟩
    case complete => rw [g9] at hs; cases hs; exact ⟨rfl, rfl, h1⟩
    case closedH => rw [if_neg (by rw [g10]; decide)] at hs; cases hs; exact ⟨rfl, rfl, h1⟩
    case closedS => rw [if_neg (by rw [g11]; decide)] at hs; cases hs; exact ⟨rfl, rfl, h1⟩
    case recv => rw [if_neg (by rw [g12]; decide)] at hs; cases hs; exact ⟨rfl, rfl, h1⟩

example : ∃ s, Reach exCfg s ∧ (s.closeCalls = 1 ∧ s.delivered ≠ []) := by
  obtain ⟨s, h1, h2⟩ := someAnd_reach (c := exCfg) (f := fun s => decide (s.closeCalls = 1 ∧ s.delivered ≠ []))
    (l := [.open_ true true, .startRecv 1 true true, .recv (.dgram ⟨[5], 2⟩) true true true, .asyncClose, .closedH])
    (by decide +kernel)
  exact ⟨s, h1, by simpa using h2⟩

/-- **C106** (false, outside of the rules): a packet with an empty buffer is sent twice, as zero bytes sent
are taken for a failure of the non-blocking write. -/
theorem C106_empty_fails : ∃ s, fresh.run exCfg [.open_ true true, .startSend true, .write 0, .step 0 .sent,
    .step 0 .sent, .step 0 .sent, .step 0 .sent, .step 0 .sent, .wake, .pop true, .pop true, .transmit true, .complete]
    = some s ∧ s.wire.map Pkt.id = [0, 0] := ⟨_, rfl, rfl⟩

/-- **C106** (false, outside of the rules): if `async_close` is called while a `write` is in progress that
then sends without blocking, nobody starts closing: nothing goes on, and the handler was not called. -/
theorem C106_race_fails : ∃ s, fresh.run exCfg [.open_ true true, .startSend true, .write 7, .step 0 .sent,
    .asyncClose, .step 0 .sent, .step 0 .sent] = some s ∧ Idle exCfg s ∧ s.result = some true ∧ s.closeCalls = 0 ∧
    s.pending = 0 ∧ s.init = true :=
  ⟨_, rfl, quiet_idle rfl, rfl, rfl, rfl, rfl⟩

/-- **C106**: the address is reused exactly if the port is not ephemeral and the user asked for it or the
address is multicast; an IPv6 socket is bound for IPv6 only, and for both when the system does not support
that. -/
theorem C106_bind (c : Cfg) (uv : Bind → UvErr) :
    (∀ b ∈ (bind c uv).1, (b.reuse = true ↔ 0 < c.port ∧ (c.reuse = true ∨ c.multicast = true))) ∧
    (c.ipv6 = false → (bind c uv).1.map Bind.v6only = [false]) ∧
    (c.ipv6 = true → (bind c uv).1.head?.map Bind.v6only = some true ∧
      ((bind c uv).1.length = 2 ↔ ∃ b ∈ (bind c uv).1, b.v6only = true ∧ (uv b = .einval ∨ uv b = .enotsup))) ∧
    ((bind c uv).2 = true ↔ ∃ b, (bind c uv).1.getLast? = some b ∧ uv b = .ok) := by
  have hr : reuseFlag c = true ↔ 0 < c.port ∧ (c.reuse = true ∨ c.multicast = true) := by
    simp only [reuseFlag, Bool.and_eq_true, Bool.or_eq_true, decide_eq_true_eq]
    exact and_comm
  refine ⟨?_, ?_, ?_, ?_⟩
  · intro b hb
    simp only [bind] at hb
    split_ifs at hb <;> simp only [List.mem_cons, List.not_mem_nil, or_false] at hb
    · rcases hb with rfl | rfl <;> exact hr
    · subst hb; exact hr
    · subst hb; exact hr
  · intro h
    simp [bind, h]
  · intro h
    simp only [bind, h, if_true]
    split_ifs with h1
    · simp [h1]
    · simp only [List.head?_cons, Option.map_some, List.length_cons, List.length_nil, List.mem_cons,
        List.not_mem_nil, or_false, exists_eq_left, true_and, h1]
      simp
  · simp only [bind]
    split_ifs <;> simp

example : bind ⟨false, true, true, 10001, false, true, 2048⟩ (fun b => if b.v6only then .enotsup else .ok)
    = ([⟨true, true⟩, ⟨true, false⟩], true) := by decide

end Verif.UdpPort
