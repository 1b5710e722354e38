import Verif.EncoderApi.Flow

/-!
# C104: encoder and decoder

For all sequences of calls, packets, results of allocations and sizes of buffers. Numbers are those the user
gives: interfaces 1, 11, 12, 13 and protocols 10, 20, 30, 31, 32, 33, 70 (public_api/include/roc/config.h).
-/

namespace Verif.EncoderApi

open ApiConfig (Iface Proto Fec ifaceFromUser protoFromUser)

theorem slotOk_iff {c : Conf} {es : List Ev} {ls : List Log} {n : Node} (h : Inv c es ls n) {i : Iface} {q : Proto} :
    slotOk c n.slot i q = true ↔ Allowed c ls i q := by
  cases hk : c.kind with
  | encoder f =>
    simp only [slotOk, hk, encOk, Allowed, Bool.or_eq_true, Bool.and_eq_true, decide_eq_true_eq]
    constructor
    · rintro (h | ⟨h1, h2⟩)
      · exact Or.inl h
      · exact Or.inr ⟨f, h1, h2, rfl⟩
    · rintro (h | ⟨g, h1, h2, rfl⟩)
      · exact Or.inl h
      · exact Or.inr ⟨h1, h2⟩
  | decoder =>
    simp only [slotOk, hk, decOk, Allowed, Bool.or_eq_true, Bool.and_eq_true, decide_eq_true_eq]
    have hmem : ∀ j r, Log.activated j r ∈ ls ↔ n.slot.ep j = some r :=
      fun j r => ⟨h.logEp j r, h.dec hk j r⟩
    have hall : ∀ f, ((n.slot.source.all fun q => decide (fits .audioSource q = some f)) = true
        ∧ (n.slot.repair.all fun q => decide (fits .audioRepair q = some f)) = true)
          ↔ ∀ j r, Log.activated j r ∈ ls → j ≠ .audioControl → fits j r = some f := by
      intro f
      constructor
      · rintro ⟨h1, h2⟩ j r hj hne
        rw [hmem] at hj
        cases j with
        | audioControl => exact absurd rfl hne
        | consolidated => simp [Slot.ep] at hj
        | audioSource => simp only [Slot.ep] at hj; rw [hj] at h1; simpa using h1
        | audioRepair => simp only [Slot.ep] at hj; rw [hj] at h2; simpa using h2
      · intro hh
        constructor
        · cases hs : n.slot.source with
          | none => rfl
          | some r => simpa using hh .audioSource r ((hmem _ _).2 hs) (by simp)
        · cases hs : n.slot.repair with
          | none => rfl
          | some r => simpa using hh .audioRepair r ((hmem _ _).2 hs) (by simp)
    constructor
    · rintro (h1 | h1)
      · exact Or.inl h1
      · right
        cases hf : fits i q with
        | none => rw [hf] at h1; simp at h1
        | some f =>
          rw [hf] at h1
          simp only [Bool.and_eq_true, Bool.or_eq_true, decide_eq_true_eq] at h1
          exact ⟨f, rfl, h1.1.1, (hall f).1 ⟨h1.1.2, h1.2⟩⟩
    · rintro (h1 | ⟨f, hf, h1, h2⟩)
      · exact Or.inl h1
      · right
        rw [hf]
        simp only [Bool.and_eq_true, Bool.or_eq_true, decide_eq_true_eq]
        obtain ⟨h3, h4⟩ := (hall f).2 h2
        exact ⟨⟨h1, h3⟩, h4⟩

/-- The latency configuration makes a valid feedback monitor (a decoder has none). -/
def goodMonitor (c : Conf) : Prop := c.monitor = true ∨ c.kind = .decoder

/-- In such a node there is no broken monitor. -/
theorem not_broken {c : Conf} {es : List Ev} {ls : List Log} {n : Node} (h : Inv c es ls n) (hm : goodMonitor c)
    (hk : c.kind ≠ .decoder) : n.slot.broken = false := by
  rcases hm with hm | hm
  · have hs := h.slot
    cases hd : c.kind with
    | decoder => exact absurd hd hk
    | encoder f =>
      simp only [SlotInv, hd] at hs
      cases hb : n.slot.broken with
      | false => rfl
      | true => have := (hs.br hb).1.1; rw [hm] at this; simp at this
  · exact absurd hm hk

/-- When such a node aborts. -/
theorem step_none_good {c : Conf} {es : List Ev} {ls : List Log} {n : Node} {e : Ev} (h : Inv c es ls n)
    (hm : goodMonitor c) :
    c.step n e = none ↔ ∃ f p env i, e = .activate f p env ∧ ifaceFromUser f = some i
      ∧ (protoFromUser p).isSome = true ∧ attempted es i = true ∧ active ls i = false := by
  rw [step_none h]
  constructor
  · rintro ⟨f, p, env, i, he, hf, hp, ⟨h1, h2⟩ | ⟨_, h2, _, _, _, h3⟩⟩
    · exact ⟨f, p, env, i, he, hf, hp, h1, h2⟩
    · rw [not_broken h hm h3] at h2; simp at h2
  · rintro ⟨f, p, env, i, he, hf, hp, h1, h2⟩
    exact ⟨f, p, env, i, he, hf, hp, Or.inl ⟨h1, h2⟩⟩

/-- **C104 (activation)**: the first call of `activate` for an interface returns zero only for a protocol that is
allowed, and, if there are enough resources, for every such protocol. (If the latency configuration is usable, see
`C104_monitor_fails`.) -/
theorem C104_activate (c : Conf) (hm : goodMonitor c) (es : List Ev) (n : Node) (ls : List Log) (h : c.run .init es = some (n, ls))
    (f p : Int) (e : Env) (i : Iface) (q : Proto) (hf : ifaceFromUser f = some i) (hp : protoFromUser p = some q)
    (ha : attempted es i = false) :
    ∃ n' l, c.step n (.activate f p e) = some (n', l) ∧ (l = .activated i q ∨ l = .failed)
      ∧ (l = .activated i q → Allowed c ls i q) ∧ (Allowed c ls i q → e = ⟨true, true⟩ → l = .activated i q) := by
  have hi := (run_reach h).inv
  obtain ⟨m, _, _, ⟨h1, _, h3⟩ | ⟨h1, _, h3⟩ | ⟨h1, h3⟩⟩ :=
    activate_first (e := e) (p := q) (ev := .activate f p e) hi ha (fun j => attempted_one hf hp)
  · refine ⟨m, .failed, by simp [Conf.step, hf, hp, h1], Or.inr rfl, by simp, fun h4 h5 => ?_⟩
    exact absurd ⟨(slotOk_iff hi).2 h4, h5, hm⟩ h3
  · exact ⟨m, .activated i q, by simp [Conf.step, hf, hp, h1], Or.inl rfl, fun _ => (slotOk_iff hi).1 h3,
      fun _ _ => rfl⟩
  · have h4 : c.step n (.activate f p e) = none := by simp [Conf.step, hf, hp, h1]
    obtain ⟨_, _, _, _, he, hf', _, h5, _⟩ := (step_none_good hi hm).1 h4
    simp only [Ev.activate.injEq] at he
    rw [← he.1, hf] at hf'
    rw [← Option.some.inj hf', ha] at h5; simp at h5

/-- **C104 (activation)**: an interface is activated at most once: the call fails and changes nothing. -/
theorem C104_once (c : Conf) (es : List Ev) (n : Node) (ls : List Log) (h : c.run .init es = some (n, ls))
    (f p : Int) (e : Env) (i : Iface) (hf : ifaceFromUser f = some i) (ha : active ls i = true) :
    c.step n (.activate f p e) = some (n, .failed) := by
  have hi := (run_reach h).inv
  cases hp : protoFromUser p with
  | none => simp [Conf.step, hf, hp]
  | some q => simp [Conf.step, hf, hp, activate_active hi ha]

/-- **C104 (no abort)**: as long as no interface is activated again after a failed call (with valid numbers), no
sequence of calls and no behaviour of the pipeline aborts the process. (Partial: see `C104_retry_fails` and
`C104_monitor_fails`.) -/
theorem C104_no_abort_partial (c : Conf) (hm : goodMonitor c) (es : List Ev) (h : noRetry c es) : (c.run .init es).isSome = true := by
  have key : ∀ es₂ es₁ n ls, es = es₁ ++ es₂ → c.run .init es₁ = some (n, ls) → (c.run n es₂).isSome = true := by
    intro es₂
    induction es₂ with
    | nil => intros; rfl
    | cons e es₂ ih =>
      intro es₁ n ls he hr
      have hi := (run_reach hr).inv
      cases hs : c.step n e with
      | none =>
        obtain ⟨f, p, env, i, rfl, hf, hp, hat, hac⟩ := (step_none_good hi hm).1 hs
        have := h es₁ f p env es₂ n ls i he hr hf hp hat
        rw [hac] at this; simp at this
      | some x =>
        obtain ⟨m, l⟩ := x
        have hr' : c.run .init (es₁ ++ [e]) = some (m, ls ++ [l]) := by
          rw [run_append, hr]
          simp only [Conf.run, hs]
        have := ih (es₁ ++ [e]) m (ls ++ [l]) (by rw [he]; simp) hr'
        simp only [Conf.run, hs]
        cases hh : c.run m es₂ with
        | none => rw [hh] at this; simp at this
        | some y => rfl
  exact key es [] .init [] rfl rfl

/-- **C104 fails** for a second attempt: after a call of `activate` that failed in the pipeline (wrong protocol for
the interface, wrong FEC scheme, or no memory), every further call for this interface, with any protocol, aborts the
process. Nothing else aborts, if the latency configuration is usable. -/
theorem C104_retry_fails (c : Conf) (hm : goodMonitor c) (es : List Ev) (n : Node) (ls : List Log) (h : c.run .init es = some (n, ls))
    (e : Ev) :
    c.step n e = none ↔ ∃ f p env i, e = .activate f p env ∧ ifaceFromUser f = some i
      ∧ (protoFromUser p).isSome = true ∧ attempted es i = true ∧ active ls i = false :=
  step_none_good (run_reach h).inv hm

/-- **C104 fails** for an encoder whose latency configuration does not make a valid feedback monitor (for example a
latency tuner profile without target latency, see `Defaults.C103_sender_partial`): the call that completes the source and repair interfaces returns an
error, and after it the activation of the control interface aborts the process. -/
theorem C104_monitor_fails (c : Conf) (hm : c.monitor = false) (g : Fec) (hk : c.kind = .encoder g) (es : List Ev)
    (n : Node) (ls : List Log) (h : c.run .init es = some (n, ls)) (f p f' p' : Int) (i : Iface) (q : Proto)
    (hf : ifaceFromUser f = some i) (hp : protoFromUser p = some q) (ha : attempted es i = false)
    (hq : Allowed c ls i q)
    (hi : (i = .audioSource ∧ (g = .none ∨ active ls .audioRepair = true))
      ∨ (i = .audioRepair ∧ active ls .audioSource = true))
    (hf' : ifaceFromUser f' = some .audioControl) (hp' : protoFromUser p' = some .rtcp)
    (hc : attempted es .audioControl = false) :
    (∃ n', c.step n (.activate f p ⟨true, true⟩) = some (n', .failed))
      ∧ c.run n [.activate f p ⟨true, true⟩, .activate f' p' ⟨true, true⟩] = none := by
  have hinv := (run_reach h).inv
  have hic : i ≠ .audioControl := by rcases hi with ⟨rfl, _⟩ | ⟨rfl, _⟩ <;> simp
  have hna : active ls i = false := by
    cases hh : active ls i with
    | false => rfl
    | true => have := hinv.active_attempted hh; rw [ha] at this; simp at this
  have hen := hinv.ep_none ha
  have hsl := hinv.slot
  have hok := (slotOk_iff hinv).2 hq
  have hact : ∀ j, active ls j = true → (n.slot.ep j).isSome = true := by
    intro j hj
    obtain ⟨q, hq'⟩ := active_iff.1 hj
    rw [hinv.logEp j q hq']; rfl
  simp only [SlotInv, hk] at hsl
  simp only [slotOk, hk] at hok
  have htr : n.slot.transport = false := by
    cases hh : n.slot.transport with
    | false => rfl
    | true =>
      have := (hinv.tr g hk).1 hh
      rcases hi with ⟨rfl, _⟩ | ⟨rfl, _⟩
      · rw [hna] at this; simp at this
      · rw [hna] at this
        obtain ⟨_, h5 | h5⟩ := this
        · simp at h5
        · subst h5
          cases q <;> simp [encOk, fits] at hok
  have hadd : c.add ⟨true, true⟩ n.slot i q = .fail { n.slot.set i q with broken := true } := by
    rw [hm] at hsl
    simp only [Conf.add, hk, hm, senderAdd_eq hsl hen, hok]
    rcases hi with ⟨rfl, h5⟩ | ⟨rfl, h5⟩
    · have h6 : (n.slot.repair.isSome = true ∨ g = .none) := by
        rcases h5 with h5 | h5
        · exact Or.inr h5
        · exact Or.inl (hact _ h5)
      simp [encFinish, senderTransport, Slot.set, htr, h6]
    · have h6 : n.slot.source.isSome = true := hact _ h5
      simp [encFinish, senderTransport, Slot.set, htr, h6]
  have hst : c.step n (.activate f p ⟨true, true⟩)
      = some ({ n with slot := { n.slot.set i q with broken := true }, queue := upd n.queue i (some []) }, .failed) := by
    have hqi := hinv.q i
    rw [ha] at hqi
    simp [Conf.step, hf, hp, Conf.activate, hinv.rw_active, hna, hqi, hadd]
  refine ⟨⟨_, hst⟩, ?_⟩
  have hinv' := step_inv hinv hst
  have hat' : attempted (es ++ [.activate f p ⟨true, true⟩]) .audioControl = false := by
    rw [attempted_append, hc, attempted_one hf hp]; simp [hic]
  have := activate_broken hinv' hat' rfl (by rw [hk]; simp)
  simp only [Conf.run, hst]
  rw [Conf.step]
  simp only [hf', hp', this]

/-- **C104 (no abort)**: these are the only ways: an abort is a second attempt, or the activation of the control
interface of an encoder without a usable latency configuration, after an attempt to activate the source. -/
theorem C104_abort (c : Conf) (es : List Ev) (n : Node) (ls : List Log) (h : c.run .init es = some (n, ls)) (e : Ev)
    (ha : c.step n e = none) :
    ∃ f p env i, e = .activate f p env ∧ ifaceFromUser f = some i ∧ ((attempted es i = true ∧ active ls i = false)
      ∨ (i = .audioControl ∧ protoFromUser p = some .rtcp ∧ c.monitor = false ∧ attempted es .audioSource = true
        ∧ ∃ g, c.kind = .encoder g ∧ (g = .none ∨ attempted es .audioRepair = true)
          ∧ (active ls .audioSource = false ∨ g ≠ .none ∧ active ls .audioRepair = false))) := by
  have hinv := (run_reach h).inv
  obtain ⟨f, p, env, i, he, hf, _, h1 | ⟨_, h2, h3, h4, _, h6⟩⟩ := (step_none hinv).1 ha
  · exact ⟨f, p, env, i, he, hf, Or.inl h1⟩
  · refine ⟨f, p, env, i, he, hf, Or.inr ⟨h3, h4, ?_⟩⟩
    have hs := hinv.slot
    cases hd : c.kind with
    | decoder => exact absurd hd h6
    | encoder g =>
      simp only [SlotInv, hd] at hs
      obtain ⟨⟨h7, h10⟩, h8, h9⟩ := hs.br h2
      refine ⟨h7, hinv.epA .audioSource h8, g, rfl, ?_, ?_⟩
      · rcases h9 with h9 | h9
        · exact Or.inr (hinv.epA .audioRepair h9)
        · exact Or.inl h9
      · have h11 := hinv.tr g hd
        rw [h10] at h11
        cases h12 : active ls .audioSource with
        | false => exact Or.inl rfl
        | true =>
          right
          rw [h12] at h11
          cases h13 : active ls .audioRepair with
          | false => exact ⟨fun h14 => by simp [h14] at h11, rfl⟩
          | true => rw [h13] at h11; simp at h11

/-- An encoder without FEC. -/
def plain : Conf := ⟨fun _ => true, .encoder .none, 2048, true⟩

/-- Enough resources. -/
def rich : Env := ⟨true, true⟩

/-- The case of `C104_retry_fails`: an encoder without FEC, source interface (11): first protocol 30
(RTP with Reed-Solomon; -1 is returned), then protocol 20 (RTP) - abort. With RTP at once, it works. -/
example : plain.run .init [.activate 11 30 rich, .activate 11 20 rich] = none
    ∧ (plain.run .init [.activate 11 30 rich]).map (·.2) = some [.failed]
    ∧ (plain.run .init [.activate 11 20 rich]).map (·.2) = some [.activated .audioSource .rtp] := by
  decide +kernel

/-- The case of `C104_monitor_fails`, without and with FEC; if the control interface comes first, there is only the
error. -/
example : (⟨fun _ => true, .encoder .none, 2048, false⟩ : Conf).run .init [.activate 11 20 rich, .activate 13 70 rich] = none
    ∧ ((⟨fun _ => true, .encoder .none, 2048, false⟩ : Conf).run .init [.activate 11 20 rich]).map (·.2) = some [.failed]
    ∧ (⟨fun _ => true, .encoder .ldpc, 2048, false⟩ : Conf).run .init
        [.activate 12 33 rich, .activate 11 32 rich, .activate 13 70 rich] = none
    ∧ ((⟨fun _ => true, .encoder .ldpc, 2048, false⟩ : Conf).run .init
        [.activate 13 70 rich, .activate 12 33 rich, .activate 11 32 rich]).map (·.2)
      = some [.activated .audioControl .rtcp, .activated .audioRepair .ldpcRepair, .failed] := by
  decide +kernel

/-- The same for a decoder: the repair protocol that does not fit to the source protocol is refused, the right
one then aborts. -/
example : (⟨fun _ => true, .decoder, 2048, true⟩ : Conf).run .init
      [.activate 11 30 rich, .activate 12 33 rich, .activate 12 31 rich] = none
    ∧ ((⟨fun _ => true, .decoder, 2048, true⟩ : Conf).run .init [.activate 11 30 rich, .activate 12 33 rich]).map (·.2)
      = some [.activated .audioSource .rtpRs8mSource, .failed]
    ∧ ((⟨fun _ => true, .decoder, 2048, true⟩ : Conf).run .init [.activate 11 30 rich, .activate 12 31 rich]).map (·.2)
      = some [.activated .audioSource .rtpRs8mSource, .activated .audioRepair .rs8mRepair] := by
  decide +kernel

/-- Interfaces the pipeline writes packets to: for an encoder, source and repair when all the interfaces of the FEC
scheme are activated, and control when it is activated; for a decoder only control. -/
def ready (c : Conf) (ls : List Log) (i : Iface) : Prop :=
  active ls i = true ∧
    match c.kind, i with
    | .encoder f, .audioSource => f = .none ∨ active ls .audioRepair = true
    | .encoder _, .audioRepair => active ls .audioSource = true
    | _, .audioControl => True
    | _, _ => False

/-- **C104 (packets are produced)**: the pipeline can write packets for an interface exactly when the interfaces it needs
are activated. -/
theorem C104_ready (c : Conf) (es : List Ev) (n : Node) (ls : List Log) (h : c.run .init es = some (n, ls))
    (i : Iface) (b : Bytes) :
    (∃ n', c.step n (.produce i b) = some (n', .wrote i b)) ↔ ready c ls i := by
  have hi := (run_reach h).inv
  have h1 : (∃ n', c.step n (.produce i b) = some (n', .wrote i b)) ↔ c.connected n.slot i = true := by
    simp only [Conf.step]
    cases hc : c.connected n.slot i with
    | false => simp
    | true =>
      have := hi.connected_queue hc
      cases hq : n.queue i with
      | none => rw [hq] at this; simp at this
      | some q => simp
  rw [h1]
  have hact : ∀ j, active ls j = true → (n.slot.ep j).isSome = true := by
    intro j hj
    obtain ⟨q, hq'⟩ := active_iff.1 hj
    rw [hi.logEp j q hq']; rfl
  constructor
  · intro hc
    refine ⟨(hi.connected_reads hc).2, ?_⟩
    cases hk : c.kind with
    | encoder f =>
      have ht := hi.tr f hk
      cases i with
      | consolidated => simp [Conf.connected, hk] at hc
      | audioControl => trivial
      | audioSource =>
        simp [Conf.connected, hk] at hc
        exact (ht.1 hc.1).2.symm
      | audioRepair =>
        simp [Conf.connected, hk] at hc
        exact (ht.1 hc.1).1
    | decoder => cases i <;> simp [Conf.connected, hk] at hc ⊢
  · rintro ⟨h2, h3⟩
    cases hk : c.kind with
    | encoder f =>
      rw [hk] at h3
      have ht := hi.tr f hk
      cases i with
      | consolidated => exact absurd h3 id
      | audioControl => simp only [Conf.connected, hk, hi.rt, h2]; simpa [Slot.ep] using hact _ h2
      | audioSource =>
        simp only [Conf.connected, hk, ht.2 ⟨h2, h3.symm⟩]
        simpa [Slot.ep] using hact _ h2
      | audioRepair =>
        simp only [Conf.connected, hk, ht.2 ⟨h3, Or.inl h2⟩]
        simpa [Slot.ep] using hact _ h2
    | decoder =>
      rw [hk] at h3
      cases i with
      | audioControl => simp only [Conf.connected, hk, hi.rt, h2]; simpa [Slot.ep] using hact _ h2
      | consolidated => exact absurd h3 id
      | audioSource => exact absurd h3 id
      | audioRepair => exact absurd h3 id

/-- **C104 (packets out)**: the packets the user gets from an interface are packets the pipeline wrote for this interface,
in the same order, each at most once and with all its bytes. -/
theorem C104_popped (c : Conf) (es : List Ev) (n : Node) (ls : List Log) (h : c.run .init es = some (n, ls))
    (i : Iface) : (popped i ls).Sublist (wrote i ls) := by
  obtain ⟨_, gone, h1, h2, _⟩ := flow_out (run_reach h) i
  rw [h1]
  exact h2.trans (List.sublist_append_left _ _)

/-- **C104 (packets out)**: if the user always gives buffers of the maximum packet size, no packet is lost, and the next
call returns the next packet, until there is none. (Partial: see `C104_small_buffer_fails`.) -/
theorem C104_pop_partial (c : Conf) (es : List Ev) (n : Node) (ls : List Log) (h : c.run .init es = some (n, ls))
    (hb : bigBuffers c es) (hp : packetsFit c es) (f : Int) (i : Iface) (hf : ifaceFromUser f = some i) (k : Nat)
    (hk : c.maxSize ≤ k) :
    ∃ rest, wrote i ls = popped i ls ++ rest ∧ ∃ n', c.step n (.pop f (some (some k)))
      = some (n', match rest with
        | [] => .failed
        | b :: _ => .popped i b) := by
  have hr := run_reach h
  have hi := hr.inv
  obtain ⟨h0, gone, h1, h2, h3⟩ := flow_out hr i
  refine ⟨n.outq i, by rw [h3 hb hp, h1], ?_⟩
  cases hs : c.step n (.pop f (some (some k))) with
  | none =>
    obtain ⟨_, _, _, _, he, _⟩ := (step_none hi).1 hs
    simp at he
  | some x =>
    obtain ⟨m, l⟩ := x
    simp only [Conf.step, hf, Node.pop] at hs
    cases hrd : n.readers i with
    | false =>
      have hq : n.outq i = [] := by
        cases hh : n.outq i with
        | nil => rfl
        | cons b q =>
          have h4 := flow_reads hr i (by rw [h1, hh]; simp)
          have h5 := hi.rd i
          rw [hrd, h4.1, h4.2] at h5; simp at h5
      rw [hrd] at hs; simp only [if_true, Option.some.injEq, Prod.mk.injEq] at hs
      rw [hq]; exact ⟨m, by rw [hs.2]⟩
    | true =>
      rw [hrd] at hs; simp only [Bool.true_eq_false, if_false] at hs
      rcases hq : n.queue i with _ | _ | ⟨b, q⟩
      · rw [hq] at hs; simp at hs
      · rw [hq] at hs; simp only [Option.some.injEq, Prod.mk.injEq] at hs
        refine ⟨m, ?_⟩
        rw [← hs.2]; simp [Node.outq, hq]
      · rw [hq] at hs
        simp only at hs
        have h5 : Ev.produce i b ∈ es := h0 b (by rw [h1]; simp [Node.outq, hq])
        have h6 := hp i b h5
        have hk : ¬ k < b.length := by omega
        rw [if_neg hk] at hs; simp only [Option.some.injEq, Prod.mk.injEq] at hs
        refine ⟨m, ?_⟩
        rw [← hs.2]; simp [Node.outq, hq]

/-- Such a history: with Reed-Solomon, three packets are written, two of them are taken. -/
example : ((⟨fun _ => true, .encoder .rs8m, 4, true⟩ : Conf).run .init
      [.activate 11 30 rich, .activate 12 31 rich, .produce .audioSource [1, 2], .produce .audioRepair [7, 7, 7],
        .produce .audioSource [3], .pop 11 (some (some 4)), .pop 12 (some (some 4))]).map (·.2)
    = some [.activated .audioSource .rtpRs8mSource, .activated .audioRepair .rs8mRepair, .wrote .audioSource [1, 2],
        .wrote .audioRepair [7, 7, 7], .wrote .audioSource [3], .popped .audioSource [1, 2],
        .popped .audioRepair [7, 7, 7]] := by
  decide +kernel

/-- **C104 fails** for a buffer that is too small: the call returns an error, but the packet is gone: the next call, with
a buffer of any size, returns the packet after it. -/
theorem C104_small_buffer_fails (c : Conf) (es : List Ev) (n : Node) (ls : List Log)
    (h : c.run .init es = some (n, ls)) (hb : bigBuffers c es) (hp : packetsFit c es) (f : Int) (i : Iface)
    (hf : ifaceFromUser f = some i) (b b' : Bytes) (rest : List Bytes) (hw : wrote i ls = popped i ls ++ b :: b' :: rest)
    (k k' : Nat) (hk : k < b.length) (hk' : c.maxSize ≤ k') :
    ∃ n', c.run n [.pop f (some (some k)), .pop f (some (some k'))] = some (n', [.failed, .popped i b']) := by
  have hr := run_reach h
  have hi := hr.inv
  obtain ⟨h0, gone, h1, h2, h3⟩ := flow_out hr i
  rw [h3 hb hp, h1] at hw
  have ho : n.outq i = b :: b' :: rest := List.append_cancel_left hw
  have h4 := flow_reads hr i (by rw [h1, ho]; simp)
  have hrd := hi.rd i
  rw [h4.1, h4.2] at hrd
  have hq : n.queue i = some (b :: b' :: rest) := by
    cases hh : n.queue i with
    | none => simp [Node.outq, hh] at ho
    | some q => simp only [Node.outq, hh, Option.getD_some] at ho; rw [ho]
  have h6 := hp i b' (h0 b' (by rw [h1, ho]; simp))
  have hk2 : ¬ k' < b'.length := by omega
  refine ⟨{ n with queue := upd (upd n.queue i (some (b' :: rest))) i (some rest) }, ?_⟩
  simp [Conf.run, Conf.step, hf, Node.pop, hrd, hq, hk, upd, hk2]

/-- Such a case: three bytes do not fit in two, the packet `[1, 2, 3]` is never seen. -/
example : (plain.run .init [.activate 11 20 rich, .produce .audioSource [1, 2, 3], .produce .audioSource [4],
      .pop 11 (some (some 2)), .pop 11 (some (some 2048)), .pop 11 (some (some 2048))]).map (·.2)
    = some [.activated .audioSource .rtp, .wrote .audioSource [1, 2, 3], .wrote .audioSource [4], .failed,
        .popped .audioSource [4], .failed] := by
  decide +kernel

/-- **C104 (packets in)**: what `push` accepts: non-empty packets up to the maximum size for an activated interface (of an
encoder only the control interface), if a packet can be allocated. Otherwise it returns an error and changes nothing. -/
theorem C104_push (c : Conf) (es : List Ev) (n : Node) (ls : List Log) (h : c.run .init es = some (n, ls))
    (f : Int) (pkt : Option (Option Bytes)) (al : Bool) :
    (∀ i b, (∃ n', c.step n (.push f pkt al) = some (n', .pushed i b)) ↔
      (ifaceFromUser f = some i ∧ pkt = some (some b) ∧ b ≠ [] ∧ b.length ≤ c.maxSize ∧ al = true
        ∧ active ls i = true ∧ (i = .audioControl ∨ c.kind = .decoder)))
      ∧ ((∀ n' i b, c.step n (.push f pkt al) ≠ some (n', .pushed i b)) →
          c.step n (.push f pkt al) = some (n, .failed)) := by
  have hi := (run_reach h).inv
  have hwr : ∀ i, n.writers i = true ↔ active ls i = true ∧ (i = .audioControl ∨ c.kind = .decoder) := by
    intro i
    rw [hi.wr]
    cases hk : c.kind <;> cases active ls i <;> simp [writes, hk]
  simp only [Conf.step]
  cases hf : ifaceFromUser f with
  | none => simp
  | some j =>
    rcases pkt with _ | _ | b
    · simp
    · simp
    · simp only [Node.push, Option.some.injEq]
      by_cases h1 : b.length = 0
      · rw [if_pos h1]
        have : b = [] := List.length_eq_zero_iff.1 h1
        subst this
        simp
      · have h1' : b ≠ [] := fun h => h1 (by rw [h]; rfl)
        rw [if_neg h1]
        cases al with
        | false => simp
        | true =>
          simp only [Bool.true_eq_false, if_false]
          by_cases h2 : c.maxSize < b.length
          · rw [if_pos h2]
            simp only [Prod.mk.injEq, reduceCtorEq, and_false, exists_false, false_iff,
              implies_true, and_true]
            rintro i b' ⟨rfl, rfl, _, h3, _⟩
            omega
          · rw [if_neg h2]
            cases hw : n.writers j with
            | false =>
              simp only [if_true, Prod.mk.injEq, reduceCtorEq, and_false, exists_false, false_iff,
                implies_true, and_true]
              rintro i b' ⟨rfl, rfl, _, _, _, h3⟩
              have := (hwr j).2 h3
              rw [hw] at this; simp at this
            | true =>
              simp only [Bool.true_eq_false, if_false, Prod.mk.injEq]
              refine ⟨fun i b' => ⟨?_, ?_⟩, fun h3 => absurd rfl (h3 _ j b)⟩
              · rintro ⟨n', _, h3⟩
                simp only [Log.pushed.injEq] at h3
                obtain ⟨rfl, rfl⟩ := h3
                simp only [true_and]; exact ⟨h1', by omega, (hwr j).1 hw⟩
              · rintro ⟨rfl, rfl, _⟩
                exact ⟨_, rfl, rfl⟩

/-- **C104 (packets in)**: the pipeline gets exactly the accepted packets of each interface, in the same order: those it
has taken are the first ones. -/
theorem C104_pushed (c : Conf) (es : List Ev) (n : Node) (ls : List Log) (h : c.run .init es = some (n, ls))
    (i : Iface) :
    ∃ rest, pushed i ls = took i ls ++ rest ∧ ∃ n', c.step n (.consume i)
      = some (n', match rest with
        | [] => .nothing
        | b :: _ => .took i b) := by
  refine ⟨n.inbound i, flow_in (run_reach h) i, ?_⟩
  simp only [Conf.step]
  cases n.inbound i with
  | nil => exact ⟨_, rfl⟩
  | cons b q => exact ⟨_, rfl⟩

/-- A decoder takes packets on the source interface, an encoder does not. -/
example : ((⟨fun _ => true, .decoder, 4, true⟩ : Conf).run .init
      [.activate 11 20 rich, .push 11 (some (some [1, 2])) true, .push 11 (some (some [1, 2, 3, 4, 5])) true,
        .push 11 (some (some [])) true, .push 12 (some (some [1])) true, .push 11 (some (some [3])) true,
        .consume .audioSource]).map (·.2)
    = some [.activated .audioSource .rtp, .pushed .audioSource [1, 2], .failed, .failed, .failed,
        .pushed .audioSource [3], .took .audioSource [1, 2]]
    ∧ (plain.run .init [.activate 11 20 rich, .push 11 (some (some [1])) true]).map (·.2)
      = some [.activated .audioSource .rtp, .failed] := by
  decide +kernel

/-- **C104 (frames)**: a frame is refused if it is null, or not empty and either not of whole samples of all channels or
without memory; an empty frame is accepted and ignored; all other frames are given to the pipeline with all their
samples. -/
theorem C104_frame (channels : Nat) (fr : Option (Bool × Nat)) (eof : Bool) :
    ((frame channels fr eof).2 = none ↔
        fr = none ∨ ∃ m size, fr = some (m, size) ∧ (size = 0 ∨ ¬ channels * 4 ∣ size ∨ m = false))
      ∧ (∀ k, (frame channels fr eof).2 = some k → ∃ j, k = channels * j ∧ 0 < j ∧ fr = some (true, 4 * (channels * j)))
      ∧ ((frame channels fr eof).1 = 0 ↔ (∃ m, fr = some (m, 0)) ∨ ((frame channels fr eof).2 ≠ none ∧ eof = false))
      ∧ ((frame channels fr eof).1 = 0 ∨ (frame channels fr eof).1 = -1) := by
  rcases fr with _ | ⟨m, size⟩
  · simp [frame]
  · simp only [frame]
    by_cases h0 : size = 0
    · simp [h0]
    · rw [if_neg h0]
      by_cases h1 : size % (channels * 4) ≠ 0
      · rw [if_pos h1]
        have hd : ¬ channels * 4 ∣ size := fun h => h1 (Nat.mod_eq_zero_of_dvd h)
        simp [h0, hd]
      · rw [if_neg h1]
        have hd : channels * 4 ∣ size := Nat.dvd_of_mod_eq_zero (by simpa using h1)
        cases m with
        | false => simp [h0]
        | true =>
          simp only [Bool.true_eq_false, if_false]
          refine ⟨by simp [h0, hd], ?_, ?_, ?_⟩
          · intro k hk
            obtain ⟨j, rfl⟩ := hd
            have hk' : channels * 4 * j / 4 = k := by simpa using hk
            have h5 : channels * 4 * j = 4 * (channels * j) := by
              rw [Nat.mul_comm channels 4, Nat.mul_assoc]
            rw [h5, Nat.mul_div_cancel_left _ (by omega)] at hk'
            refine ⟨j, hk'.symm, ?_, by rw [h5]⟩
            rcases Nat.eq_zero_or_pos j with h6 | h6
            · subst h6; simp at h0
            · exact h6
          · cases eof <;> simp [h0]
          · cases eof <;> simp

/-- Stereo: 16 bytes are four samples; 12 bytes are refused. -/
example : frame 2 (some (true, 16)) false = (0, some 4) ∧ frame 2 (some (true, 12)) false = (-1, none)
    ∧ frame 2 (some (true, 16)) true = (-1, some 4) ∧ frame 2 (some (false, 0)) false = (0, none) := by decide

end Verif.EncoderApi
