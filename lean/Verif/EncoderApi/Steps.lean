import Verif.EncoderApi.Inv

/-! # Encoder and decoder: steps -/

namespace Verif.EncoderApi

open ApiConfig (Iface Proto Fec ifaceFromUser protoFromUser)

theorem Inv.active_attempted {c : Conf} {es : List Ev} {ls : List Log} {n : Node} (h : Inv c es ls n) {i : Iface}
    (ha : active ls i = true) : attempted es i = true := by
  obtain ⟨q, hq⟩ := active_iff.1 ha
  exact h.epA i (by rw [h.logEp i q hq]; rfl)

theorem Inv.ep_none {c : Conf} {es : List Ev} {ls : List Log} {n : Node} (h : Inv c es ls n) {i : Iface}
    (hat : attempted es i = false) : n.slot.ep i = none := by
  cases hh : n.slot.ep i with
  | none => rfl
  | some q =>
    have := h.epA i (by rw [hh]; rfl)
    rw [hat] at this; simp at this

theorem Inv.rw_active {c : Conf} {es : List Ev} {ls : List Log} {n : Node} (h : Inv c es ls n) (i : Iface) :
    (n.readers i || n.writers i) = active ls i := by
  rw [h.rd, h.wr]
  obtain ⟨_, k, _, _⟩ := c
  cases k <;> cases active ls i <;> simp [reads, writes]

/-- `activate` of an active interface. -/
theorem activate_active {c : Conf} {es : List Ev} {ls : List Log} {n : Node} (h : Inv c es ls n) {i : Iface} {p : Proto}
    {e : Env} (ha : active ls i = true) : c.activate n i p e = some (n, false) := by
  unfold Conf.activate
  rw [h.rw_active, ha]; rfl

/-- `activate` after a failure. -/
theorem activate_retry {c : Conf} {es : List Ev} {ls : List Log} {n : Node} (h : Inv c es ls n) {i : Iface} {p : Proto}
    {e : Env} (hat : attempted es i = true) (ha : active ls i = false) : c.activate n i p e = none := by
  unfold Conf.activate
  rw [h.rw_active, ha, h.q, hat]; rfl

theorem isSome_upd {q : Iface → Option (List Bytes)} {i j : Iface} {x : List Bytes} :
    (upd q i (some x) j).isSome = (decide (j = i) || (q j).isSome) := by
  unfold upd
  by_cases h : j = i <;> simp [h]

/-- First `activate`. -/
theorem activate_first {c : Conf} {es : List Ev} {ls : List Log} {n : Node} (h : Inv c es ls n) {i : Iface} {p : Proto}
    {e : Env} {ev : Ev} (hat : attempted es i = false) (he : ∀ j, attempted [ev] j = decide (i = j)) :
    ∃ n', n'.inbound = n.inbound ∧ n'.queue = upd n.queue i (some [])
      ∧ ((c.activate n i p e = some (n', false) ∧ Inv c (es ++ [ev]) (ls ++ [.failed]) n'
            ∧ ¬ (slotOk c n.slot i p = true ∧ e = ⟨true, true⟩ ∧ (c.monitor = true ∨ c.kind = .decoder)))
        ∨ (c.activate n i p e = some (n', true) ∧ Inv c (es ++ [ev]) (ls ++ [.activated i p]) n'
            ∧ slotOk c n.slot i p = true)
        ∨ (c.activate n i p e = none ∧ n.slot.broken = true ∧ i = .audioControl ∧ p = .rtcp ∧ e = ⟨true, true⟩)) := by
  have hna : active ls i = false := by
    cases hh : active ls i with
    | false => rfl
    | true => have := h.active_attempted hh; rw [hat] at this; simp at this
  have hrw := h.rw_active i
  rw [hna] at hrw
  have hrd : n.readers i = false := by cases hh : n.readers i <;> simp [hh] at hrw ⊢
  have hwr : n.writers i = false := by cases hh : n.writers i <;> simp [hh] at hrw ⊢
  have hq := h.q i
  rw [hat] at hq
  unfold Conf.activate
  rw [hrw, hq]
  simp only [Bool.false_eq_true, if_false]
  rcases add_cases (e := e) (p := p) h.slot (h.ep_none hat) with
    ⟨s', h0, h1, h2, h3, h4, h5, h6, h7, h8⟩ | ⟨s', h0, h1, h2, h3, h4, h5, h6, h7, h8⟩ | ⟨h0, h1⟩
  · rw [h0]
    refine ⟨{ n with slot := s', queue := upd n.queue i (some []) }, rfl, rfl, Or.inl ⟨rfl, ?_, h6⟩⟩
    exact h.failure he hat h1 h2 h3 h4 h5 h7 h8 rfl rfl rfl (fun j => isSome_upd)
  · rw [h0]
    cases hk : c.kind with
    | encoder f =>
      refine ⟨_, ?_, ?_, Or.inr (Or.inl ⟨rfl, ?_, h4⟩)⟩
      · rfl
      · rfl
      refine h.success he hat h1 h2 h3 h4 h6 h7 h8 rfl ?_ ?_ (fun j => isSome_upd)
      · intro j; simp [upd, reads, hk]
      · intro j
        by_cases hi : i = .audioControl
        · have hp : p = .rtcp := by
            simp only [slotOk, hk] at h4
            subst hi
            cases p <;> simp [encOk, fits] at h4 ⊢
          simp [upd, writes, hk, hi, hp]
        · by_cases hj : j = i
          · subst hj; simp [writes, hk, hi, hwr]
          · simp [writes, hk, hi, hj]
    | decoder =>
      refine ⟨_, ?_, ?_, Or.inr (Or.inl ⟨rfl, ?_, h4⟩)⟩
      · rfl
      · rfl
      refine h.success he hat h1 h2 h3 h4 h6 h7 h8 rfl ?_ ?_ (fun j => isSome_upd)
      · intro j
        by_cases hi : i = .audioControl
        · simp [upd, reads, hk, hi]
        · by_cases hj : j = i
          · subst hj; simp [reads, hk, hi, hrd]
          · simp [reads, hk, hi, hj]
      · intro j; simp [upd, writes, hk]
  · rw [h0]
    exact ⟨{ n with queue := upd n.queue i (some []) }, rfl, rfl, Or.inr (Or.inr ⟨rfl, h1⟩)⟩

/-- `activate` of the control interface of an encoder that has an invalid monitor. -/
theorem activate_broken {c : Conf} {es : List Ev} {ls : List Log} {n : Node} (h : Inv c es ls n)
    (hat : attempted es .audioControl = false) (hb : n.slot.broken = true) (hk : c.kind ≠ .decoder) :
    c.activate n .audioControl .rtcp ⟨true, true⟩ = none := by
  have hna : active ls .audioControl = false := by
    cases hh : active ls .audioControl with
    | false => rfl
    | true => have := h.active_attempted hh; rw [hat] at this; simp at this
  have hen := h.ep_none hat
  have hsl := h.slot
  have hrt := h.rt
  rw [hna] at hrt
  unfold Conf.activate
  rw [h.rw_active, hna, h.q, hat]
  cases hd : c.kind with
  | decoder => exact absurd hd hk
  | encoder f =>
    simp only [SlotInv, hd] at hsl
    simp [Conf.add, hd, senderAdd_eq hsl hen, encOk, encFinish, Slot.set, senderControl, hrt, hb]

theorem attempted_one {f p : Int} {e : Env} {i j : Iface} {q : Proto} (hf : ifaceFromUser f = some i)
    (hp : protoFromUser p = some q) : attempted [Ev.activate f p e] j = decide (i = j) := by
  simp [attempted, hf, hp]

theorem attempted_none {f p : Int} {e : Env} {j : Iface} (h : ifaceFromUser f = none ∨ protoFromUser p = none) :
    attempted [Ev.activate f p e] j = false := by
  rcases h with h | h <;> simp [attempted, h]

/-- A connected endpoint has a queue. -/
theorem Inv.connected_queue {c : Conf} {es : List Ev} {ls : List Log} {n : Node} (h : Inv c es ls n) {i : Iface}
    (hc : c.connected n.slot i = true) : (n.queue i).isSome = true := by
  rw [h.q]
  apply h.epA
  obtain ⟨_, k, _, _⟩ := c
  cases k <;> cases i <;> simp_all [Conf.connected, Slot.ep]

theorem step_inv {c : Conf} {es : List Ev} {ls : List Log} {n n' : Node} {e : Ev} {l : Log} (h : Inv c es ls n)
    (hs : c.step n e = some (n', l)) : Inv c (es ++ [e]) (ls ++ [l]) n' := by
  cases e with
  | activate f p env =>
    simp only [Conf.step] at hs
    cases hf : ifaceFromUser f with
    | none =>
      rw [hf] at hs; simp only [Option.some.injEq, Prod.mk.injEq] at hs
      obtain ⟨rfl, rfl⟩ := hs
      exact h.mono (fun i => attempted_none (Or.inl hf)) (by simp) rfl rfl rfl (fun _ => rfl)
    | some i =>
      rw [hf] at hs
      cases hp : protoFromUser p with
      | none =>
        rw [hp] at hs; simp only [Option.some.injEq, Prod.mk.injEq] at hs
        obtain ⟨rfl, rfl⟩ := hs
        exact h.mono (fun i => attempted_none (Or.inr hp)) (by simp) rfl rfl rfl (fun _ => rfl)
      | some q =>
        rw [hp] at hs
        simp only at hs
        cases hat : attempted es i with
        | false =>
          obtain ⟨m, _, _, ⟨ha, hi, _⟩ | ⟨ha, hi, _⟩ | ⟨ha, hb⟩⟩ :=
            activate_first (e := env) (p := q) (ev := .activate f p env) h hat (fun j => attempted_one hf hp)
          · rw [ha] at hs; simp only [Option.some.injEq, Prod.mk.injEq] at hs
            obtain ⟨rfl, rfl⟩ := hs
            exact hi
          · rw [ha] at hs; simp only [Option.some.injEq, Prod.mk.injEq] at hs
            obtain ⟨rfl, rfl⟩ := hs
            exact hi
          · rw [ha] at hs; simp at hs
        | true =>
          cases hac : active ls i with
          | false => rw [activate_retry h hat hac] at hs; simp at hs
          | true =>
            rw [activate_active h hac] at hs; simp only [Option.some.injEq, Prod.mk.injEq] at hs
            obtain ⟨rfl, rfl⟩ := hs
            constructor
            · intro j
              rw [attempted_append, attempted_one hf hp, h.q]
              by_cases hij : i = j
              · subst hij; simp [hat]
              · simp [hij]
            · intro j; rw [active_append]; simpa [active] using h.rd j
            · intro j; rw [active_append]; simpa [active] using h.wr j
            · exact h.slot
            · intro j hj; rw [attempted_append, h.epA j hj]; rfl
            · intro j q' hj; exact h.logEp j q' (by simpa using hj)
            · intro hd j q' hj; simpa using h.dec hd j q' hj
            · rw [active_append]; simpa [active] using h.rt
            · intro g hg; rw [active_append, active_append]; simpa [active] using h.tr g hg
            · intro g hg; rw [active_append, active_append]; simpa [active] using h.half g hg
  | produce i b =>
    simp only [Conf.step] at hs
    cases hc : c.connected n.slot i with
    | false =>
      rw [hc] at hs; simp only [Bool.false_eq_true, if_false, Option.some.injEq, Prod.mk.injEq] at hs
      obtain ⟨rfl, rfl⟩ := hs
      exact h.mono (fun _ => rfl) (by simp) rfl rfl rfl (fun _ => rfl)
    | true =>
      rw [hc] at hs
      simp only [if_true] at hs
      cases hq : n.queue i with
      | none => rw [hq] at hs; simp at hs
      | some q =>
        rw [hq] at hs; simp only [Option.some.injEq, Prod.mk.injEq] at hs
        obtain ⟨rfl, rfl⟩ := hs
        refine h.mono (fun _ => rfl) (by simp) rfl rfl rfl (fun j => ?_)
        simp only [upd]
        by_cases hj : j = i
        · subst hj; simp [hq]
        · simp [hj]
  | consume i =>
    simp only [Conf.step] at hs
    cases hq : n.inbound i with
    | nil =>
      rw [hq] at hs; simp only [Option.some.injEq, Prod.mk.injEq] at hs
      obtain ⟨rfl, rfl⟩ := hs
      exact h.mono (fun _ => rfl) (by simp) rfl rfl rfl (fun _ => rfl)
    | cons b q =>
      rw [hq] at hs; simp only [Option.some.injEq, Prod.mk.injEq] at hs
      obtain ⟨rfl, rfl⟩ := hs
      exact h.mono (fun _ => rfl) (by simp) rfl rfl rfl (fun _ => rfl)
  | pop f buf =>
    have key : ∀ {i : Iface} {k : Nat}, n.pop i k = some (n', l) → Inv c (es ++ [Ev.pop f buf]) (ls ++ [l]) n' := by
      intro i k hs
      unfold Node.pop at hs
      cases hr : n.readers i with
      | false =>
        rw [hr] at hs; simp only [if_true, Option.some.injEq, Prod.mk.injEq] at hs
        obtain ⟨rfl, rfl⟩ := hs
        exact h.mono (fun _ => rfl) (by simp) rfl rfl rfl (fun _ => rfl)
      | true =>
        rw [hr] at hs; simp only [Bool.true_eq_false, if_false] at hs
        rcases hq : n.queue i with _ | _ | ⟨b, q⟩
        · rw [hq] at hs; simp at hs
        · rw [hq] at hs; simp only [Option.some.injEq, Prod.mk.injEq] at hs
          obtain ⟨rfl, rfl⟩ := hs
          exact h.mono (fun _ => rfl) (by simp) rfl rfl rfl (fun _ => rfl)
        · rw [hq] at hs
          simp only at hs
          have hqq : ∀ j, (upd n.queue i (some q) j).isSome = (n.queue j).isSome := by
            intro j
            simp only [upd]
            by_cases hj : j = i
            · subst hj; simp [hq]
            · simp [hj]
          by_cases hk : k < b.length
          · rw [if_pos hk] at hs; simp only [Option.some.injEq, Prod.mk.injEq] at hs
            obtain ⟨rfl, rfl⟩ := hs
            exact h.mono (fun _ => rfl) (by simp) rfl rfl rfl hqq
          · rw [if_neg hk] at hs; simp only [Option.some.injEq, Prod.mk.injEq] at hs
            obtain ⟨rfl, rfl⟩ := hs
            exact h.mono (fun _ => rfl) (by simp) rfl rfl rfl hqq
    simp only [Conf.step] at hs
    cases hf : ifaceFromUser f with
    | none =>
      rw [hf] at hs; simp only [Option.some.injEq, Prod.mk.injEq] at hs
      obtain ⟨rfl, rfl⟩ := hs
      exact h.mono (fun _ => rfl) (by simp) rfl rfl rfl (fun _ => rfl)
    | some i =>
      rw [hf] at hs
      rcases buf with _ | _ | k
      · simp only [Option.some.injEq, Prod.mk.injEq] at hs
        obtain ⟨rfl, rfl⟩ := hs
        exact h.mono (fun _ => rfl) (by simp) rfl rfl rfl (fun _ => rfl)
      · simp only [Option.some.injEq, Prod.mk.injEq] at hs
        obtain ⟨rfl, rfl⟩ := hs
        exact h.mono (fun _ => rfl) (by simp) rfl rfl rfl (fun _ => rfl)
      · exact key hs
  | push f pkt al =>
    have key : ∀ {i : Iface} {b : Bytes}, n.push c i b al = (n', l) → Inv c (es ++ [Ev.push f pkt al]) (ls ++ [l]) n' := by
      intro i b hs
      unfold Node.push at hs
      split at hs
      · simp only [Prod.mk.injEq] at hs; obtain ⟨rfl, rfl⟩ := hs
        exact h.mono (fun _ => rfl) (by simp) rfl rfl rfl (fun _ => rfl)
      · split at hs
        · simp only [Prod.mk.injEq] at hs; obtain ⟨rfl, rfl⟩ := hs
          exact h.mono (fun _ => rfl) (by simp) rfl rfl rfl (fun _ => rfl)
        · split at hs
          · simp only [Prod.mk.injEq] at hs; obtain ⟨rfl, rfl⟩ := hs
            exact h.mono (fun _ => rfl) (by simp) rfl rfl rfl (fun _ => rfl)
          · split at hs
            · simp only [Prod.mk.injEq] at hs; obtain ⟨rfl, rfl⟩ := hs
              exact h.mono (fun _ => rfl) (by simp) rfl rfl rfl (fun _ => rfl)
            · simp only [Prod.mk.injEq] at hs; obtain ⟨rfl, rfl⟩ := hs
              exact h.mono (fun _ => rfl) (by simp) rfl rfl rfl (fun _ => rfl)
    simp only [Conf.step] at hs
    cases hf : ifaceFromUser f with
    | none =>
      rw [hf] at hs; simp only [Option.some.injEq, Prod.mk.injEq] at hs
      obtain ⟨rfl, rfl⟩ := hs
      exact h.mono (fun _ => rfl) (by simp) rfl rfl rfl (fun _ => rfl)
    | some i =>
      rw [hf] at hs
      rcases pkt with _ | _ | b
      · simp only [Option.some.injEq, Prod.mk.injEq] at hs
        obtain ⟨rfl, rfl⟩ := hs
        exact h.mono (fun _ => rfl) (by simp) rfl rfl rfl (fun _ => rfl)
      · simp only [Option.some.injEq, Prod.mk.injEq] at hs
        obtain ⟨rfl, rfl⟩ := hs
        exact h.mono (fun _ => rfl) (by simp) rfl rfl rfl (fun _ => rfl)
      · exact key (Option.some.inj hs)

/-- When an event aborts. -/
theorem step_none {c : Conf} {es : List Ev} {ls : List Log} {n : Node} {e : Ev} (h : Inv c es ls n) :
    c.step n e = none ↔ ∃ f p env i, e = .activate f p env ∧ ifaceFromUser f = some i
      ∧ (protoFromUser p).isSome = true ∧ ((attempted es i = true ∧ active ls i = false)
        ∨ (attempted es i = false ∧ n.slot.broken = true ∧ i = .audioControl ∧ protoFromUser p = some .rtcp
          ∧ env = ⟨true, true⟩ ∧ c.kind ≠ .decoder)) := by
  constructor
  · intro hs
    cases e with
    | activate f p env =>
      simp only [Conf.step] at hs
      cases hf : ifaceFromUser f with
      | none => rw [hf] at hs; simp at hs
      | some i =>
        rw [hf] at hs
        cases hp : protoFromUser p with
        | none => rw [hp] at hs; simp at hs
        | some q =>
          rw [hp] at hs
          simp only at hs
          refine ⟨f, p, env, i, rfl, hf, by rw [hp]; rfl, ?_⟩
          cases hat : attempted es i with
          | false =>
            obtain ⟨m, _, _, ⟨ha, hi, _⟩ | ⟨ha, hi, _⟩ | ⟨ha, hb⟩⟩ :=
              activate_first (e := env) (p := q) (ev := .activate f p env) h hat (fun j => attempted_one hf hp)
            · rw [ha] at hs; simp at hs
            · rw [ha] at hs; simp at hs
            · obtain ⟨h1, rfl, rfl, rfl⟩ := hb
              refine Or.inr ⟨rfl, h1, rfl, hp, rfl, fun hd => ?_⟩
              have hen := h.ep_none hat
              have hsl := h.slot
              simp only [SlotInv, hd] at hsl
              have hna : active ls .audioControl = false := by
                cases hh : active ls .audioControl with
                | false => rfl
                | true => have := h.active_attempted hh; rw [hat] at this; simp at this
              have hadd : c.add ⟨true, true⟩ n.slot .audioControl .rtcp
                  = .ok { n.slot with control := some .rtcp, rtcp := true } := by
                simp [Conf.add, hd, receiverAdd_eq hsl hen, decOk, decFinish]
              simp [Conf.activate, h.rw_active, hna, h.q, hat, hadd] at ha
          | true =>
            cases hac : active ls i with
            | false => exact Or.inl ⟨rfl, rfl⟩
            | true => rw [activate_active h hac] at hs; simp at hs
    | produce i b =>
      simp only [Conf.step] at hs
      cases hc : c.connected n.slot i with
      | false => rw [hc] at hs; simp at hs
      | true =>
        have := h.connected_queue hc
        rw [hc] at hs
        simp only [if_true] at hs
        cases hq : n.queue i with
        | none => rw [hq] at this; simp at this
        | some q => rw [hq] at hs; simp at hs
    | consume i =>
      simp only [Conf.step] at hs
      cases hq : n.inbound i <;> rw [hq] at hs <;> simp at hs
    | pop f buf =>
      simp only [Conf.step] at hs
      cases hf : ifaceFromUser f with
      | none => rw [hf] at hs; simp at hs
      | some i =>
        rw [hf] at hs
        rcases buf with _ | _ | k
        · simp at hs
        · simp at hs
        · simp only [Node.pop] at hs
          cases hr : n.readers i with
          | false => rw [hr] at hs; simp at hs
          | true =>
            have h1 := h.rd i
            rw [hr] at h1
            have h2 : active ls i = true := by
              cases hh : active ls i with
              | true => rfl
              | false => rw [hh] at h1; simp at h1
            have h3 := h.q i
            rw [h.active_attempted h2] at h3
            rcases hq : n.queue i with _ | _ | ⟨b, q⟩
            · rw [hq] at h3; simp at h3
            · rw [hr, hq] at hs; simp at hs
            · rw [hr, hq] at hs; simp only [Bool.true_eq_false, if_false] at hs
              split at hs <;> simp at hs
    | push f pkt al =>
      simp only [Conf.step] at hs
      cases hf : ifaceFromUser f with
      | none => rw [hf] at hs; simp at hs
      | some i =>
        rw [hf] at hs
        rcases pkt with _ | _ | b <;> simp at hs
  · rintro ⟨f, p, env, i, rfl, hf, hp, ⟨hat, hac⟩ | ⟨hat, hb, rfl, hp', rfl, hk⟩⟩
    · cases hp' : protoFromUser p with
      | none => rw [hp'] at hp; simp at hp
      | some q => simp only [Conf.step, hf, hp', activate_retry h hat hac]
    · simp only [Conf.step, hf, hp']
      rw [activate_broken h hat hb hk]

/-- A step after a history. -/
inductive Reach (c : Conf) : List Ev → List Log → Node → Prop
  | nil : Reach c [] [] .init
  | snoc {es ls n e n' l} : Reach c es ls n → c.step n e = some (n', l) → Reach c (es ++ [e]) (ls ++ [l]) n'

theorem Reach.inv {c : Conf} {es : List Ev} {ls : List Log} {n : Node} (h : Reach c es ls n) : Inv c es ls n := by
  induction h with
  | nil => exact .init c
  | snoc _ hs ih => exact step_inv ih hs

theorem reach_run {c : Conf} {es es' : List Ev} {ls ls' : List Log} {n n' : Node} (h : Reach c es ls n)
    (hr : c.run n es' = some (n', ls')) : Reach c (es ++ es') (ls ++ ls') n' := by
  induction es' generalizing es ls ls' n with
  | nil =>
    simp only [Conf.run, Option.some.injEq, Prod.mk.injEq] at hr
    obtain ⟨rfl, rfl⟩ := hr
    simpa using h
  | cons e es' ih =>
    simp only [Conf.run] at hr
    cases hs : c.step n e with
    | none => rw [hs] at hr; simp at hr
    | some x =>
      obtain ⟨m, l⟩ := x
      rw [hs] at hr
      simp only at hr
      cases hr' : c.run m es' with
      | none => rw [hr'] at hr; simp at hr
      | some y =>
        obtain ⟨m', ls''⟩ := y
        rw [hr'] at hr; simp only [Option.some.injEq, Prod.mk.injEq] at hr
        obtain ⟨rfl, rfl⟩ := hr
        have := ih (h.snoc hs) hr'
        simpa using this

theorem run_reach {c : Conf} {es : List Ev} {ls : List Log} {n : Node} (h : c.run .init es = some (n, ls)) :
    Reach c es ls n := by
  simpa using reach_run .nil h

theorem run_append {c : Conf} {es es' : List Ev} {n : Node} :
    c.run n (es ++ es') = match c.run n es with
      | none => none
      | some (m, ls) => match c.run m es' with
        | none => none
        | some (m', ls') => some (m', ls ++ ls') := by
  induction es generalizing n with
  | nil => simp only [List.nil_append, Conf.run]; cases c.run n es' with
    | none => rfl
    | some x => rfl
  | cons e es ih =>
    simp only [List.cons_append, Conf.run]
    cases c.step n e with
    | none => rfl
    | some x =>
      obtain ⟨m, l⟩ := x
      simp only [ih]
      cases c.run m es with
      | none => rfl
      | some y =>
        obtain ⟨m', ls⟩ := y
        simp only
        cases c.run m' es' with
        | none => rfl
        | some z => rfl

end Verif.EncoderApi
