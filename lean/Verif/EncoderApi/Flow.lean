import Verif.EncoderApi.Steps

/-! # Encoder and decoder: packets -/

namespace Verif.EncoderApi

open ApiConfig (Iface Proto Fec ifaceFromUser protoFromUser)

/-- Packets in the outbound queue. -/
def Node.outq (n : Node) (i : Iface) : List Bytes := (n.queue i).getD []

/-- What an event does to the queues of an interface. -/
structure Effect (n n' : Node) (e : Ev) (l : Log) (i : Iface) : Prop where
  out : (n'.outq i = n.outq i ∧ wrote i [l] = [] ∧ popped i [l] = [])
    ∨ (∃ b, e = .produce i b ∧ wrote i [l] = [b] ∧ popped i [l] = [] ∧ n'.outq i = n.outq i ++ [b])
    ∨ (∃ b f k, e = .pop f (some (some k)) ∧ ifaceFromUser f = some i ∧ n.outq i = b :: n'.outq i ∧ wrote i [l] = []
        ∧ popped i [l] = if k < b.length then [] else [b])
  inb : (n'.inbound i = n.inbound i ∧ pushed i [l] = [] ∧ took i [l] = [])
    ∨ (∃ b, n'.inbound i = n.inbound i ++ [b] ∧ pushed i [l] = [b] ∧ took i [l] = [])
    ∨ (∃ b, n.inbound i = b :: n'.inbound i ∧ pushed i [l] = [] ∧ took i [l] = [b])

theorem Effect.same {n : Node} {e : Ev} {l : Log} {i : Iface} (hl : l = .failed ∨ l = .nothing) : Effect n n e l i := by
  rcases hl with rfl | rfl <;> exact ⟨Or.inl ⟨rfl, rfl, rfl⟩, Or.inl ⟨rfl, rfl, rfl⟩⟩

theorem step_effect {c : Conf} {es : List Ev} {ls : List Log} {n n' : Node} {e : Ev} {l : Log} (h : Inv c es ls n)
    (hs : c.step n e = some (n', l)) (i : Iface) : Effect n n' e l i := by
  cases e with
  | activate f p env =>
    simp only [Conf.step] at hs
    cases hf : ifaceFromUser f with
    | none =>
      rw [hf] at hs; simp only [Option.some.injEq, Prod.mk.injEq] at hs
      obtain ⟨rfl, rfl⟩ := hs
      exact .same (Or.inl rfl)
    | some j =>
      rw [hf] at hs
      cases hp : protoFromUser p with
      | none =>
        rw [hp] at hs; simp only [Option.some.injEq, Prod.mk.injEq] at hs
        obtain ⟨rfl, rfl⟩ := hs
        exact .same (Or.inl rfl)
      | some q =>
        rw [hp] at hs
        simp only at hs
        cases hat : attempted es j with
        | false =>
          have hqn := h.q j
          rw [hat] at hqn
          have hqn' : n.queue j = none := by
            cases hh : n.queue j with
            | none => rfl
            | some x => rw [hh] at hqn; simp at hqn
          obtain ⟨m, hin, hqu, hc⟩ :=
            activate_first (e := env) (p := q) (ev := .activate f p env) h hat (fun j => attempted_one hf hp)
          have ho : m.outq i = n.outq i := by
            simp only [Node.outq, hqu, upd]
            by_cases hij : i = j
            · subst hij; simp [hqn']
            · simp [hij]
          rcases hc with ⟨ha, _, _⟩ | ⟨ha, _, _⟩ | ⟨ha, _⟩
          · rw [ha] at hs; simp only [Option.some.injEq, Prod.mk.injEq] at hs
            obtain ⟨rfl, rfl⟩ := hs
            exact ⟨Or.inl ⟨ho, rfl, rfl⟩, Or.inl ⟨by rw [hin], rfl, rfl⟩⟩
          · rw [ha] at hs; simp only [Option.some.injEq, Prod.mk.injEq] at hs
            obtain ⟨rfl, rfl⟩ := hs
            exact ⟨Or.inl ⟨ho, rfl, rfl⟩, Or.inl ⟨by rw [hin], rfl, rfl⟩⟩
          · rw [ha] at hs; simp at hs
        | true =>
          cases hac : active ls j with
          | false => rw [activate_retry h hat hac] at hs; simp at hs
          | true =>
            rw [activate_active h hac] at hs; simp only [Option.some.injEq, Prod.mk.injEq] at hs
            obtain ⟨rfl, rfl⟩ := hs
            exact .same (Or.inl rfl)
  | produce j b =>
    simp only [Conf.step] at hs
    cases hc : c.connected n.slot j with
    | false =>
      rw [hc] at hs; simp only [Bool.false_eq_true, if_false, Option.some.injEq, Prod.mk.injEq] at hs
      obtain ⟨rfl, rfl⟩ := hs
      exact .same (Or.inr rfl)
    | true =>
      rw [hc] at hs
      simp only [if_true] at hs
      cases hq : n.queue j with
      | none => rw [hq] at hs; simp at hs
      | some q =>
        rw [hq] at hs; simp only [Option.some.injEq, Prod.mk.injEq] at hs
        obtain ⟨rfl, rfl⟩ := hs
        refine ⟨?_, Or.inl ⟨rfl, rfl, rfl⟩⟩
        by_cases hij : j = i
        · subst hij
          exact Or.inr (Or.inl ⟨b, rfl, by simp [wrote], rfl, by simp [Node.outq, upd, hq]⟩)
        · have : ¬ i = j := fun h => hij h.symm
          exact Or.inl ⟨by simp [Node.outq, upd, this], by simp [wrote, hij], rfl⟩
  | consume j =>
    simp only [Conf.step] at hs
    cases hq : n.inbound j with
    | nil =>
      rw [hq] at hs; simp only [Option.some.injEq, Prod.mk.injEq] at hs
      obtain ⟨rfl, rfl⟩ := hs
      exact .same (Or.inr rfl)
    | cons b q =>
      rw [hq] at hs; simp only [Option.some.injEq, Prod.mk.injEq] at hs
      obtain ⟨rfl, rfl⟩ := hs
      refine ⟨Or.inl ⟨rfl, rfl, rfl⟩, ?_⟩
      by_cases hij : j = i
      · subst hij
        exact Or.inr (Or.inr ⟨b, by simp [upd, hq], rfl, by simp [took]⟩)
      · have : ¬ i = j := fun h => hij h.symm
        exact Or.inl ⟨by simp [upd, this], rfl, by simp [took, hij]⟩
  | pop f buf =>
    simp only [Conf.step] at hs
    cases hf : ifaceFromUser f with
    | none =>
      rw [hf] at hs; simp only [Option.some.injEq, Prod.mk.injEq] at hs
      obtain ⟨rfl, rfl⟩ := hs
      exact .same (Or.inl rfl)
    | some j =>
      rw [hf] at hs
      rcases buf with _ | _ | k
      · simp only [Option.some.injEq, Prod.mk.injEq] at hs
        obtain ⟨rfl, rfl⟩ := hs
        exact .same (Or.inl rfl)
      · simp only [Option.some.injEq, Prod.mk.injEq] at hs
        obtain ⟨rfl, rfl⟩ := hs
        exact .same (Or.inl rfl)
      · simp only [Node.pop] at hs
        cases hr : n.readers j with
        | false =>
          rw [hr] at hs; simp only [if_true, Option.some.injEq, Prod.mk.injEq] at hs
          obtain ⟨rfl, rfl⟩ := hs
          exact .same (Or.inl rfl)
        | true =>
          rw [hr] at hs; simp only [Bool.true_eq_false, if_false] at hs
          rcases hq : n.queue j with _ | _ | ⟨b, q⟩
          · rw [hq] at hs; simp at hs
          · rw [hq] at hs; simp only [Option.some.injEq, Prod.mk.injEq] at hs
            obtain ⟨rfl, rfl⟩ := hs
            exact .same (Or.inl rfl)
          · rw [hq] at hs
            simp only at hs
            by_cases hk : k < b.length
            · rw [if_pos hk] at hs; simp only [Option.some.injEq, Prod.mk.injEq] at hs
              obtain ⟨rfl, rfl⟩ := hs
              refine ⟨?_, Or.inl ⟨rfl, rfl, rfl⟩⟩
              by_cases hij : j = i
              · subst hij
                exact Or.inr (Or.inr ⟨b, f, k, rfl, hf, by simp [Node.outq, upd, hq], rfl, by simp [popped, hk]⟩)
              · have : ¬ i = j := fun h => hij h.symm
                exact Or.inl ⟨by simp [Node.outq, upd, this], rfl, rfl⟩
            · rw [if_neg hk] at hs; simp only [Option.some.injEq, Prod.mk.injEq] at hs
              obtain ⟨rfl, rfl⟩ := hs
              refine ⟨?_, Or.inl ⟨rfl, rfl, rfl⟩⟩
              by_cases hij : j = i
              · subst hij
                exact Or.inr (Or.inr ⟨b, f, k, rfl, hf, by simp [Node.outq, upd, hq], rfl, by simp [popped, hk]⟩)
              · have : ¬ i = j := fun h => hij h.symm
                exact Or.inl ⟨by simp [Node.outq, upd, this], rfl, by simp [popped, hij]⟩
  | push f pkt al =>
    have key : ∀ {j : Iface} {b : Bytes}, n.push c j b al = (n', l) → Effect n n' (Ev.push f pkt al) l i := by
      intro j b hs
      unfold Node.push at hs
      split at hs
      · simp only [Prod.mk.injEq] at hs; obtain ⟨rfl, rfl⟩ := hs
        exact .same (Or.inl rfl)
      · split at hs
        · simp only [Prod.mk.injEq] at hs; obtain ⟨rfl, rfl⟩ := hs
          exact .same (Or.inl rfl)
        · split at hs
          · simp only [Prod.mk.injEq] at hs; obtain ⟨rfl, rfl⟩ := hs
            exact .same (Or.inl rfl)
          · split at hs
            · simp only [Prod.mk.injEq] at hs; obtain ⟨rfl, rfl⟩ := hs
              exact .same (Or.inl rfl)
            · simp only [Prod.mk.injEq] at hs; obtain ⟨rfl, rfl⟩ := hs
              refine ⟨Or.inl ⟨rfl, rfl, rfl⟩, ?_⟩
              by_cases hij : j = i
              · subst hij
                exact Or.inr (Or.inl ⟨b, by simp [upd], by simp [pushed], rfl⟩)
              · have : ¬ i = j := fun h => hij h.symm
                exact Or.inl ⟨by simp [upd, this], by simp [pushed, hij], rfl⟩
    simp only [Conf.step] at hs
    cases hf : ifaceFromUser f with
    | none =>
      rw [hf] at hs; simp only [Option.some.injEq, Prod.mk.injEq] at hs
      obtain ⟨rfl, rfl⟩ := hs
      exact .same (Or.inl rfl)
    | some j =>
      rw [hf] at hs
      rcases pkt with _ | _ | b
      · simp only [Option.some.injEq, Prod.mk.injEq] at hs
        obtain ⟨rfl, rfl⟩ := hs
        exact .same (Or.inl rfl)
      · simp only [Option.some.injEq, Prod.mk.injEq] at hs
        obtain ⟨rfl, rfl⟩ := hs
        exact .same (Or.inl rfl)
      · exact key (Option.some.inj hs)

/-- A packet can be produced only for an interface that can be read from. -/
theorem Inv.connected_reads {c : Conf} {es : List Ev} {ls : List Log} {n : Node} (h : Inv c es ls n) {i : Iface}
    (hc : c.connected n.slot i = true) : reads c i = true ∧ active ls i = true := by
  have hrt := h.rt
  cases hk : c.kind with
  | encoder f =>
    refine ⟨by simp [reads, hk], ?_⟩
    have ht := h.tr f hk
    cases i with
    | consolidated => simp [Conf.connected, hk] at hc
    | audioControl => simp [Conf.connected, hk] at hc; rw [← hrt]; exact hc.1
    | audioSource => simp [Conf.connected, hk] at hc; exact (ht.1 hc.1).1
    | audioRepair =>
      simp [Conf.connected, hk] at hc
      rcases (ht.1 hc.1).2 with h1 | h1
      · exact h1
      · have hs := h.slot
        simp only [SlotInv, hk] at hs
        obtain ⟨p, hp⟩ := Option.isSome_iff_exists.1 hc.2
        have := hs.rep p hp
        subst h1
        cases p <;> simp [fits] at this
  | decoder =>
    cases i <;> simp [Conf.connected, hk] at hc
    exact ⟨by simp [reads, hk], by rw [← hrt]; exact hc.1⟩

theorem wrote_append (i : Iface) (a b : List Log) : wrote i (a ++ b) = wrote i a ++ wrote i b := by simp [wrote]
theorem popped_append (i : Iface) (a b : List Log) : popped i (a ++ b) = popped i a ++ popped i b := by simp [popped]
theorem pushed_append (i : Iface) (a b : List Log) : pushed i (a ++ b) = pushed i a ++ pushed i b := by simp [pushed]
theorem took_append (i : Iface) (a b : List Log) : took i (a ++ b) = took i a ++ took i b := by simp [took]

theorem flow_in {c : Conf} {es : List Ev} {ls : List Log} {n : Node} (h : Reach c es ls n) (i : Iface) :
    pushed i ls = took i ls ++ n.inbound i := by
  induction h with
  | nil => rfl
  | @snoc es ls n e n' l hr hs ih =>
    rw [pushed_append, took_append]
    rcases (step_effect hr.inv hs i).inb with ⟨h1, h2, h3⟩ | ⟨b, h1, h2, h3⟩ | ⟨b, h1, h2, h3⟩
    · rw [h1, h2, h3, ih]; simp
    · rw [h1, h2, h3, ih]; simp
    · rw [h2, h3, ih, h1]; simp

theorem flow_out {c : Conf} {es : List Ev} {ls : List Log} {n : Node} (h : Reach c es ls n) (i : Iface) :
    (∀ b ∈ wrote i ls, Ev.produce i b ∈ es) ∧ ∃ gone, wrote i ls = gone ++ n.outq i ∧ (popped i ls).Sublist gone
      ∧ (bigBuffers c es → packetsFit c es → popped i ls = gone) := by
  induction h with
  | nil => exact ⟨by simp [wrote], [], rfl, List.Sublist.refl _, fun _ _ => rfl⟩
  | @snoc es ls n e n' l hr hs ih =>
    obtain ⟨ih0, gone, ih1, ih2, ih3⟩ := ih
    have hb : bigBuffers c (es ++ [e]) → bigBuffers c es := fun h f k hm => h f k (List.mem_append_left _ hm)
    have hp : packetsFit c (es ++ [e]) → packetsFit c es := fun h f k hm => h f k (List.mem_append_left _ hm)
    rw [wrote_append, popped_append]
    rcases (step_effect hr.inv hs i).out with ⟨h1, h2, h3⟩ | ⟨b, rfl, h1, h2, h3⟩ | ⟨b, f, k, rfl, hf, h1, h2, h3⟩
    · rw [h2, h3, List.append_nil, List.append_nil, h1]
      exact ⟨fun b hb => List.mem_append_left _ (ih0 b hb), gone, ih1, ih2, fun a b => ih3 (hb a) (hp b)⟩
    · rw [h1, h2, h3, List.append_nil]
      refine ⟨?_, gone, by rw [ih1]; simp, ih2, fun a b => ih3 (hb a) (hp b)⟩
      intro x hx
      rw [List.mem_append, List.mem_singleton] at hx
      rcases hx with hx | rfl
      · exact List.mem_append_left _ (ih0 x hx)
      · simp
    · rw [h2, h3, List.append_nil]
      refine ⟨fun b hb => List.mem_append_left _ (ih0 b hb), gone ++ [b], by rw [ih1, h1]; simp, ?_, ?_⟩
      · by_cases hk : k < b.length
        · rw [if_pos hk, List.append_nil]; exact ih2.trans (List.sublist_append_left _ _)
        · rw [if_neg hk]; exact ih2.append (List.Sublist.refl _)
      · intro a d
        have hk : ¬ k < b.length := by
          have h4 := a f k (by simp)
          have h5 : Ev.produce i b ∈ es := ih0 b (by rw [ih1, h1]; simp)
          have h6 := hp d i b h5
          omega
        rw [if_neg hk, ih3 (hb a) (hp d)]

theorem flow_reads {c : Conf} {es : List Ev} {ls : List Log} {n : Node} (h : Reach c es ls n) (i : Iface)
    (hw : wrote i ls ≠ []) : reads c i = true ∧ active ls i = true := by
  induction h with
  | nil => exact absurd rfl hw
  | @snoc es ls n e n' l hr hs ih =>
    rw [active_append]
    by_cases h0 : wrote i ls = []
    · rw [wrote_append, h0, List.nil_append] at hw
      have : ∃ b, e = .produce i b := by
        rcases (step_effect hr.inv hs i).out with ⟨h1, h2, h3⟩ | ⟨b, rfl, h1, h2, h3⟩ | ⟨b, f, k, rfl, hf, h1, h2, h3⟩
        · exact absurd h2 hw
        · exact ⟨b, rfl⟩
        · exact absurd h2 hw
      obtain ⟨b, rfl⟩ := this
      simp only [Conf.step] at hs
      cases hc : c.connected n.slot i with
      | false =>
        rw [hc] at hs; simp only [Bool.false_eq_true, if_false, Option.some.injEq, Prod.mk.injEq] at hs
        obtain ⟨rfl, rfl⟩ := hs
        exact absurd rfl hw
      | true =>
        obtain ⟨h1, h2⟩ := hr.inv.connected_reads hc
        exact ⟨h1, by rw [h2]; rfl⟩
    · obtain ⟨h1, h2⟩ := ih h0
      exact ⟨h1, by rw [h2]; rfl⟩

end Verif.EncoderApi
