import Verif.EncoderApi.Lemmas

/-! # Encoder and decoder: invariant -/

set_option linter.unusedSimpArgs false

namespace Verif.EncoderApi

open ApiConfig (Iface Proto Fec ifaceFromUser protoFromUser)

/-- Invariant of the slot. -/
def SlotInv (c : Conf) (s : Slot) : Prop :=
  match c.kind with
  | .encoder f => EncSlot f c.monitor s
  | .decoder => DecSlot s

/-- Allowed, from the slot. -/
def slotOk (c : Conf) (s : Slot) (i : Iface) (p : Proto) : Bool :=
  match c.kind with
  | .encoder f => encOk c.supp f i p
  | .decoder => decOk c.supp s i p

/-- What `add_endpoint` does to the slot when there was no endpoint. -/
theorem add_cases {c : Conf} {e : Env} {s : Slot} {i : Iface} {p : Proto}
    (h : SlotInv c s) (hp : s.ep i = none) :
    (∃ s', c.add e s i p = .fail s' ∧ SlotInv c s' ∧ (∀ j, j ≠ i → s'.ep j = s.ep j)
        ∧ s'.transport = s.transport ∧ s'.rtcp = s.rtcp ∧ (c.kind = .decoder → s' = s)
        ∧ ¬ (slotOk c s i p = true ∧ e = ⟨true, true⟩ ∧ (c.monitor = true ∨ c.kind = .decoder))
        ∧ (i = .audioRepair → s'.repair.isSome = true → s'.source.isSome = true)
        ∧ (i = .audioSource → s'.source.isSome = true → ∀ f, c.kind = .encoder f → s'.repair.isSome = true ∨ f = .none))
    ∨ (∃ s', c.add e s i p = .ok s' ∧ SlotInv c s' ∧ (∀ j, j ≠ i → s'.ep j = s.ep j) ∧ s'.ep i = some p
        ∧ slotOk c s i p = true ∧ i ≠ .consolidated
        ∧ (i ≠ .audioControl → s'.rtcp = s.rtcp) ∧ (i = .audioControl → s'.rtcp = true ∧ s'.transport = s.transport)
        ∧ (i ≠ .audioControl → ∀ f, c.kind = .encoder f →
            (s'.transport = true ↔ s'.source.isSome = true ∧ (s'.repair.isSome = true ∨ f = .none))))
    ∨ (c.add e s i p = .panic ∧ s.broken = true ∧ i = .audioControl ∧ p = .rtcp ∧ e = ⟨true, true⟩) := by
  obtain ⟨supp, k, mx, mon⟩ := c
  cases k with
  | encoder f =>
    simp only [SlotInv, slotOk] at h ⊢
    simp only [Conf.add, senderAdd_eq h hp]
    cases hk : encOk supp f i p with
    | false => left; exact ⟨s, by simp, h, fun _ _ => rfl, rfl, rfl, fun _ => rfl, by simp, by rintro rfl; simp_all [Slot.ep], by rintro rfl; simp_all [Slot.ep]⟩
    | true =>
      obtain ⟨ep, pl⟩ := e
      cases ep with
      | false => left; exact ⟨s, by simp, h, fun _ _ => rfl, rfl, rfl, fun _ => rfl, by simp, by rintro rfl; simp_all [Slot.ep], by rintro rfl; simp_all [Slot.ep]⟩
      | true =>
        obtain ⟨ctl, src, rep, tr, rt, br⟩ := h
        simp only [Bool.and_self, if_true]
        cases i with
        | consolidated => simp [encOk, fits] at hk
        | audioControl =>
          simp only [Slot.ep] at hp
          have hr : s.rtcp = false := by
            cases hh : s.rtcp with
            | false => rfl
            | true => have := rt hh; simp [hp] at this
          have hpp : p = .rtcp := by cases p <;> simp [encOk, fits] at hk ⊢
          simp only [encFinish, senderControl, Slot.set, hr]
          cases pl with
          | true =>
            cases hbk : s.broken with
            | true => right; right; simp [hbk, hpp]
            | false =>
            right; left
            exact ⟨{ s with control := some p, rtcp := true }, by simp [hbk], ⟨by simp [hpp], src, rep, tr, by simp, by simp [hbk]⟩,
              by intro j hj; cases j <;> simp_all [Slot.ep], by simp_all [Slot.ep], by simp_all [Slot.ep], by simp_all [Slot.ep], by simp_all [Slot.ep], by simp_all [Slot.ep], by simp_all [Slot.ep]⟩
          | false =>
            left
            exact ⟨{ s with control := some p }, by simp [hr], ⟨by simp [hpp], src, rep, tr, by simp, br⟩,
              by intro j hj; cases j <;> simp_all [Slot.ep], by simp_all [Slot.ep], by simp_all [Slot.ep], by simp_all [Slot.ep], by simp_all [Slot.ep], by simp_all [Slot.ep], by simp_all [Slot.ep]⟩
        | audioSource =>
          simp only [Slot.ep] at hp
          have ht : s.transport = false := by
            cases hh : s.transport with
            | false => rfl
            | true => have := (tr hh).1; simp [hp] at this
          have hf : fits .audioSource p = some f := by simp [encOk] at hk; exact hk.1
          simp only [encFinish, senderTransport, Slot.set, ht]
          by_cases hc : s.repair.isSome = true ∨ f = .none
          · cases pl with
            | true =>
              cases mon with
              | false =>
                left
                exact ⟨{ s with source := some p, broken := true }, by simp [hc, ht],
                  ⟨ctl, by simp [hf], rep, by simp [hc], rt, by simp_all⟩,
                  by intro j hj; cases j <;> simp_all [Slot.ep], by simp_all [Slot.ep], by simp_all [Slot.ep], by simp_all [Slot.ep], by simp_all [Slot.ep], by simp_all [Slot.ep], by simp_all [Slot.ep]⟩
              | true =>
              right; left
              exact ⟨{ s with source := some p, transport := true }, by simp [hc],
                ⟨ctl, by simp [hf], rep, by simp [hc], rt, by simp_all⟩,
                by intro j hj; cases j <;> simp_all [Slot.ep], by simp_all [Slot.ep], by simp_all [Slot.ep], by simp_all [Slot.ep], by simp_all [Slot.ep], by simp_all [Slot.ep], by simp_all [Slot.ep]⟩
            | false =>
              left
              exact ⟨{ s with source := some p }, by simp [hc, ht],
                ⟨ctl, by simp [hf], rep, by simp [hc], rt, by simp_all⟩,
                by intro j hj; cases j <;> simp_all [Slot.ep], by simp_all [Slot.ep], by simp_all [Slot.ep], by simp_all [Slot.ep], by simp_all [Slot.ep], by simp_all [Slot.ep], by simp_all [Slot.ep]⟩
          · right; left
            exact ⟨{ s with source := some p }, by simp [hc, ht],
                ⟨ctl, by simp [hf], rep, by simp [ht], rt, by simp_all⟩,
                by intro j hj; cases j <;> simp_all [Slot.ep], by simp_all [Slot.ep], by simp_all [Slot.ep], by simp_all [Slot.ep], by simp_all [Slot.ep], by simp_all [Slot.ep], by simp_all [Slot.ep]⟩
        | audioRepair =>
          simp only [Slot.ep] at hp
          have hf : fits .audioRepair p = some f := by simp [encOk] at hk; exact hk.1
          have hfn : f ≠ .none := by cases p <;> simp [fits] at hf <;> subst hf <;> simp
          have ht : s.transport = false := by
            cases hh : s.transport with
            | false => rfl
            | true => have := (tr hh).2; simp [hp, hfn] at this
          simp only [encFinish, senderTransport, Slot.set, ht]
          by_cases hc : s.source.isSome = true
          · cases pl with
            | true =>
              cases mon with
              | false =>
                left
                exact ⟨{ s with repair := some p, broken := true }, by simp [hc, ht],
                  ⟨ctl, src, by simp [hf], by simp [hc], rt, by simp_all⟩,
                  by intro j hj; cases j <;> simp_all [Slot.ep], by simp_all [Slot.ep], by simp_all [Slot.ep], by simp_all [Slot.ep], by simp_all [Slot.ep], by simp_all [Slot.ep], by simp_all [Slot.ep]⟩
              | true =>
              right; left
              exact ⟨{ s with repair := some p, transport := true }, by simp [hc],
                ⟨ctl, src, by simp [hf], by simp [hc], rt, by simp_all⟩,
                by intro j hj; cases j <;> simp_all [Slot.ep], by simp_all [Slot.ep], by simp_all [Slot.ep], by simp_all [Slot.ep], by simp_all [Slot.ep], by simp_all [Slot.ep], by simp_all [Slot.ep]⟩
            | false =>
              left
              exact ⟨{ s with repair := some p }, by simp [hc, ht],
                ⟨ctl, src, by simp [hf], by simp [hc], rt, by simp_all⟩,
                by intro j hj; cases j <;> simp_all [Slot.ep], by simp_all [Slot.ep], by simp_all [Slot.ep], by simp_all [Slot.ep], by simp_all [Slot.ep], by simp_all [Slot.ep], by simp_all [Slot.ep]⟩
          · right; left
            exact ⟨{ s with repair := some p }, by simp [hc, ht],
                ⟨ctl, src, by simp [hf], by simp [ht], rt, by simp_all⟩,
                by intro j hj; cases j <;> simp_all [Slot.ep], by simp_all [Slot.ep], by simp_all [Slot.ep], by simp_all [Slot.ep], by simp_all [Slot.ep], by simp_all [Slot.ep], by simp_all [Slot.ep]⟩
  | decoder =>
    simp only [SlotInv, slotOk] at h ⊢
    simp only [Conf.add, receiverAdd_eq h hp]
    cases hk : decOk supp s i p with
    | false => left; exact ⟨s, by simp, h, fun _ _ => rfl, rfl, rfl, fun _ => rfl, by simp, by rintro rfl; simp_all [Slot.ep], by rintro rfl; simp_all [Slot.ep]⟩
    | true =>
      obtain ⟨ep, pl⟩ := e
      cases ep with
      | false => left; exact ⟨s, by simp, h, fun _ _ => rfl, rfl, rfl, fun _ => rfl, by simp, by rintro rfl; simp_all [Slot.ep], by rintro rfl; simp_all [Slot.ep]⟩
      | true =>
        obtain ⟨ctl, src, rep, tr, rt⟩ := h
        simp only [Bool.and_self, if_true]
        cases i with
        | consolidated => simp [decOk, fits] at hk
        | audioControl =>
          have hpp : p = .rtcp := by cases p <;> simp [decOk, fits] at hk ⊢
          simp only [decFinish]
          cases pl with
          | true =>
            right; left
            exact ⟨{ s with control := some p, rtcp := true }, by simp, ⟨by simp [hpp], src, rep, tr, by simp⟩,
              by intro j hj; cases j <;> simp_all [Slot.ep], by simp_all [Slot.ep], by simp_all [Slot.ep], by simp_all [Slot.ep], by simp_all [Slot.ep], by simp_all [Slot.ep], by simp_all [Slot.ep]⟩
          | false =>
            left
            exact ⟨s, by simp, ⟨ctl, src, rep, tr, rt⟩, fun _ _ => rfl, rfl, rfl, by simp, by simp, by simp, by simp⟩
        | audioSource =>
          right; left
          have hf : ∃ f, fits .audioSource p = some f := by
            cases hh : fits .audioSource p with
            | none => simp [decOk, hh] at hk
            | some f => exact ⟨f, rfl⟩
          exact ⟨{ s with source := some p }, by simp [decFinish, Slot.set],
            ⟨ctl, by intro q hq; simp at hq; subst hq; exact hf, rep, tr, rt⟩,
            by intro j hj; cases j <;> simp_all [Slot.ep], by simp_all [Slot.ep], by simp_all [Slot.ep], by simp_all [Slot.ep], by simp_all [Slot.ep], by simp_all [Slot.ep], by simp_all [Slot.ep]⟩
        | audioRepair =>
          right; left
          have hf : ∃ f, fits .audioRepair p = some f := by
            cases hh : fits .audioRepair p with
            | none => simp [decOk, hh] at hk
            | some f => exact ⟨f, rfl⟩
          exact ⟨{ s with repair := some p }, by simp [decFinish, Slot.set],
            ⟨ctl, src, by intro q hq; simp at hq; subst hq; exact hf, tr, rt⟩,
            by intro j hj; cases j <;> simp_all [Slot.ep], by simp_all [Slot.ep], by simp_all [Slot.ep], by simp_all [Slot.ep], by simp_all [Slot.ep], by simp_all [Slot.ep], by simp_all [Slot.ep]⟩

/-- Interfaces that can be read from, written to. -/
def reads (c : Conf) (i : Iface) : Bool :=
  match c.kind with
  | .encoder _ => true
  | .decoder => decide (i = .audioControl)

/-- See `reads`. -/
def writes (c : Conf) (i : Iface) : Bool :=
  match c.kind with
  | .encoder _ => decide (i = .audioControl)
  | .decoder => true

/-- What is known of the node after a history. -/
structure Inv (c : Conf) (es : List Ev) (ls : List Log) (n : Node) : Prop where
  q : ∀ i, (n.queue i).isSome = attempted es i
  rd : ∀ i, n.readers i = (reads c i && active ls i)
  wr : ∀ i, n.writers i = (writes c i && active ls i)
  slot : SlotInv c n.slot
  epA : ∀ i, (n.slot.ep i).isSome = true → attempted es i = true
  logEp : ∀ i p, Log.activated i p ∈ ls → n.slot.ep i = some p
  dec : c.kind = .decoder → ∀ i p, n.slot.ep i = some p → Log.activated i p ∈ ls
  rt : n.slot.rtcp = active ls .audioControl
  tr : ∀ f, c.kind = .encoder f → (n.slot.transport = true ↔
    active ls .audioSource = true ∧ (active ls .audioRepair = true ∨ f = .none))
  half : ∀ f, c.kind = .encoder f →
    (n.slot.repair.isSome = true → active ls .audioRepair = true ∨ n.slot.source.isSome = true)
      ∧ (n.slot.source.isSome = true → active ls .audioSource = true ∨ n.slot.repair.isSome = true ∨ f = .none)

theorem active_iff {ls : List Log} {i : Iface} : active ls i = true ↔ ∃ p, Log.activated i p ∈ ls := by
  simp only [active, List.any_eq_true]
  constructor
  · rintro ⟨x, hx, h⟩
    cases x <;> simp at h
    subst h
    exact ⟨_, hx⟩
  · rintro ⟨p, hp⟩
    exact ⟨_, hp, by simp⟩

theorem Inv.init (c : Conf) : Inv c [] [] .init where
  q := fun _ => rfl
  rd := fun i => by simp [Node.init, active]
  wr := fun i => by simp [Node.init, active]
  slot := by
    obtain ⟨_, k, _, _⟩ := c
    cases k
    · exact ⟨by simp [Node.init, Slot.empty], by simp [Node.init, Slot.empty], by simp [Node.init, Slot.empty],
        by simp [Node.init, Slot.empty], by simp [Node.init, Slot.empty], by simp [Node.init, Slot.empty]⟩
    · exact ⟨by simp [Node.init, Slot.empty], by simp [Node.init, Slot.empty], by simp [Node.init, Slot.empty],
        by simp [Node.init, Slot.empty], by simp [Node.init, Slot.empty]⟩
  epA := fun i => by cases i <;> simp [Node.init, Slot.empty, Slot.ep]
  logEp := by simp
  dec := fun _ i p => by cases i <;> simp [Node.init, Slot.empty, Slot.ep]
  rt := rfl
  tr := fun f _ => by simp [Node.init, Slot.empty, active]
  half := fun f _ => by simp [Node.init, Slot.empty]

theorem attempted_append (es : List Ev) (e : Ev) (i : Iface) :
    attempted (es ++ [e]) i = (attempted es i || attempted [e] i) := by
  simp [attempted, List.any_append]

theorem active_append (ls : List Log) (l : Log) (i : Iface) :
    active (ls ++ [l]) i = (active ls i || active [l] i) := by
  simp [active, List.any_append]

/-- Events that change neither the slot nor what is active. -/
theorem Inv.mono {c : Conf} {es : List Ev} {ls : List Log} {n n' : Node} {e : Ev} {l : Log} (h : Inv c es ls n)
    (he : ∀ i, attempted [e] i = false) (hl : ∀ i p, l ≠ .activated i p) (hs : n'.slot = n.slot)
    (hr : n'.readers = n.readers) (hw : n'.writers = n.writers)
    (hq : ∀ i, (n'.queue i).isSome = (n.queue i).isSome) : Inv c (es ++ [e]) (ls ++ [l]) n' := by
  have ha : ∀ i, active (ls ++ [l]) i = active ls i := by
    intro i
    rw [active_append]
    cases l <;> simp [active] at hl ⊢
  have ht : ∀ i, attempted (es ++ [e]) i = attempted es i := by
    intro i; rw [attempted_append, he, Bool.or_false]
  have hm : ∀ i p, Log.activated i p ∈ ls ++ [l] ↔ Log.activated i p ∈ ls := by
    intro i p
    simp only [List.mem_append, List.mem_singleton]
    constructor
    · rintro (h | h)
      · exact h
      · exact absurd h.symm (hl i p)
    · exact Or.inl
  constructor
  · intro i; rw [hq, ht, h.q]
  · intro i; rw [hr, ha, h.rd]
  · intro i; rw [hw, ha, h.wr]
  · rw [hs]; exact h.slot
  · intro i hi; rw [hs] at hi; rw [ht]; exact h.epA i hi
  · intro i p hi; rw [hs]; exact h.logEp i p ((hm i p).1 hi)
  · intro hd i p hi; rw [hs] at hi; exact (hm i p).2 (h.dec hd i p hi)
  · rw [hs, ha]; exact h.rt
  · intro f hf; rw [hs, ha, ha]; exact h.tr f hf
  · intro f hf; rw [hs, ha, ha]; exact h.half f hf

/-- A successful call. -/
theorem Inv.success {c : Conf} {es : List Ev} {ls : List Log} {n n' : Node} {e : Ev} {i : Iface} {p : Proto} {s' : Slot}
    (h : Inv c es ls n) (he : ∀ j, attempted [e] j = decide (i = j)) (hat : attempted es i = false)
    (h₁ : SlotInv c s') (h₂ : ∀ j, j ≠ i → s'.ep j = n.slot.ep j) (h₃ : s'.ep i = some p)
    (h₄ : slotOk c n.slot i p = true) (h₆ : i ≠ .audioControl → s'.rtcp = n.slot.rtcp)
    (h₇ : i = .audioControl → s'.rtcp = true ∧ s'.transport = n.slot.transport)
    (h₈ : i ≠ .audioControl → ∀ f, c.kind = .encoder f →
            (s'.transport = true ↔ s'.source.isSome = true ∧ (s'.repair.isSome = true ∨ f = .none)))
    (hs : n'.slot = s') (hr : ∀ j, n'.readers j = if j = i then reads c i else n.readers j)
    (hw : ∀ j, n'.writers j = if j = i then writes c i else n.writers j)
    (hq : ∀ j, (n'.queue j).isSome = (decide (j = i) || (n.queue j).isSome)) :
    Inv c (es ++ [e]) (ls ++ [.activated i p]) n' := by
  have ha : ∀ j, active (ls ++ [.activated i p]) j = (active ls j || decide (i = j)) := by
    intro j; rw [active_append]; simp [active]
  have ht : ∀ j, attempted (es ++ [e]) j = (attempted es j || decide (i = j)) := by
    intro j; rw [attempted_append, he]
  have hna : active ls i = false := by
    cases hh : active ls i with
    | false => rfl
    | true =>
      obtain ⟨q, hq'⟩ := active_iff.1 hh
      have := h.epA i (by rw [h.logEp i q hq']; rfl)
      rw [hat] at this; simp at this
  have hen : n.slot.ep i = none := by
    cases hh : n.slot.ep i with
    | none => rfl
    | some q =>
      have := h.epA i (by rw [hh]; rfl)
      rw [hat] at this; simp at this
  have hact : ∀ j, active ls j = true → (n.slot.ep j).isSome = true := by
    intro j hj
    obtain ⟨q, hq'⟩ := active_iff.1 hj
    rw [h.logEp j q hq']; rfl
  subst hs
  constructor
  · intro j; rw [hq, ht, h.q, Bool.or_comm]; congr 1; exact decide_eq_decide.2 eq_comm
  · intro j; rw [hr, ha]
    by_cases hj : j = i
    · subst hj; simp
    · have : ¬ i = j := fun h => hj h.symm
      simp [hj, this, h.rd]
  · intro j; rw [hw, ha]
    by_cases hj : j = i
    · subst hj; simp
    · have : ¬ i = j := fun h => hj h.symm
      simp [hj, this, h.wr]
  · exact h₁
  · intro j hj
    rw [ht]
    by_cases hji : j = i
    · subst hji; simp
    · rw [h₂ j hji] at hj; rw [h.epA j hj]; rfl
  · intro j q hj
    simp only [List.mem_append, List.mem_singleton, Log.activated.injEq] at hj
    rcases hj with hj | ⟨rfl, rfl⟩
    · have h5 := h.logEp j q hj
      have : j ≠ i := by rintro rfl; rw [hen] at h5; simp at h5
      rw [h₂ j this, h5]
    · exact h₃
  · intro hd j q hj
    simp only [List.mem_append, List.mem_singleton, Log.activated.injEq]
    by_cases hji : j = i
    · subst hji; rw [h₃] at hj; right; exact ⟨rfl, (Option.some.inj hj).symm⟩
    · left; rw [h₂ j hji] at hj; exact h.dec hd j q hj
  · rw [ha]
    by_cases hi : i = .audioControl
    · rw [(h₇ hi).1]; simp [hi]
    · rw [h₆ hi, h.rt]; simp [hi]
  · intro f hf
    by_cases hi : i = .audioControl
    · rw [(h₇ hi).2, h.tr f hf, ha, ha]; simp [hi]
    · rw [h₈ hi f hf, ha, ha]
      have hh := h.half f hf
      cases i with
      | audioControl => exact absurd rfl hi
      | consolidated => rw [show n'.slot.ep .consolidated = none from rfl] at h₃; simp at h₃
      | audioSource =>
        have h3 : n'.slot.source = some p := h₃
        have h2 : n'.slot.repair = n.slot.repair := h₂ .audioRepair (by simp)
        have he2 : n.slot.source = none := hen
        rw [h3, h2]
        rw [he2] at hh
        have := hact .audioRepair
        simp only [Slot.ep] at this
        constructor
        · rintro ⟨_, h5 | h5⟩
          · refine ⟨by simp, Or.inl ?_⟩
            rcases hh.1 h5 with h6 | h6
            · simp [h6]
            · simp at h6
          · exact ⟨by simp, Or.inr h5⟩
        · rintro ⟨_, h5 | h5⟩
          · exact ⟨by simp, Or.inl (this (by simpa using h5))⟩
          · exact ⟨by simp, Or.inr h5⟩
      | audioRepair =>
        have h3 : n'.slot.repair = some p := h₃
        have h2 : n'.slot.source = n.slot.source := h₂ .audioSource (by simp)
        have he2 : n.slot.repair = none := hen
        have hfn : f ≠ .none := by
          rintro rfl
          simp only [slotOk, hf] at h₄
          cases p <;> simp [encOk, fits] at h₄
        rw [h3, h2]
        rw [he2] at hh
        have := hact .audioSource
        simp only [Slot.ep] at this
        constructor
        · rintro ⟨h5, _⟩
          refine ⟨?_, Or.inl (by simp)⟩
          rcases hh.2 h5 with h6 | h6 | h6
          · simp [h6]
          · simp at h6
          · exact absurd h6 hfn
        · rintro ⟨h5, _⟩
          exact ⟨this (by simpa using h5), Or.inl rfl⟩
  · intro f hf
    have hh := h.half f hf
    cases i with
    | consolidated => rw [show n'.slot.ep .consolidated = none from rfl] at h₃; simp at h₃
    | audioControl =>
      have h2 : n'.slot.repair = n.slot.repair := h₂ .audioRepair (by simp)
      have h3 : n'.slot.source = n.slot.source := h₂ .audioSource (by simp)
      rw [h2, h3, ha, ha]; simpa using hh
    | audioSource =>
      have h3 : n'.slot.source = some p := h₃
      rw [h3, ha, ha]; simp
    | audioRepair =>
      have h3 : n'.slot.repair = some p := h₃
      rw [h3, ha, ha]; simp

/-- A call that failed in the pipeline. -/
theorem Inv.failure {c : Conf} {es : List Ev} {ls : List Log} {n n' : Node} {e : Ev} {i : Iface} {s' : Slot}
    (h : Inv c es ls n) (he : ∀ j, attempted [e] j = decide (i = j)) (hat : attempted es i = false)
    (h₁ : SlotInv c s') (h₂ : ∀ j, j ≠ i → s'.ep j = n.slot.ep j) (h₃ : s'.transport = n.slot.transport)
    (h₄ : s'.rtcp = n.slot.rtcp) (h₅ : c.kind = .decoder → s' = n.slot)
    (h₆ : i = .audioRepair → s'.repair.isSome = true → s'.source.isSome = true)
    (h₇ : i = .audioSource → s'.source.isSome = true → ∀ f, c.kind = .encoder f → s'.repair.isSome = true ∨ f = .none)
    (hs : n'.slot = s') (hr : n'.readers = n.readers) (hw : n'.writers = n.writers)
    (hq : ∀ j, (n'.queue j).isSome = (decide (j = i) || (n.queue j).isSome)) :
    Inv c (es ++ [e]) (ls ++ [.failed]) n' := by
  have ha : ∀ j, active (ls ++ [.failed]) j = active ls j := by
    intro j; rw [active_append]; simp [active]
  have ht : ∀ j, attempted (es ++ [e]) j = (attempted es j || decide (i = j)) := by
    intro j; rw [attempted_append, he]
  have hm : ∀ j q, Log.activated j q ∈ ls ++ [.failed] ↔ Log.activated j q ∈ ls := by simp
  have hen : n.slot.ep i = none := by
    cases hh : n.slot.ep i with
    | none => rfl
    | some q =>
      have := h.epA i (by rw [hh]; rfl)
      rw [hat] at this; simp at this
  subst hs
  constructor
  · intro j; rw [hq, ht, h.q, Bool.or_comm]; congr 1; exact decide_eq_decide.2 eq_comm
  · intro j; rw [hr, ha, h.rd]
  · intro j; rw [hw, ha, h.wr]
  · exact h₁
  · intro j hj
    rw [ht]
    by_cases hji : j = i
    · subst hji; simp
    · rw [h₂ j hji] at hj; rw [h.epA j hj]; rfl
  · intro j q hj
    rw [hm] at hj
    have h5 := h.logEp j q hj
    have : j ≠ i := by rintro rfl; rw [hen] at h5; simp at h5
    rw [h₂ j this, h5]
  · intro hd j q hj
    rw [h₅ hd] at hj
    exact (hm j q).2 (h.dec hd j q hj)
  · rw [ha, h₄, h.rt]
  · intro f hf; rw [h₃, ha, ha, h.tr f hf]
  · intro f hf
    have hh := h.half f hf
    rw [ha, ha]
    cases i with
    | consolidated =>
      have h2 : n'.slot.repair = n.slot.repair := h₂ .audioRepair (by simp)
      have h3 : n'.slot.source = n.slot.source := h₂ .audioSource (by simp)
      rw [h2, h3]; exact hh
    | audioControl =>
      have h2 : n'.slot.repair = n.slot.repair := h₂ .audioRepair (by simp)
      have h3 : n'.slot.source = n.slot.source := h₂ .audioSource (by simp)
      rw [h2, h3]; exact hh
    | audioSource =>
      have h2 : n'.slot.repair = n.slot.repair := h₂ .audioRepair (by simp)
      have he2 : n.slot.source = none := hen
      refine ⟨fun h5 => ?_, fun h5 => Or.inr (h₇ rfl h5 f hf)⟩
      rw [h2] at h5
      rcases hh.1 h5 with h6 | h6
      · exact Or.inl h6
      · rw [he2] at h6; simp at h6
    | audioRepair =>
      have h2 : n'.slot.source = n.slot.source := h₂ .audioSource (by simp)
      have he2 : n.slot.repair = none := hen
      refine ⟨fun h5 => Or.inr (h₆ rfl h5), fun h5 => ?_⟩
      rw [h2] at h5
      rcases hh.2 h5 with h6 | h6 | h6
      · exact Or.inl h6
      · rw [he2] at h6; simp at h6
      · exact Or.inr (Or.inr h6)

end Verif.EncoderApi
