import Verif.UdpPort.Props

/-!
# C106: multicast membership
-/

namespace Verif.UdpPort

/-- Membership and reception are unchanged, or both are over. -/
def Kept (s s' : State) : Prop :=
  s'.joined = s.joined ∧ s'.recvOn = s.recvOn ∨ s'.joined = false ∧ s'.recvOn = false

theorem startClosing_kept (t : State) : Kept t t.startClosing := by
  unfold State.startClosing Kept; split
  · exact .inl ⟨rfl, rfl⟩
  · exact .inr ⟨rfl, rfl⟩

theorem step_kept {c : Cfg} {s s' : State} {e : Ev} (hs : s.step c e = some s')
    (he : ∀ w a b, e ≠ .startRecv w a b) : Kept s s' := by
  have hsc := startClosing_kept
  unfold State.step at hs
  split at hs
  · cases hs; exact .inl ⟨rfl, rfl⟩
  · cases e <;> simp only at hs
    case open_ => cases hs; unfold State.open_; split <;> exact .inl ⟨rfl, rfl⟩
    case startSend => cases hs; unfold State.startSend; split_ifs <;> exact .inl ⟨rfl, rfl⟩
    case startRecv => exact absurd rfl (he _ _ _)
    case asyncClose =>
      unfold State.asyncClose at hs
      simp only at hs
      split at hs
      · cases hs
      · split at hs
        · cases hs; exact .inl ⟨rfl, rfl⟩
        · simp only [Option.some.injEq] at hs
          subst hs
          split
          · exact hsc { s with handler := true, want := true }
          · exact .inl ⟨rfl, rfl⟩
    case write => split at hs <;> cases hs; exact .inl ⟨rfl, rfl⟩
    case step i k =>
      split at hs
      · cases hs; exact .inl ⟨rfl, rfl⟩
      · rename_i w _
        unfold State.stepWr at hs
        cases hp : w.pc <;> rw [hp] at hs <;> simp only at hs
        all_goals
          repeat' split at hs
        all_goals
          first
            | (cases hs; done)
            | (cases hs; exact .inl ⟨rfl, rfl⟩)
    case wake => split at hs <;> cases hs <;> exact .inl ⟨rfl, rfl⟩
    case pop =>
      split at hs
      · unfold State.pop at hs
        split at hs
        · cases hs; exact .inl ⟨rfl, rfl⟩
        · split_ifs at hs <;> cases hs <;> exact .inl ⟨rfl, rfl⟩
      · cases hs; exact .inl ⟨rfl, rfl⟩
    case transmit =>
      split at hs
      · cases hs; exact .inl ⟨rfl, rfl⟩
      · split_ifs at hs <;> cases hs <;> exact .inl ⟨rfl, rfl⟩
    case complete d =>
      split at hs
      · cases hs; exact .inl ⟨rfl, rfl⟩
      · cases hs
        unfold State.complete
        simp only
        split
        · exact hsc _
        · exact .inl ⟨rfl, rfl⟩
    case closedH =>
      split at hs
      · unfold State.closeCb at hs
        split_ifs at hs <;> cases hs <;> exact .inl ⟨rfl, rfl⟩
      · cases hs; exact .inl ⟨rfl, rfl⟩
    case closedS =>
      split at hs
      · unfold State.closeCb at hs
        split_ifs at hs <;> cases hs <;> exact .inl ⟨rfl, rfl⟩
      · cases hs; exact .inl ⟨rfl, rfl⟩
    case recv =>
      split at hs
      · rw [recv_eq hs]; exact .inl ⟨rfl, rfl⟩
      · cases hs; exact .inl ⟨rfl, rfl⟩

/-- **C106** (multicast). A port configured with a multicast interface receives only while it is a member of
the group, which requires that it is bound to a multicast address; and a port that is not configured so never
joins a group. -/
theorem C106_member {c : Cfg} {s : State} (h : Reach c s) :
    (s.recvOn = true → c.mcastIf = true → s.joined = true ∧ c.multicast = true) ∧
    (s.joined = true → c.mcastIf = true ∧ c.multicast = true) := by
  have key : (s.joined = true → c.mcastIf = true ∧ c.multicast = true) ∧
      (s.recvOn = true → c.mcastIf = true → s.joined = true) := by
    induction h with
    | fresh => exact ⟨(by intro h; cases h), (by intro h; cases h)⟩
    | step s s' e _ _ hs ih =>
      have other : Kept s s' → (s'.joined = true → c.mcastIf = true ∧ c.multicast = true) ∧
          (s'.recvOn = true → c.mcastIf = true → s'.joined = true) := by
        rintro (⟨h1, h2⟩ | ⟨h1, h2⟩)
        · rw [h1, h2]; exact ih
        · rw [h1, h2]; exact ⟨(by intro h; cases h), (by intro h; cases h)⟩
      cases e with
      | startRecv w a b =>
        unfold State.step at hs
        split at hs
        · cases hs; exact ih
        · simp only at hs
          cases hs
          unfold State.startRecv
          obtain ⟨i1, i2⟩ := ih
          cases hj : s.joined <;> cases hm : c.mcastIf <;> cases hu : c.multicast <;> cases hr : s.recvOn <;>
            cases hi : s.init <;> cases a <;> cases b <;> simp_all
      | _ => exact other (step_kept hs (by intro w a b hx; cases hx))
  exact ⟨fun h1 h2 => ⟨key.2 h1 h2, (key.1 (key.2 h1 h2)).2⟩, key.1⟩

/-- A member of a group that receives. -/
example : ∃ s, Reach { exCfg with mcastIf := true, multicast := true } s ∧
    (s.recvOn = true ∧ s.joined = true) := by
  obtain ⟨s, h1, h2⟩ := someAnd_reach (c := { exCfg with mcastIf := true, multicast := true })
    (f := fun s => decide (s.recvOn = true ∧ s.joined = true))
    (l := [.open_ true true, .startRecv 1 true true]) (by decide +kernel)
  exact ⟨s, h1, by simpa using h2⟩

end Verif.UdpPort
