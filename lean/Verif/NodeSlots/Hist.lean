import Verif.NodeSlots.Steps

namespace Verif.NodeSlots

theorem bind_seen {sl : Slot} {k i e c g} : ∀ j, handles (sl.bind k i e c g).2.1 j ≠ none →
    j = i ∨ handles sl j ≠ none := by
  intro j
  by_cases hj : j = i
  · exact fun _ => .inl hj
  · intro h
    refine .inr ?_
    unfold Slot.bind at h
    split at h
    · exact h
    dsimp only at h
    have e1 : handles (sl.setPort i { sl.ports i with handle := some g }) j = handles sl j := by
      rw [setPort_handles]; simp [upd, hj]
    split at h
    · exact e1 ▸ h
    split at h
    · exact e1 ▸ h
    split at h
    · exact e1 ▸ h
    · exact e1 ▸ h

theorem getSlot_seen {n : Node} {k c as n1 sl} (he : n.getSlot k c = some (as, n1, sl)) :
    n1.slot k = some sl ∧ (∀ j, j ≠ k → n1.slot j = n.slot j) ∧ handles sl = pOf (n.slot k) := by
  unfold Node.getSlot at he
  cases hs : n.slot k with
  | some sl0 =>
    rw [hs] at he
    simp only [Option.some.injEq, Prod.mk.injEq] at he
    obtain ⟨rfl, rfl, rfl⟩ := he
    exact ⟨hs, fun _ _ => rfl, rfl⟩
  | none =>
    rw [hs] at he
    cases c with
    | false => simp at he
    | true =>
      simp only [if_true, Option.some.injEq, Prod.mk.injEq] at he
      obtain ⟨rfl, rfl, rfl⟩ := he
      exact ⟨by simp [Node.set], fun j hj => by simp [Node.set, hj], rfl⟩

/-- What a call of the receiver adds to the open ports. -/
theorem step_seen (n : Node) (o : Op) (k : Nat) (i : Iface)
    (h : pOf ((n.step .receiver o).2.1.slot k) i ≠ none) :
    (∃ e, o = .attach k i e) ∨ (pOf (n.slot k) i ≠ none ∧ o ≠ .unlink k) := by
  cases o with
  | configure k' i' c create =>
    refine .inr ⟨?_, by simp⟩
    simp only [Node.step, Node.configure] at h
    cases hg : n.getSlot k' create with
    | none => rw [hg] at h; exact h
    | some r =>
      obtain ⟨as, n1, sl⟩ := r
      rw [hg] at h
      obtain ⟨h1, h2, h3⟩ := getSlot_seen hg
      dsimp only at h
      by_cases hk : k = k'
      · subst hk
        rw [← h3]
        split at h
        · rw [h1] at h; exact h
        · split at h
          · simp only [Node.set, if_true] at h
            rw [show pOf (some sl.broke) = fun _ => none from broke_handles sl] at h
            exact absurd rfl h
          · simp only [Node.set, if_true] at h
            have : handles (sl.setPort i' { sl.ports i' with cfg := c }) = handles sl := by
              rw [setPort_handles, upd_same]; rfl
            rw [← this]; exact h
      · rw [← h2 k hk]
        split at h
        · exact h
        · split at h <;> simpa [Node.set, hk] using h
  | attach k' i' e =>
    simp only [Node.step, Node.attach] at h
    cases hg : n.getSlot k' e.create with
    | none => rw [hg] at h; exact .inr ⟨h, by simp⟩
    | some r =>
      obtain ⟨as, n1, sl⟩ := r
      rw [hg] at h
      obtain ⟨h1, h2, h3⟩ := getSlot_seen hg
      dsimp only at h
      by_cases hk : k = k'
      · subst hk
        split at h
        · rw [h1] at h; rw [← h3]; exact .inr ⟨h, by simp⟩
        · split at h
          · simp only [Node.set, if_true] at h
            rcases bind_seen i h with rfl | hh
            · exact .inl ⟨e, rfl⟩
            · rw [← h3]; exact .inr ⟨hh, by simp⟩
          · simp only [Node.set, if_true] at h
            refine absurd ?_ h
            exact congrFun (broke_handles _) i
      · refine .inr ⟨?_, by simp⟩
        rw [← h2 k hk]
        split at h
        · exact h
        · split at h <;> simpa [Node.set, hk] using h
  | unlink k' =>
    right
    simp only [Node.step, Node.unlink] at h
    cases hs : n.slot k' with
    | none =>
      rw [hs] at h
      refine ⟨h, ?_⟩
      rintro ⟨⟩
      simp [hs, pOf] at h
    | some sl =>
      rw [hs] at h
      by_cases hk : k = k'
      · subst hk; simp [Node.set, pOf] at h
      · refine ⟨?_, by rintro ⟨⟩; exact hk rfl⟩
        simpa [Node.set, hk] using h
  | query k' =>
    right
    simp only [Node.step, Node.query] at h
    refine ⟨?_, by simp⟩
    cases hs : n.slot k' with
    | none => rw [hs] at h; exact h
    | some sl => rw [hs] at h; exact h

theorem run_cons (kd : Kind) (n : Node) (o : Op) (os : List Op) :
    n.run kd (o :: os) = ((n.step kd o).1 ++ ((n.step kd o).2.1.run kd os).1,
      ((n.step kd o).2.1.run kd os).2) := rfl

theorem run_good {kd n w} (os : List Op) (seen : List (Nat × Iface)) (H : J n w)
    (ho : kd = .receiver → once seen os = true ∧ ∀ k i, pOf (n.slot k) i ≠ none → (k, i) ∈ seen) :
    w.legalAll (n.run kd os).1 ∧ J (n.run kd os).2 (w.run (n.run kd os).1)
      ∧ (NC kd w → noControl os = true →
          w.safeAll (n.run kd os).1 ∧ NC kd (w.run (n.run kd os).1)) := by
  induction os generalizing n w seen with
  | nil => exact ⟨trivial, H, fun hn _ => ⟨H.safe, hn⟩⟩
  | cons o os ih =>
    rw [run_cons]
    have hok : opOk kd n o := by
      cases o <;> simp only [opOk]
      intro hkd
      obtain ⟨h1, h2⟩ := ho hkd
      rename_i k i e
      simp only [once, Bool.and_eq_true, Bool.not_eq_true'] at h1
      cases hp : pOf (n.slot k) i with
      | none => rfl
      | some v =>
        have := h2 k i (by simp [hp])
        have h3 := h1.1
        rw [List.contains_iff_mem.2 this] at h3
        cases h3
    obtain ⟨a, b, c⟩ := step_good o H hok
    obtain ⟨seen', hs'⟩ : ∃ seen', kd = .receiver → once seen' os = true ∧
        ∀ k i, pOf ((n.step kd o).2.1.slot k) i ≠ none → (k, i) ∈ seen' := by
      by_cases hkd : kd = .receiver
      · subst hkd
        obtain ⟨h1, h2⟩ := ho rfl
        cases o with
        | configure k' i' c' cr =>
          refine ⟨seen, fun _ => ⟨h1, fun k i hne => ?_⟩⟩
          rcases step_seen n _ k i hne with ⟨_, h⟩ | ⟨h, _⟩
          · cases h
          · exact h2 k i h
        | attach k' i' e' =>
          simp only [once, Bool.and_eq_true] at h1
          refine ⟨(k', i') :: seen, fun _ => ⟨h1.2, fun k i hne => ?_⟩⟩
          rcases step_seen n _ k i hne with ⟨_, h⟩ | ⟨h, _⟩
          · cases h; simp
          · exact List.mem_cons_of_mem _ (h2 k i h)
        | unlink k' =>
          simp only [once] at h1
          refine ⟨_, fun _ => ⟨h1, fun k i hne => ?_⟩⟩
          rcases step_seen n _ k i hne with ⟨_, h⟩ | ⟨h, h3⟩
          · cases h
          · refine List.mem_filter.2 ⟨h2 k i h, ?_⟩
            simp only [bne_iff_ne, ne_eq]
            rintro rfl
            exact h3 rfl
        | query k' =>
          refine ⟨seen, fun _ => ⟨h1, fun k i hne => ?_⟩⟩
          rcases step_seen n _ k i hne with ⟨_, h⟩ | ⟨h, _⟩
          · cases h
          · exact h2 k i h
      · exact ⟨[], fun h => absurd h hkd⟩
    obtain ⟨d, e, f⟩ := ih seen' b hs'
    refine ⟨(legalAll_append _ _ _).2 ⟨a, d⟩, by rw [run_append]; exact e, fun hn hc => ?_⟩
    have hc1 : opNoCtl o := by
      cases o <;> simp_all [opNoCtl, noControl]
    have hc2 : noControl os = true := by
      cases o <;> simp_all [noControl]
    obtain ⟨g1, g2⟩ := c hn hc1
    obtain ⟨g3, g4⟩ := f g2 hc2
    exact ⟨(safeAll_append _ _ _).2 ⟨g1, g3⟩, by rw [run_append]; exact g4⟩

theorem destroy_good {kd n w} (ks : List Nat) (H : J n w)
    (hks : ∀ k, n.slot k ≠ none → k ∈ ks) :
    w.legalAll (n.destroy kd ks) ∧ (w.run (n.destroy kd ks)).clean
      ∧ (NC kd w → w.safeAll (n.destroy kd ks)) := by
  induction ks generalizing n w with
  | nil =>
    have h0 : ∀ k, n.slot k = none := by
      intro k
      cases hs : n.slot k with
      | none => rfl
      | some sl => have := hks k (by simp [hs]); simp at this
    refine ⟨trivial, ⟨?_, ?_⟩, fun _ => H.safe⟩
    · rintro ⟨k, g⟩
      have := (H k).1.slots g
      rw [h0 k] at this
      simp [hOf] at this
      exact this
    · rintro ⟨k, i, g⟩
      have := (H k).1.ports i g
      rw [h0 k] at this
      simp [pOf] at this
      exact this
  | cons k ks ih =>
    unfold Node.destroy
    cases hs : n.slot k with
    | none =>
      refine ih H fun k' hk' => ?_
      rcases List.mem_cons.1 (hks k' hk') with rfl | h
      · exact absurd hs hk'
      · exact h
    | some sl =>
      have hk := (H k).1
      rw [hs] at hk
      obtain ⟨a, b, c⟩ := lift (n' := n.set k none) H (k := k)
        (by simp only [Node.set, if_true]; exact cleanup_good (kd := kd) sl hk)
        (by simp [Node.set]) (fun j hj => by simp [Node.set, hj])
      obtain ⟨d, e, f⟩ := ih b (by
        intro k' hk'
        by_cases h : k' = k
        · subst h; simp [Node.set] at hk'
        · simp only [Node.set, h, if_false] at hk'
          rcases List.mem_cons.1 (hks k' hk') with h2 | h2
          · exact absurd h2 h
          · exact h2)
      refine ⟨(legalAll_append _ _ _).2 ⟨a, d⟩, by rw [run_append]; exact e, fun hn => ?_⟩
      obtain ⟨g1, g2⟩ := c hn (cleanup_ctl _ _ _)
      exact (safeAll_append _ _ _).2 ⟨g1, f g2⟩

theorem NC.empty (kd : Kind) : NC kd World.empty := by
  cases kd <;> simp [NC, World.empty]

end Verif.NodeSlots
