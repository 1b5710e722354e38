import Verif.SenderSlots.Lemmas

/-! # Slots of the sender pipeline: the sink -/

namespace Verif.SenderSlots

open ApiConfig (Iface Proto Fec)

/-- What is known of the sink. -/
structure Inv (c : Conf) (ls : List Log) (t : Sink) : Prop where
  nd : t.ids.Nodup
  al : ∀ id, id ∈ t.ids ↔ alive ls id
  cr : ∀ id, .created id ∈ ls → id < t.next
  dl : ∀ id, .deleted id ∈ ls → id < t.next
  ad : ∀ id i, (added ls id i).isSome = true → .created id ∈ ls
  sl : ∀ id ∈ t.ids, SlotInv c (added ls id) (t.slot id)
  on : t.outs.Nodup
  om : ∀ id, id ∈ t.outs ↔ id ∈ t.ids ∧ (t.slot id).writer = true
  ac : t.active = t.outs.length

theorem Inv.init (c : Conf) : Inv c [] .init := by
  constructor <;> simp [Sink.init, alive, added]

theorem added_append (ls ls' : List Log) (id : Nat) (i : Iface) :
    added (ls ++ ls') id i = (added ls id i).or (added ls' id i) := by
  simp [added, List.findSome?_append]

theorem added_snoc {ls : List Log} {l : Log} (h : ∀ id i p mc, l ≠ .added id i p mc) (id : Nat) :
    added (ls ++ [l]) id = added ls id := by
  funext i
  rw [added_append]
  have : added [l] id i = none := by
    cases l with
    | added id' i' p mc => exact absurd rfl (h id' i' p mc)
    | _ => rfl
  rw [this, Option.or_none]

theorem added_one {ls : List Log} {id : Nat} {i : Iface} {p : Proto} {mc : Bool} (h : added ls id i = none) :
    added (ls ++ [.added id i p mc]) id = plus (added ls id) i (p, mc) := by
  funext j
  rw [added_append]
  simp only [plus]
  by_cases hj : j = i
  · subst hj; rw [h, if_pos rfl]; simp [added]
  · have : ¬ i = j := fun h => hj h.symm
    rw [if_neg hj]; simp [added, this]

theorem added_other {ls : List Log} {id id' : Nat} {i : Iface} {p : Proto} {mc : Bool} (h : id' ≠ id) :
    added (ls ++ [.added id i p mc]) id' = added ls id' := by
  funext j
  rw [added_append]
  have : ¬ id = id' := fun e => h e.symm
  simp [added, this]

/-- Nothing is created, deleted or added, and the slots change little. -/
theorem Inv.keep {c : Conf} {ls : List Log} {t : Sink} {l : Log} (h : Inv c ls t) (h1 : ∀ id, l ≠ .created id)
    (h2 : ∀ id, l ≠ .deleted id) (h3 : ∀ id i p mc, l ≠ .added id i p mc) (f : Nat → Slot)
    (h4 : ∀ id ∈ t.ids, SlotInv c (added ls id) (f id)) (h5 : ∀ id ∈ t.ids, (f id).writer = (t.slot id).writer) :
    Inv c (ls ++ [l]) { t with slot := f } := by
  have hc : ∀ id, Log.created id ∈ ls ++ [l] ↔ Log.created id ∈ ls := by
    intro id
    simp only [List.mem_append, List.mem_singleton]
    exact ⟨fun h => h.elim (fun h => h) (fun h => absurd h.symm (h1 _)), Or.inl⟩
  have hd : ∀ id, Log.deleted id ∈ ls ++ [l] ↔ Log.deleted id ∈ ls := by
    intro id
    simp only [List.mem_append, List.mem_singleton]
    exact ⟨fun h => h.elim (fun h => h) (fun h => absurd h.symm (h2 _)), Or.inl⟩
  constructor
  · exact h.nd
  · intro id; rw [h.al, alive, alive, hc, hd]
  · intro id hi; exact h.cr id ((hc id).1 hi)
  · intro id hi; exact h.dl id ((hd id).1 hi)
  · intro id i hi; rw [added_snoc h3] at hi; exact (hc id).2 (h.ad id i hi)
  · intro id hi; rw [added_snoc h3]; exact h4 id hi
  · exact h.on
  · intro id
    rw [h.om]
    constructor
    · rintro ⟨h6, h7⟩; exact ⟨h6, by rw [← h7]; exact h5 id h6⟩
    · rintro ⟨h6, h7⟩; exact ⟨h6, by rw [← h7]; exact (h5 id h6).symm⟩
  · exact h.ac

theorem Inv.same {c : Conf} {ls : List Log} {t : Sink} {l : Log} (h : Inv c ls t) (h1 : ∀ id, l ≠ .created id)
    (h2 : ∀ id, l ≠ .deleted id) (h3 : ∀ id i p mc, l ≠ .added id i p mc) : Inv c (ls ++ [l]) t :=
  h.keep h1 h2 h3 t.slot h.sl (fun _ _ => rfl)

theorem upd_same {α : Type} (f : Nat → α) (i : Nat) (x : α) : upd f i x i = x := by simp [upd]

theorem upd_other {α : Type} (f : Nat → α) {i j : Nat} (x : α) (h : j ≠ i) : upd f i x j = f j := by simp [upd, h]

theorem added_none_of {c : Conf} {h : Iface → Option (Proto × Bool)} {s : Slot} {i : Iface} (hi : SlotInv c h s)
    (he : s.ep i = none) : h i = none := by
  cases hh : h i with
  | none => rfl
  | some x => have := hi.hs i x.1 x.2 hh; rw [he] at this; simp at this

theorem step_inv {c : Conf} {ls : List Log} {t t' : Sink} {e : Ev} {l : Log} (h : Inv c ls t)
    (hs : t.step c e = .ok t' l) : Inv c (ls ++ [l]) t' := by
  cases e with
  | create al idn =>
    simp only [Sink.step] at hs
    split at hs
    · simp only [Res.ok.injEq] at hs; obtain ⟨rfl, rfl⟩ := hs
      exact h.same (by simp) (by simp) (by simp)
    · split at hs
      · simp at hs
      · simp only [Res.ok.injEq] at hs; obtain ⟨rfl, rfl⟩ := hs
        have hni : t.next ∉ t.ids := fun hm => Nat.lt_irrefl _ (h.cr _ ((h.al _).1 hm).1)
        have hna : added ls t.next = fun _ => none := by
          funext i
          cases hh : added ls t.next i with
          | none => rfl
          | some x => exact absurd (h.cr _ (h.ad t.next i (by rw [hh]; rfl))) (Nat.lt_irrefl _)
        constructor
        · simp only [List.nodup_append, h.nd]; simp; rintro a ha rfl; exact hni ha
        · intro id
          simp only [alive, List.mem_append, List.mem_singleton, Log.created.injEq, reduceCtorEq, or_false]
          rw [h.al, alive]
          constructor
          · rintro (⟨h1, h2⟩ | rfl)
            · exact ⟨Or.inl h1, h2⟩
            · exact ⟨Or.inr rfl, fun h5 => Nat.lt_irrefl _ (h.dl _ h5)⟩
          · rintro ⟨h1 | h1, h2⟩
            · exact Or.inl ⟨h1, h2⟩
            · exact Or.inr h1
        · intro id hi
          simp only [List.mem_append, List.mem_singleton, Log.created.injEq] at hi
          rcases hi with hi | rfl
          · exact Nat.lt_succ_of_lt (h.cr id hi)
          · exact Nat.lt_succ_self _
        · intro id hi
          simp only [List.mem_append, List.mem_singleton, reduceCtorEq, or_false] at hi
          exact Nat.lt_succ_of_lt (h.dl id hi)
        · intro id i hi
          rw [added_snoc (by simp)] at hi
          exact List.mem_append_left _ (h.ad id i hi)
        · intro id hi
          rw [added_snoc (by simp)]
          simp only [List.mem_append, List.mem_singleton] at hi
          rcases hi with hi | rfl
          · show SlotInv c _ (upd t.slot t.next .empty id)
            rw [upd_other _ _ (by rintro rfl; exact hni hi)]; exact h.sl id hi
          · show SlotInv c _ (upd t.slot t.next .empty t.next)
            rw [upd_same, hna]; exact .empty c
        · exact h.on
        · intro id
          show id ∈ t.outs ↔ id ∈ t.ids ++ [t.next] ∧ (upd t.slot t.next .empty id).writer = true
          rw [h.om, List.mem_append, List.mem_singleton]
          by_cases hid : id = t.next
          · subst hid; rw [upd_same]; simp [hni, Slot.empty]
          · rw [upd_other _ _ hid]; simp [hid]
        · exact h.ac
  | delete id =>
    simp only [Sink.step] at hs
    split at hs
    · simp at hs
    · rename_i hm
      have hm : id ∈ t.ids := by simpa using hm
      have hal : ∀ j, j ∈ t.ids.erase id ↔ alive (ls ++ [.deleted id]) j := by
        intro j
        rw [h.nd.mem_erase_iff, h.al]
        simp only [alive, List.mem_append, List.mem_singleton, Log.deleted.injEq, reduceCtorEq, or_false, not_or]
        exact ⟨fun ⟨h1, h2, h3⟩ => ⟨h2, h3, h1⟩, fun ⟨h2, h3, h1⟩ => ⟨h1, h2, h3⟩⟩
      have hlt : id < t.next := h.cr _ ((h.al _).1 hm).1
      split at hs
      · rename_i hw
        split at hs
        · simp at hs
        · simp only [Res.ok.injEq] at hs; obtain ⟨rfl, rfl⟩ := hs
          constructor
          · exact h.nd.erase _
          · exact hal
          · intro j hj; exact h.cr j (by simpa using hj)
          · intro j hj
            simp only [List.mem_append, List.mem_singleton, Log.deleted.injEq] at hj
            rcases hj with hj | rfl
            · exact h.dl j hj
            · exact hlt
          · intro j i hi; rw [added_snoc (by simp)] at hi; exact List.mem_append_left _ (h.ad j i hi)
          · intro j hj; rw [added_snoc (by simp)]; exact h.sl j (List.mem_of_mem_erase hj)
          · exact h.on.erase _
          · intro j
            show j ∈ t.outs.erase id ↔ j ∈ t.ids.erase id ∧ (t.slot j).writer = true
            rw [h.on.mem_erase_iff, h.nd.mem_erase_iff, h.om, and_assoc]
          · show t.active - 1 = ((t.outs.erase id).length : Int)
            have h7 : 0 < t.outs.length := List.length_pos_of_mem hw.2
            rw [List.length_erase_of_mem hw.2, h.ac]; omega
      · rename_i hw
        simp only [Res.ok.injEq] at hs; obtain ⟨rfl, rfl⟩ := hs
        have hno : id ∉ t.outs := fun h5 => hw ⟨((h.om id).1 h5).2, h5⟩
        constructor
        · exact h.nd.erase _
        · exact hal
        · intro j hj; exact h.cr j (by simpa using hj)
        · intro j hj
          simp only [List.mem_append, List.mem_singleton, Log.deleted.injEq] at hj
          rcases hj with hj | rfl
          · exact h.dl j hj
          · exact hlt
        · intro j i hi; rw [added_snoc (by simp)] at hi; exact List.mem_append_left _ (h.ad j i hi)
        · intro j hj; rw [added_snoc (by simp)]; exact h.sl j (List.mem_of_mem_erase hj)
        · exact h.on
        · intro j
          show j ∈ t.outs ↔ j ∈ t.ids.erase id ∧ (t.slot j).writer = true
          rw [h.nd.mem_erase_iff]
          constructor
          · intro h5
            obtain ⟨h6, h7⟩ := (h.om j).1 h5
            exact ⟨⟨by rintro rfl; exact hno h5, h6⟩, h7⟩
          · rintro ⟨⟨_, h6⟩, h7⟩; exact (h.om j).2 ⟨h6, h7⟩
        · exact h.ac
  | add id i p mc e =>
    simp only [Sink.step] at hs
    split at hs
    · simp at hs
    · rename_i hm
      have hm : id ∈ t.ids := by simpa using hm
      have hg := add_good (h.sl id hm) i p mc e
      cases ha : (t.slot id).add c i p mc e with
      | abort => rw [ha] at hs; simp at hs
      | refused s =>
        rw [ha] at hs hg
        simp only [Res.ok.injEq] at hs; obtain ⟨rfl, rfl⟩ := hs
        obtain ⟨h1, h2, _⟩ := hg
        refine h.keep (by simp) (by simp) (by simp) _ ?_ ?_
        · intro j hj
          by_cases hji : j = id
          · subst hji; rw [upd_same]; exact h1
          · rw [upd_other _ _ hji]; exact h.sl j hj
        · intro j hj
          by_cases hji : j = id
          · subst hji; rw [upd_same]; exact h2
          · rw [upd_other _ _ hji]
      | added s =>
        rw [ha] at hs hg
        simp only [Res.ok.injEq] at hs; obtain ⟨rfl, rfl⟩ := hs
        obtain ⟨h1, h2, h3, h4, h5, h6, h7, h8, h9⟩ := hg
        have hnone := added_none_of (h.sl id hm) h2
        have hwm : (t.slot id).writer = true → s.writer = true := by
          intro hw
          rw [(h.sl id hm).wr] at hw
          rw [h1.wr]
          obtain ⟨ha1, ha2⟩ := hw
          have hp : ∀ j, ((added ls id) j).isSome = true → (plus (added ls id) i (p, mc) j).isSome = true := by
            intro j hj; simp only [plus]; split
            · rfl
            · exact hj
          exact ⟨hp _ ha1, ha2.imp (fun h => h) (hp _)⟩
        have hsl : ∀ j ∈ t.ids, SlotInv c (added (ls ++ [.added id i p mc]) j) (upd t.slot id s j) := by
          intro j hj
          by_cases hji : j = id
          · subst hji; rw [upd_same, added_one hnone]; exact h1
          · rw [upd_other _ _ hji, added_other hji]; exact h.sl j hj
        have hal : ∀ j, j ∈ t.ids ↔ alive (ls ++ [.added id i p mc]) j := by
          intro j; rw [h.al]; simp [alive]
        have hcr : ∀ j, Log.created j ∈ ls ++ [.added id i p mc] → j < t.next := by
          intro j hj; exact h.cr j (by simpa using hj)
        have hdl : ∀ j, Log.deleted j ∈ ls ++ [.added id i p mc] → j < t.next := by
          intro j hj; exact h.dl j (by simpa using hj)
        have had : ∀ j i', (added (ls ++ [.added id i p mc]) j i').isSome = true →
            .created j ∈ ls ++ [Log.added id i p mc] := by
          intro j i' hj
          by_cases hji : j = id
          · subst hji; exact List.mem_append_left _ ((h.al _).1 hm).1
          · rw [added_other hji] at hj; exact List.mem_append_left _ (h.ad j i' hj)
        unfold Sink.connect
        split
        · rename_i hc
          obtain ⟨hc1, hc2, hc3⟩ := hc
          have hsw : s.writer = true := by simpa [upd_same] using hc2
          refine ⟨h.nd, hal, hcr, hdl, had, hsl, ?_, ?_, ?_⟩
          · show (t.outs ++ [id]).Nodup
            simp only [List.nodup_append, h.on]; simp; rintro a hb rfl; exact hc3 hb
          · intro j
            show j ∈ t.outs ++ [id] ↔ j ∈ t.ids ∧ (upd t.slot id s j).writer = true
            rw [List.mem_append, List.mem_singleton, h.om]
            by_cases hji : j = id
            · subst hji; rw [upd_same]; simp [hm, hsw]
            · rw [upd_other _ _ hji]; simp [hji]
          · show t.active + 1 = ((t.outs ++ [id]).length : Int)
            rw [h.ac]; simp
        · rename_i hc
          have hc : ¬ (i ≠ .audioControl ∧ s.writer = true ∧ id ∉ t.outs) := by simpa [upd_same] using hc
          refine ⟨h.nd, hal, hcr, hdl, had, hsl, h.on, ?_, h.ac⟩
          intro j
          show j ∈ t.outs ↔ j ∈ t.ids ∧ (upd t.slot id s j).writer = true
          by_cases hji : j = id
          · subst hji
            rw [upd_same, h.om]
            constructor
            · rintro ⟨h10, h11⟩; exact ⟨h10, hwm h11⟩
            · rintro ⟨h10, h11⟩
              refine ⟨h10, ?_⟩
              by_cases hic : i = .audioControl
              · rw [← h9 hic]; exact h11
              · by_cases ho : j ∈ t.outs
                · exact ((h.om j).1 ho).2
                · exact absurd ⟨hic, h11, ho⟩ hc
          · rw [upd_other _ _ hji]; exact h.om j
  | write f =>
    simp only [Sink.step, Res.ok.injEq] at hs; obtain ⟨rfl, rfl⟩ := hs
    exact h.same (by simp) (by simp) (by simp)
  | report id =>
    simp only [Sink.step] at hs
    split at hs
    · simp at hs
    · simp only [Res.ok.injEq] at hs; obtain ⟨rfl, rfl⟩ := hs
      exact h.same (by simp) (by simp) (by simp)
  | refresh now dl =>
    simp only [Sink.step] at hs
    split at hs
    · simp at hs
    · simp only [Res.ok.injEq] at hs; obtain ⟨rfl, rfl⟩ := hs
      exact h.same (by simp) (by simp) (by simp)
  | query id =>
    simp only [Sink.step] at hs
    split at hs
    · simp at hs
    · simp only [Res.ok.injEq] at hs; obtain ⟨rfl, rfl⟩ := hs
      exact h.same (by simp) (by simp) (by simp)

/-- A history. -/
inductive Reach (c : Conf) : List Ev → List Log → Sink → Prop
  | nil : Reach c [] [] .init
  | snoc {es ls t e t' l} : Reach c es ls t → t.step c e = .ok t' l → Reach c (es ++ [e]) (ls ++ [l]) t'

theorem Reach.inv {c : Conf} {es : List Ev} {ls : List Log} {t : Sink} (h : Reach c es ls t) : Inv c ls t := by
  induction h with
  | nil => exact .init c
  | snoc _ hs ih => exact step_inv ih hs

theorem reach_run {c : Conf} {es es' : List Ev} {ls ls' : List Log} {t t' : Sink} (h : Reach c es ls t)
    (hr : t.run c es' = some (t', ls')) : Reach c (es ++ es') (ls ++ ls') t' := by
  induction es' generalizing es ls ls' t with
  | nil =>
    simp only [Sink.run, Option.some.injEq, Prod.mk.injEq] at hr
    obtain ⟨rfl, rfl⟩ := hr
    simpa using h
  | cons e es' ih =>
    simp only [Sink.run] at hr
    cases hs : t.step c e with
    | abort => rw [hs] at hr; simp at hr
    | ub => rw [hs] at hr; simp at hr
    | ok m l =>
      rw [hs] at hr
      simp only [Option.map_eq_some_iff] at hr
      obtain ⟨⟨m', ls''⟩, hr', he⟩ := hr
      simp only [Prod.mk.injEq] at he
      obtain ⟨rfl, rfl⟩ := he
      simpa using ih (h.snoc hs) hr'

theorem run_reach {c : Conf} {es : List Ev} {ls : List Log} {t : Sink} (h : Sink.run c .init es = some (t, ls)) :
    Reach c es ls t := by
  simpa using reach_run .nil h

end Verif.SenderSlots
