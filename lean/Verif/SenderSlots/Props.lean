import Verif.SenderSlots.Inv

/-!
# C118: slots of a sender

For all sequences of calls, all results of allocations, any number of slots.
-/

namespace Verif.SenderSlots

open ApiConfig (Iface Proto Fec)

theorem got_append (id : Nat) (ls ls' : List Log) : got id (ls ++ ls') = got id ls ++ got id ls' := by
  induction ls with
  | nil => rfl
  | cons l ls ih => cases l <;> simp [got, ih]

theorem added_cons (l : Log) (ls : List Log) (id : Nat) (i : Iface) :
    added (l :: ls) id i = (added [l] id i).or (added ls id i) := by
  rw [← added_append]; rfl

theorem due_snoc (c : Conf) (id : Nat) (l : Log) : ∀ (ls : List Log) (s r : Bool),
    due c id s r (ls ++ [l]) = due c id s r ls ++
      (match l with
      | .wrote f _ =>
        if .deleted id ∉ ls ∧ (s || (added ls id .audioSource).isSome) = true
          ∧ (c.scheme = .none ∨ (r || (added ls id .audioRepair).isSome) = true) then [f] else []
      | _ => []) := by
  intro ls
  induction ls with
  | nil =>
    intro s r
    cases l with
    | wrote f o => simp [due, added]
    | added id' i p mc => simp only [List.nil_append, due]; split <;> rfl
    | deleted id' => simp only [List.nil_append, due]; split <;> rfl
    | _ => rfl
  | cons x xs ih =>
    intro s r
    simp only [added_cons x xs]
    cases x with
    | added id' i p mc =>
      simp only [List.cons_append, due]
      by_cases h : id' = id
      · subst h
        rw [if_pos rfl, if_pos rfl, ih]
        cases l <;> simp [added]
        cases i <;> simp
      · rw [if_neg h, if_neg h, ih]
        cases l <;> simp [added, h]
    | deleted id' =>
      simp only [List.cons_append, due]
      by_cases h : id' = id
      · subst h; rw [if_pos rfl, if_pos rfl]; cases l <;> simp
      · have h' : ¬ id = id' := fun e => h e.symm
        rw [if_neg h, if_neg h, ih]
        cases l <;> simp [added, h']
    | wrote f o =>
      simp only [List.cons_append, due]
      split
      · rw [ih]; cases l <;> simp [added]
      · rw [ih]; cases l <;> simp [added]
    | _ => simp only [List.cons_append, due]; rw [ih]; cases l <;> simp [added]

theorem filter_nodup {l : List Nat} (h : l.Nodup) (id : Nat) : l.filter (· = id) = if id ∈ l then [id] else [] := by
  induction l with
  | nil => rfl
  | cons a l ih =>
    rw [List.nodup_cons] at h
    by_cases ha : a = id
    · subst ha; simp [ih h.2, h.1]
    · have ha' : ¬ id = a := fun e => ha e.symm
      simp [ih h.2, ha, ha']

theorem Inv.outs_iff {c : Conf} {ls : List Log} {t : Sink} (h : Inv c ls t) (id : Nat) :
    id ∈ t.outs ↔ .deleted id ∉ ls ∧ complete c ls id := by
  rw [h.om]
  constructor
  · rintro ⟨h1, h2⟩
    exact ⟨((h.al id).1 h1).2, (h.sl id h1).wr.1 h2⟩
  · rintro ⟨h1, h2⟩
    have h3 : id ∈ t.ids := (h.al id).2 ⟨h.ad id _ h2.1, h1⟩
    exact ⟨h3, (h.sl id h3).wr.2 h2⟩

/-- **C118 (frames)**: every slot gets exactly the frames that are written while it is complete, that is from the return of
the last endpoint its FEC scheme needs, in whatever order these are added, until it is deleted; each frame once and in
order. -/
theorem C118_frames (c : Conf) (es : List Ev) (t : Sink) (ls : List Log) (h : Sink.run c .init es = some (t, ls))
    (id : Nat) : got id ls = due c id false false ls := by
  have hr := run_reach h
  clear h
  induction hr with
  | nil => rfl
  | @snoc es ls t e t' l hr hs ih =>
    have hi := hr.inv
    rw [got_append, due_snoc, ih]
    congr 1
    cases e with
    | write f =>
      simp only [Sink.step, Res.ok.injEq] at hs
      obtain ⟨rfl, rfl⟩ := hs
      simp only [got, List.append_nil, filter_nodup hi.on, Bool.false_or]
      have ho := hi.outs_iff id
      unfold complete at ho
      by_cases hm : id ∈ t.outs
      · rw [if_pos hm, if_pos (ho.1 hm)]; rfl
      · rw [if_neg hm, if_neg (fun h => hm (ho.2 h))]; rfl
    | create al idn =>
      simp only [Sink.step] at hs
      split at hs
      · simp only [Res.ok.injEq] at hs; obtain ⟨rfl, rfl⟩ := hs; rfl
      · split at hs
        · simp at hs
        · simp only [Res.ok.injEq] at hs; obtain ⟨rfl, rfl⟩ := hs; rfl
    | delete id =>
      simp only [Sink.step] at hs
      split at hs
      · simp at hs
      · split at hs
        · split at hs
          · simp at hs
          · simp only [Res.ok.injEq] at hs; obtain ⟨rfl, rfl⟩ := hs; rfl
        · simp only [Res.ok.injEq] at hs; obtain ⟨rfl, rfl⟩ := hs; rfl
    | add id i p mc e =>
      simp only [Sink.step] at hs
      split at hs
      · simp at hs
      · split at hs
        · simp at hs
        · simp only [Res.ok.injEq] at hs; obtain ⟨rfl, rfl⟩ := hs; rfl
        · simp only [Res.ok.injEq] at hs; obtain ⟨rfl, rfl⟩ := hs; rfl
    | report id =>
      simp only [Sink.step] at hs
      split at hs
      · simp at hs
      · simp only [Res.ok.injEq] at hs; obtain ⟨rfl, rfl⟩ := hs; rfl
    | refresh now dl =>
      simp only [Sink.step] at hs
      split at hs
      · simp at hs
      · simp only [Res.ok.injEq] at hs; obtain ⟨rfl, rfl⟩ := hs; rfl
    | query id =>
      simp only [Sink.step] at hs
      split at hs
      · simp at hs
      · simp only [Res.ok.injEq] at hs; obtain ⟨rfl, rfl⟩ := hs; rfl

/-- **C118 (sessions)**: the number of sessions is the number of slots that exist and are complete. -/
theorem C118_sessions (c : Conf) (es : List Ev) (t : Sink) (ls : List Log) (h : Sink.run c .init es = some (t, ls)) :
    ∃ l : List Nat, l.Nodup ∧ (∀ id, id ∈ l ↔ alive ls id ∧ complete c ls id) ∧ t.active = l.length := by
  have hi := (run_reach h).inv
  refine ⟨t.outs, hi.on, fun id => ?_, hi.ac⟩
  rw [hi.outs_iff]
  constructor
  · rintro ⟨h1, h2⟩; exact ⟨⟨hi.ad id _ h2.1, h1⟩, h2⟩
  · rintro ⟨h1, h2⟩; exact ⟨h1.2, h2⟩

/-- **C118 (metrics)**: a slot is reported to be complete exactly if it is. -/
theorem C118_metrics (c : Conf) (es : List Ev) (t : Sink) (ls : List Log) (h : Sink.run c .init es = some (t, ls))
    (id : Nat) (ha : alive ls id) :
    ∃ b, t.step c (.query id) = .ok t (.metrics id b) ∧ (b = true ↔ complete c ls id) := by
  have hi := (run_reach h).inv
  have hm := (hi.al id).2 ha
  exact ⟨(t.slot id).writer, by simp [Sink.step, hm], (hi.sl id hm).wr⟩

/-- **C118 (feedback)**: reports of receivers are used exactly if the slot is complete and has a control endpoint with an
address that is not a multicast address; again in whatever order the endpoints were added. -/
theorem C118_feedback (c : Conf) (es : List Ev) (t : Sink) (ls : List Log) (h : Sink.run c .init es = some (t, ls))
    (id : Nat) (ha : alive ls id) :
    ∃ b, t.step c (.report id) = .ok t (.report id b)
      ∧ (b = true ↔ complete c ls id ∧ ∃ p, added ls id .audioControl = some (p, false)) := by
  have hi := (run_reach h).inv
  have hm := (hi.al id).2 ha
  have hs := hi.sl id hm
  refine ⟨(t.slot id).rtcp && decide ((t.slot id).mon = .started), by simp [Sink.step, hm], ?_⟩
  rw [Bool.and_eq_true, decide_eq_true_eq, hs.mst, hs.wr]
  constructor
  · rintro ⟨h1, h2, _, h3⟩
    refine ⟨h2, ?_⟩
    have h4 := hs.rt
    rw [h1] at h4
    cases hh : added ls id .audioControl with
    | none => rw [hh] at h4; simp at h4
    | some x =>
      have h5 := hs.hm x.1 x.2 hh
      exact ⟨x.1, by rw [← h3, h5]⟩
  · rintro ⟨h1, p, hp⟩
    have h4 : (t.slot id).rtcp = true := by rw [hs.rt, hp]; rfl
    exact ⟨h4, h1, h4, hs.hm p false hp⟩

/-- **C118 (endpoints)**: an endpoint is returned only for a protocol that is allowed and at most once for each interface
of a slot. -/
theorem C118_added (c : Conf) (es : List Ev) (t : Sink) (ls : List Log) (h : Sink.run c .init es = some (t, ls))
    (id : Nat) (i : Iface) (p : Proto) (mc : Bool) (e : Env) (t' : Sink) (l : Log)
    (hs : t.step c (.add id i p mc e) = .ok t' l) :
    l = .refused ∨ (l = .added id i p mc ∧ alive ls id ∧ Allowed c i p ∧ added ls id i = none) := by
  have hi := (run_reach h).inv
  simp only [Sink.step] at hs
  split at hs
  · simp at hs
  · rename_i hm
    have hm : id ∈ t.ids := by simpa using hm
    have hg := add_good (hi.sl id hm) i p mc e
    cases ha : (t.slot id).add c i p mc e with
    | abort => rw [ha] at hs; simp at hs
    | refused s => rw [ha] at hs; simp only [Res.ok.injEq] at hs; exact Or.inl hs.2.symm
    | added s =>
      rw [ha] at hs hg; simp only [Res.ok.injEq] at hs
      exact Or.inr ⟨hs.2.symm, (hi.al id).1 hm, ok_iff.1 hg.2.2.1, added_none_of (hi.sl id hm) hg.2.1⟩

/-- Without failures the endpoints of a slot are those that were returned. -/
theorem Reach.noFailure {c : Conf} {es : List Ev} {ls : List Log} {t : Sink} (hr : Reach c es ls t) :
    ∀ id ∈ t.ids, noFailure es id →
      (∀ i, ((t.slot id).ep i).isSome = true → (added ls id i).isSome = true) ∧ (t.slot id).mon ≠ .bad := by
  induction hr with
  | nil => intro id hid; simp [Sink.init] at hid
  | @snoc es ls t e t' l hr hs ih =>
    have hi := hr.inv
    intro id hid hn
    have hn' : SenderSlots.noFailure es id := fun i p mc e he => hn i p mc e (List.mem_append_left _ he)
    have hkeep : id ∈ t.ids → t'.slot id = t.slot id → added (ls ++ [l]) id = added ls id →
        (∀ i, ((t'.slot id).ep i).isSome = true → (added (ls ++ [l]) id i).isSome = true) ∧ (t'.slot id).mon ≠ .bad := by
      intro h1 h2 h3
      rw [h2, h3]; exact ih id h1 hn'
    cases e with
    | create al idn =>
      simp only [Sink.step] at hs
      split at hs
      · simp only [Res.ok.injEq] at hs; obtain ⟨rfl, rfl⟩ := hs
        exact hkeep hid rfl (added_snoc (by simp) id)
      · split at hs
        · simp at hs
        · simp only [Res.ok.injEq] at hs; obtain ⟨rfl, rfl⟩ := hs
          simp only [List.mem_append, List.mem_singleton] at hid
          by_cases hx : id = t.next
          · subst hx
            show (∀ i, ((upd t.slot t.next .empty t.next).ep i).isSome = true → _) ∧ (upd t.slot t.next .empty t.next).mon ≠ .bad
            rw [upd_same]
            exact ⟨by intro i; cases i <;> simp [Slot.empty, Slot.ep], by simp [Slot.empty]⟩
          · exact hkeep (hid.resolve_right hx) (upd_other _ _ hx) (added_snoc (by simp) id)
    | delete j =>
      simp only [Sink.step] at hs
      split at hs
      · simp at hs
      · split at hs
        · split at hs
          · simp at hs
          · simp only [Res.ok.injEq] at hs; obtain ⟨rfl, rfl⟩ := hs
            exact hkeep (List.mem_of_mem_erase hid) rfl (added_snoc (by simp) id)
        · simp only [Res.ok.injEq] at hs; obtain ⟨rfl, rfl⟩ := hs
          exact hkeep (List.mem_of_mem_erase hid) rfl (added_snoc (by simp) id)
    | add j i p mc e =>
      simp only [Sink.step] at hs
      split at hs
      · simp at hs
      · rename_i hm
        have hm : j ∈ t.ids := by simpa using hm
        have hg := add_good (hi.sl j hm) i p mc e
        cases ha : (t.slot j).add c i p mc e with
        | abort => rw [ha] at hs; simp at hs
        | refused s =>
          rw [ha] at hs hg; simp only [Res.ok.injEq] at hs; obtain ⟨rfl, rfl⟩ := hs
          by_cases hx : id = j
          · subst hx
            have he : e = .rich := hn i p mc e (by simp)
            have hsame : s = t.slot id := by
              apply hg.2.2.2.2.2.2
              cases hep : (t.slot id).ep i with
              | some q => exact Or.inl rfl
              | none =>
                right
                cases hok : ok c i p with
                | false => rfl
                | true => exact absurd he (hg.2.2.2.1 hep hok)
            exact hkeep hid (by show upd t.slot id s id = _; rw [upd_same, hsame]) (added_snoc (by simp) id)
          · exact hkeep hid (upd_other _ _ hx) (added_snoc (by simp) id)
        | added s =>
          rw [ha] at hs hg; simp only [Res.ok.injEq] at hs; obtain ⟨rfl, rfl⟩ := hs
          have hsl : ∀ k, (Sink.connect { t with slot := upd t.slot j s } j i).slot k = upd t.slot j s k := by
            intro k; unfold Sink.connect; split <;> rfl
          have hids : (Sink.connect { t with slot := upd t.slot j s } j i).ids = t.ids := by
            unfold Sink.connect; split <;> rfl
          rw [hids] at hid
          obtain ⟨g1, g2, g3, g4, g5, g6, g7, g8, g9⟩ := hg
          by_cases hx : id = j
          · subst hx
            rw [hsl, upd_same, added_one (added_none_of (hi.sl id hm) g2)]
            have hih := ih id hid hn'
            refine ⟨fun k hk => ?_, g8 hih.2⟩
            simp only [plus]
            by_cases hki : k = i
            · rw [if_pos hki]; rfl
            · rw [if_neg hki]; rw [g7 k hki] at hk; exact hih.1 k hk
          · exact hkeep hid (by rw [hsl, upd_other _ _ hx]) (added_other hx)
    | write f =>
      simp only [Sink.step, Res.ok.injEq] at hs; obtain ⟨rfl, rfl⟩ := hs
      exact hkeep hid rfl (added_snoc (by simp) id)
    | report j =>
      simp only [Sink.step] at hs
      split at hs
      · simp at hs
      · simp only [Res.ok.injEq] at hs; obtain ⟨rfl, rfl⟩ := hs
        exact hkeep hid rfl (added_snoc (by simp) id)
    | refresh now dl =>
      simp only [Sink.step] at hs
      split at hs
      · simp at hs
      · simp only [Res.ok.injEq] at hs; obtain ⟨rfl, rfl⟩ := hs
        exact hkeep hid rfl (added_snoc (by simp) id)
    | query j =>
      simp only [Sink.step] at hs
      split at hs
      · simp at hs
      · simp only [Res.ok.injEq] at hs; obtain ⟨rfl, rfl⟩ := hs
        exact hkeep hid rfl (added_snoc (by simp) id)

/-- **C118 (endpoints)**: if nothing failed to be constructed for the slot, an endpoint is returned for every allowed
protocol for an interface that has none; otherwise NULL is returned and nothing changes. -/
theorem C118_add (c : Conf) (es : List Ev) (t : Sink) (ls : List Log) (h : Sink.run c .init es = some (t, ls))
    (id : Nat) (ha : alive ls id) (hn : noFailure es id) (i : Iface) (p : Proto) (mc : Bool) :
    (Allowed c i p ∧ added ls id i = none → ∃ t', t.step c (.add id i p mc .rich) = .ok t' (.added id i p mc))
      ∧ (¬ (Allowed c i p ∧ added ls id i = none) → t.step c (.add id i p mc .rich) = .ok t .refused) := by
  have hr := run_reach h
  have hi := hr.inv
  have hm := (hi.al id).2 ha
  obtain ⟨h1, h2⟩ := hr.noFailure id hm hn
  have hg := add_good (hi.sl id hm) i p mc .rich
  have hnot : ¬ id ∉ t.ids := fun h => h hm
  have hep : added ls id i = none ↔ (t.slot id).ep i = none := by
    constructor
    · intro h3
      cases h4 : (t.slot id).ep i with
      | none => rfl
      | some q => have := h1 i (by rw [h4]; rfl); rw [h3] at this; simp at this
    · exact added_none_of (hi.sl id hm)
  rw [hep, ← ok_iff]
  simp only [Sink.step, if_neg hnot]
  cases hadd : (t.slot id).add c i p mc .rich with
  | abort => rw [hadd] at hg; exact absurd hg.1 h2
  | refused s =>
    rw [hadd] at hg
    constructor
    · rintro ⟨h3, h4⟩; exact absurd rfl (hg.2.2.2.1 h4 h3)
    · intro h3
      have hsame : s = t.slot id := by
        apply hg.2.2.2.2.2.2
        cases h4 : (t.slot id).ep i with
        | some q => exact Or.inl rfl
        | none =>
          right
          cases h5 : ok c i p with
          | false => rfl
          | true => exact absurd ⟨h5, h4⟩ h3
      have : upd t.slot id s = t.slot := by
        funext k
        by_cases hk : k = id
        · subst hk; rw [upd_same, hsame]
        · rw [upd_other _ _ hk]
      simp only [this]
  | added s =>
    rw [hadd] at hg
    exact ⟨fun _ => ⟨_, rfl⟩, fun h3 => absurd ⟨hg.2.2.1, hg.2.1⟩ h3⟩

theorem earliest_spec (t : Sink) (dl : Nat → Int) : ∀ (ids : List Nat) (n : Int),
    let r := earliest t dl ids n
    let good := fun id => id ∈ ids ∧ (t.slot id).rtcp = true ∧ dl id ≠ 0
    (r = n ∨ ∃ id, good id ∧ r = dl id) ∧ (∀ id, good id → r ≠ 0 ∧ r ≤ dl id) ∧ (n ≠ 0 → r ≠ 0 ∧ r ≤ n) := by
  intro ids
  induction ids with
  | nil => intro n; simp [earliest]
  | cons a ids ih =>
    intro n
    simp only [earliest]
    have h := ih (if (if (t.slot a).rtcp = true then dl a else 0) = 0 then n
      else if n = 0 then (if (t.slot a).rtcp = true then dl a else 0)
      else min n (if (t.slot a).rtcp = true then dl a else 0))
    generalize hd : (if (t.slot a).rtcp = true then dl a else 0) = d at h ⊢
    generalize hm : (if d = 0 then n else if n = 0 then d else min n d) = m at h ⊢
    simp only at h
    generalize earliest t dl ids m = r at h ⊢
    obtain ⟨h1, h2, h3⟩ := h
    have hda : d ≠ 0 → (t.slot a).rtcp = true ∧ dl a ≠ 0 ∧ d = dl a := by
      intro h0
      by_cases hr : (t.slot a).rtcp = true
      · rw [if_pos hr] at hd; exact ⟨hr, by rw [hd]; exact h0, hd.symm⟩
      · rw [if_neg hr] at hd; exact absurd hd.symm h0
    refine ⟨?_, ?_, ?_⟩
    · rcases h1 with h1 | ⟨id, ⟨h4, h5⟩, h6⟩
      · by_cases h0 : d = 0
        · rw [if_pos h0] at hm; left; rw [h1, hm]
        · rw [if_neg h0] at hm
          obtain ⟨ha1, ha2, ha3⟩ := hda h0
          by_cases hn : n = 0
          · rw [if_pos hn] at hm; right; exact ⟨a, ⟨List.mem_cons_self, ha1, ha2⟩, by rw [h1, ← hm, ha3]⟩
          · rw [if_neg hn] at hm
            by_cases hle : n ≤ d
            · left; rw [h1, ← hm]; omega
            · right; exact ⟨a, ⟨List.mem_cons_self, ha1, ha2⟩, by rw [h1, ← hm, ← ha3]; omega⟩
      · right; exact ⟨id, ⟨List.mem_cons_of_mem _ h4, h5⟩, h6⟩
    · rintro id ⟨h4, h5, h6⟩
      rcases List.mem_cons.1 h4 with rfl | h4
      · rw [if_pos h5] at hd
        have h0 : d ≠ 0 := by rw [← hd]; exact h6
        rw [if_neg h0] at hm
        have hm0 : m ≠ 0 ∧ m ≤ d ∨ (m = n ∧ n ≠ 0 ∧ n ≤ d) ∨ (m = d) := by
          by_cases hn : n = 0
          · rw [if_pos hn] at hm; right; right; exact hm.symm
          · rw [if_neg hn] at hm; clear h1 h2 h3; omega
        have hm1 : m ≠ 0 ∧ m ≤ d := by
          rcases hm0 with h | ⟨h, h', h''⟩ | h
          · exact h
          · rw [h]; exact ⟨h', h''⟩
          · rw [h]; exact ⟨h0, Int.le_refl _⟩
        have := h3 hm1.1
        rw [hd]; exact ⟨this.1, by omega⟩
      · exact h2 id ⟨h4, h5, h6⟩
    · intro hn
      have hm1 : m ≠ 0 ∧ m ≤ n := by
        by_cases h0 : d = 0
        · rw [if_pos h0] at hm; omega
        · rw [if_neg h0, if_neg hn] at hm; clear h1 h2 h3; omega
      have := h3 hm1.1
      exact ⟨this.1, by omega⟩

/-- **C118 (refresh)**: the returned deadline is the earliest one of all slots that have a control endpoint, and zero if
there is no such slot. -/
theorem C118_refresh (c : Conf) (es : List Ev) (t : Sink) (ls : List Log) (h : Sink.run c .init es = some (t, ls))
    (now : Int) (hn : 0 < now) (dl : Nat → Int) (hd : ∀ id, dl id ≠ 0) :
    ∃ d, t.step c (.refresh now dl) = .ok t (.refreshed d)
      ∧ (∀ id, alive ls id → (added ls id .audioControl).isSome = true → d ≠ 0 ∧ d ≤ dl id)
      ∧ (d = 0 ∨ ∃ id, alive ls id ∧ (added ls id .audioControl).isSome = true ∧ d = dl id) := by
  have hi := (run_reach h).inv
  have hsp := earliest_spec t dl t.ids 0
  simp only at hsp
  refine ⟨earliest t dl t.ids 0, by simp only [Sink.step]; rw [if_neg (by omega)], ?_, ?_⟩
  · intro id ha hc
    have hm := (hi.al id).2 ha
    exact hsp.2.1 id ⟨hm, by rw [(hi.sl id hm).rt]; exact hc, hd id⟩
  · rcases hsp.1 with h1 | ⟨id, ⟨h1, h2, _⟩, h3⟩
    · exact Or.inl h1
    · exact Or.inr ⟨id, (hi.al id).1 h1, by rw [← (hi.sl id h1).rt]; exact h2, h3⟩

/-- Nothing can make the slot complete any more. -/
def Dead (c : Conf) (t : Sink) (id : Nat) : Prop :=
  id < t.next ∧ (id ∈ t.ids → (t.slot id).source.isSome = true ∧ ((t.slot id).repair.isSome = true ∨ c.scheme = .none)
    ∧ (t.slot id).writer = false)

theorem Dead.step {c : Conf} {ls : List Log} {t t' : Sink} {id : Nat} {e : Ev} {l : Log} (hi : Inv c ls t)
    (hd : Dead c t id) (hs : t.step c e = .ok t' l) :
    Dead c t' id ∧ (∀ f o, l = .wrote f o → id ∉ o) ∧ ∀ i p mc, l = .added id i p mc → i = .audioControl := by
  obtain ⟨hlt, hd⟩ := hd
  cases e with
  | create al idn =>
    simp only [Sink.step] at hs
    split at hs
    · simp only [Res.ok.injEq] at hs; obtain ⟨rfl, rfl⟩ := hs
      exact ⟨⟨hlt, hd⟩, by simp, by simp⟩
    · split at hs
      · simp at hs
      · simp only [Res.ok.injEq] at hs; obtain ⟨rfl, rfl⟩ := hs
        have hx : id ≠ t.next := by omega
        refine ⟨⟨Nat.lt_succ_of_lt hlt, fun hid => ?_⟩, by simp, by simp⟩
        simp only [List.mem_append, List.mem_singleton] at hid
        simp only [upd_other _ _ hx]
        exact hd (hid.resolve_right hx)
  | delete j =>
    simp only [Sink.step] at hs
    split at hs
    · simp at hs
    · split at hs
      · split at hs
        · simp at hs
        · simp only [Res.ok.injEq] at hs; obtain ⟨rfl, rfl⟩ := hs
          exact ⟨⟨hlt, fun hid => hd (List.mem_of_mem_erase hid)⟩, by simp, by simp⟩
      · simp only [Res.ok.injEq] at hs; obtain ⟨rfl, rfl⟩ := hs
        exact ⟨⟨hlt, fun hid => hd (List.mem_of_mem_erase hid)⟩, by simp, by simp⟩
  | add j i p mc e =>
    simp only [Sink.step] at hs
    split at hs
    · simp at hs
    · rename_i hm
      have hm : j ∈ t.ids := by simpa using hm
      have hg := add_good (hi.sl j hm) i p mc e
      cases ha : (t.slot j).add c i p mc e with
      | abort => rw [ha] at hs; simp at hs
      | refused s =>
        rw [ha] at hs hg; simp only [Res.ok.injEq] at hs; obtain ⟨rfl, rfl⟩ := hs
        refine ⟨⟨hlt, fun hid => ?_⟩, by simp, by simp⟩
        by_cases hx : id = j
        · subst hx
          obtain ⟨h1, h2, h3⟩ := hd hid
          simp only [upd_same]
          exact ⟨hg.2.2.2.2.1 h1, h2.imp hg.2.2.2.2.2.1 (fun h => h), by rw [hg.2.1]; exact h3⟩
        · simp only [upd_other _ _ hx]; exact hd hid
      | added s =>
        rw [ha] at hs hg; simp only [Res.ok.injEq] at hs; obtain ⟨rfl, rfl⟩ := hs
        have hsl : ∀ k, (Sink.connect { t with slot := upd t.slot j s } j i).slot k = upd t.slot j s k := by
          intro k; unfold Sink.connect; split <;> rfl
        have hids : (Sink.connect { t with slot := upd t.slot j s } j i).ids = t.ids := by
          unfold Sink.connect; split <;> rfl
        have hnx : (Sink.connect { t with slot := upd t.slot j s } j i).next = t.next := by
          unfold Sink.connect; split <;> rfl
        obtain ⟨g1, g2, g3, g4, g5, g6, g7, g8, g9⟩ := hg
        have hctl : id = j → i = .audioControl := by
          rintro rfl
          obtain ⟨h1, h2, h3⟩ := hd hm
          cases i with
          | audioControl => rfl
          | consolidated => exact absurd rfl g4
          | audioSource => simp only [Slot.ep] at g2; rw [g2] at h1; simp at h1
          | audioRepair =>
            simp only [Slot.ep] at g2
            rcases h2 with h2 | h2
            · rw [g2] at h2; simp at h2
            · simp only [ok, h2] at g3
              cases p <;> simp [EncoderApi.fits] at g3
        refine ⟨⟨by rw [hnx]; exact hlt, fun hid => ?_⟩, by simp, ?_⟩
        · rw [hids] at hid
          rw [hsl]
          by_cases hx : id = j
          · have hic := hctl hx
            subst hx
            obtain ⟨h1, h2, h3⟩ := hd hid
            rw [upd_same]
            exact ⟨g5 h1, h2.imp g6 (fun h => h), by rw [g9 hic]; exact h3⟩
          · rw [upd_other _ _ hx]; exact hd hid
        · intro i' p' mc' he
          simp only [Log.added.injEq] at he
          rw [← he.2.1]; exact hctl he.1.symm
  | write f =>
    simp only [Sink.step, Res.ok.injEq] at hs; obtain ⟨rfl, rfl⟩ := hs
    refine ⟨⟨hlt, hd⟩, ?_, by simp⟩
    intro f' o he
    simp only [Log.wrote.injEq] at he
    rw [← he.2]
    intro ho
    obtain ⟨h1, h2⟩ := (hi.om id).1 ho
    rw [(hd h1).2.2] at h2; simp at h2
  | report j =>
    simp only [Sink.step] at hs
    split at hs
    · simp at hs
    · simp only [Res.ok.injEq] at hs; obtain ⟨rfl, rfl⟩ := hs
      exact ⟨⟨hlt, hd⟩, by simp, by simp⟩
  | refresh now dl =>
    simp only [Sink.step] at hs
    split at hs
    · simp at hs
    · simp only [Res.ok.injEq] at hs; obtain ⟨rfl, rfl⟩ := hs
      exact ⟨⟨hlt, hd⟩, by simp, by simp⟩
  | query j =>
    simp only [Sink.step] at hs
    split at hs
    · simp at hs
    · simp only [Res.ok.injEq] at hs; obtain ⟨rfl, rfl⟩ := hs
      exact ⟨⟨hlt, hd⟩, by simp, by simp⟩

theorem Dead.run {c : Conf} {id : Nat} : ∀ (es : List Ev) {ls : List Log} {t : Sink}, Inv c ls t → Dead c t id →
    ∀ t' ls', Sink.run c t es = some (t', ls') →
      got id ls' = [] ∧ ∀ i p mc, .added id i p mc ∈ ls' → i = .audioControl := by
  intro es
  induction es with
  | nil => intro ls t _ _ t' ls' h; simp only [Sink.run, Option.some.injEq, Prod.mk.injEq] at h; simp [← h.2, got]
  | cons e es ih =>
    intro ls t hi hd t' ls' h
    simp only [Sink.run] at h
    cases hs : t.step c e with
    | abort => rw [hs] at h; simp at h
    | ub => rw [hs] at h; simp at h
    | ok t1 l =>
      rw [hs] at h
      simp only [Option.map_eq_some_iff, Prod.mk.injEq] at h
      obtain ⟨⟨t2, ls2⟩, h1, rfl, rfl⟩ := h
      obtain ⟨hd1, hw, ha⟩ := hd.step hi hs
      obtain ⟨h3, h4⟩ := ih (step_inv hi hs) hd1 t2 ls2 h1
      constructor
      · cases l with
        | wrote f o =>
          have : o.filter (· = id) = [] := by
            rw [List.filter_eq_nil_iff]; intro a hao; simp only [decide_eq_true_eq]; rintro rfl; exact hw f o rfl hao
          simp only [got, this, List.map_nil, List.nil_append]; exact h3
        | _ => exact h3
      · intro i p mc hm
        rcases List.mem_cons.1 hm with hm | hm
        · exact ha i p mc hm.symm
        · exact h4 i p mc hm

/-- The slot after the endpoint was set but its pipeline could not be constructed. -/
theorem failed_step {c : Conf} {es : List Ev} {t : Sink} {ls : List Log} (h : Sink.run c .init es = some (t, ls))
    {id : Nat} (ha : alive ls id) (hn : noFailure es id) {i : Iface} {p : Proto} (mc : Bool) {e : Env}
    (hne : added ls id i = none) (hal : Allowed c i p)
    (hlast : (i = .audioSource ∧ (c.scheme = .none ∨ (added ls id .audioRepair).isSome = true))
      ∨ (i = .audioRepair ∧ (added ls id .audioSource).isSome = true))
    (hee : e.endpoint = true) (hep : e.pipe ≠ .ok) :
    ∃ s, t.step c (.add id i p mc e) = .ok { t with slot := upd t.slot id s } .refused
      ∧ s.source.isSome = true ∧ (s.repair.isSome = true ∨ c.scheme = .none) ∧ s.writer = false
      ∧ s.control = (t.slot id).control ∧ s.rtcp = (t.slot id).rtcp
      ∧ s.mon = if e.pipe = .badMonitor then .bad else (t.slot id).mon := by
  have hr := run_reach h
  have hi := hr.inv
  have hm := (hi.al id).2 ha
  have hsi := hi.sl id hm
  obtain ⟨h1, h2⟩ := hr.noFailure id hm hn
  have hepn : (t.slot id).ep i = none := by
    cases h4 : (t.slot id).ep i with
    | none => rfl
    | some q => have := h1 i (by rw [h4]; rfl); rw [hne] at this; simp at this
  have hok : ok c i p = true := ok_iff.2 hal
  have hchk : (t.slot id).checks c i p e = true := by rw [checks_eq hsi, hepn, hok, hee]; rfl
  have hnot : ¬ id ∉ t.ids := fun h => h hm
  have hsome : ∀ j, (added ls id j).isSome = true → ((t.slot id).ep j).isSome = true := by
    intro j hj
    cases hh : added ls id j with
    | none => rw [hh] at hj; simp at hj
    | some x => rw [hsi.hs j x.1 x.2 hh]; rfl
  have hw : (t.slot id).writer = false := by
    cases hw : (t.slot id).writer with
    | false => rfl
    | true =>
      obtain ⟨h5, h6⟩ := hsi.wr.1 hw
      rcases hlast with ⟨rfl, _⟩ | ⟨rfl, _⟩
      · rw [hne] at h5; simp at h5
      · rcases h6 with h6 | h6
        · rcases hal with ⟨h7, _⟩ | ⟨h7, _⟩
          · simp at h7
          · rw [h6] at h7; cases p <;> simp [EncoderApi.fits] at h7
        · rw [hne] at h6; simp at h6
  have hset : ((t.slot id).set i p).source.isSome = true
      ∧ (((t.slot id).set i p).repair.isSome = true ∨ c.scheme = .none) := by
    rcases hlast with ⟨rfl, h5⟩ | ⟨rfl, h5⟩
    · exact ⟨rfl, h5.symm.imp (hsome .audioRepair) (fun h => h)⟩
    · exact ⟨hsome .audioSource h5, Or.inl rfl⟩
  have hfull : ((t.slot id).set i p).full c = true := by
    unfold Slot.full; rw [hset.1]
    rcases hset.2 with h5 | h5
    · rw [h5]; rfl
    · rw [decide_eq_true h5]; simp
  have hw' : ((t.slot id).set i p).writer = false := by cases i <;> exact hw
  have hadd : (t.slot id).add c i p mc e = ((t.slot id).set i p).transport e := by
    unfold Slot.add
    rw [if_neg (by rw [hchk]; simp)]
    rcases hlast with ⟨rfl, _⟩ | ⟨rfl, _⟩
    · simp only; rw [if_pos hfull]
    · simp only; rw [if_pos hfull]
  have hc : ((t.slot id).set i p).control = (t.slot id).control := by
    rcases hlast with ⟨rfl, _⟩ | ⟨rfl, _⟩ <;> rfl
  have hrt : ((t.slot id).set i p).rtcp = (t.slot id).rtcp := by cases i <;> rfl
  have hmo : ((t.slot id).set i p).mon = (t.slot id).mon := by cases i <;> rfl
  cases hpi : e.pipe with
  | ok => exact absurd hpi hep
  | early =>
    refine ⟨(t.slot id).set i p, ?_, hset.1, hset.2, hw', hc, hrt, by rw [if_neg (by simp)]; exact hmo⟩
    simp only [Sink.step, if_neg hnot, hadd, Slot.transport, hpi, hw']
    rfl
  | badMonitor =>
    refine ⟨{ (t.slot id).set i p with mon := .bad }, ?_, hset.1, hset.2, hw', hc, hrt, by rw [if_pos rfl]⟩
    simp only [Sink.step, if_neg hnot, hadd, Slot.transport, hpi, hw']
    rfl

/-- **C118 is false for a pipeline that cannot be constructed**: if adding the last endpoint the slot needs fails because
its pipeline cannot be constructed, the endpoint is kept in the slot though NULL is returned: no later call can complete the
slot, and it never gets a frame, even if memory is available again. -/
theorem C118_pipeline_fails (c : Conf) (es : List Ev) (t : Sink) (ls : List Log)
    (h : Sink.run c .init es = some (t, ls)) (id : Nat) (ha : alive ls id) (hn : noFailure es id) (i : Iface) (p : Proto)
    (mc : Bool) (e : Env) (hne : added ls id i = none) (hal : Allowed c i p)
    (hlast : (i = .audioSource ∧ (c.scheme = .none ∨ (added ls id .audioRepair).isSome = true))
      ∨ (i = .audioRepair ∧ (added ls id .audioSource).isSome = true))
    (hee : e.endpoint = true) (hep : e.pipe ≠ .ok) :
    ∃ t1, t.step c (.add id i p mc e) = .ok t1 .refused
      ∧ ∀ es' t' ls', Sink.run c t1 es' = some (t', ls') →
        got id ls' = [] ∧ ∀ i p mc, .added id i p mc ∈ ls' → i = .audioControl := by
  have hi := (run_reach h).inv
  have hm := (hi.al id).2 ha
  obtain ⟨s, hs, h1, h2, h3, _⟩ := failed_step h ha hn mc hne hal hlast hee hep
  refine ⟨_, hs, ?_⟩
  intro es' t' ls' hrun
  refine Dead.run es' (step_inv hi hs) ⟨hi.cr _ ((hi.al _).1 hm).1, fun _ => ?_⟩ t' ls' hrun
  simp only [upd_same]
  exact ⟨h1, h2, h3⟩

/-- **C118 is false for a feedback monitor that is not valid**: if the pipeline of the slot could not be constructed
because of its feedback monitor, adding a control endpoint (whose address is not a multicast address) aborts instead of
returning an endpoint or NULL. -/
theorem C118_monitor_fails (c : Conf) (es : List Ev) (t : Sink) (ls : List Log)
    (h : Sink.run c .init es = some (t, ls)) (id : Nat) (ha : alive ls id) (hn : noFailure es id) (i : Iface) (p : Proto)
    (mc : Bool) (e : Env) (hne : added ls id i = none) (hal : Allowed c i p)
    (hlast : (i = .audioSource ∧ (c.scheme = .none ∨ (added ls id .audioRepair).isSome = true))
      ∨ (i = .audioRepair ∧ (added ls id .audioSource).isSome = true))
    (hee : e.endpoint = true) (hep : e.pipe = .badMonitor) (hctl : added ls id .audioControl = none) :
    ∃ t1, t.step c (.add id i p mc e) = .ok t1 .refused
      ∧ t1.step c (.add id .audioControl .rtcp false .rich) = .abort := by
  have hr := run_reach h
  have hi := hr.inv
  have hm := (hi.al id).2 ha
  have hsi := hi.sl id hm
  obtain ⟨s, hs, h1, h2, h3, h4, h5, h6⟩ := failed_step h ha hn mc hne hal hlast hee (by rw [hep]; simp)
  refine ⟨_, hs, ?_⟩
  have hc : s.control = none := by
    rw [h4]
    cases hx : (t.slot id).control with
    | none => rfl
    | some q =>
      have := (hr.noFailure id hm hn).1 .audioControl (by simp [Slot.ep, hx])
      rw [hctl] at this; simp at this
  have hrt : s.rtcp = false := by rw [h5, hsi.rt, hctl]; rfl
  rw [if_pos hep] at h6
  have hchk : s.checks c .audioControl .rtcp .rich = true := by
    unfold Slot.checks; rw [hc]; rfl
  simp only [Sink.step]
  rw [if_neg (fun h => h hm)]
  simp only [upd_same]
  have : s.add c .audioControl .rtcp false .rich = .abort := by
    unfold Slot.add
    rw [if_neg (by rw [hchk]; simp)]
    simp only [Slot.createControl, Slot.set, hrt, Env.rich, Slot.startMonitor, h6]
    simp
  rw [this]

/-- An invalid monitor comes from a pipeline that could not be constructed. -/
theorem Reach.bad {c : Conf} {es : List Ev} {ls : List Log} {t : Sink} (hr : Reach c es ls t) (id : Nat)
    (hid : id ∈ t.ids) (hb : (t.slot id).mon = .bad) : ¬ SenderSlots.noFailure es id :=
  fun hn => (hr.noFailure id hid hn).2 hb

/-- **C118 (aborts)**: the program aborts exactly if the identity of a new slot cannot be generated, if the time of a
refresh is not positive, or if a control endpoint is added to a slot whose feedback monitor is not valid, which needs an
earlier failure in that slot; everything else is defined for all slots that exist. -/
theorem C118_abort (c : Conf) (es : List Ev) (t : Sink) (ls : List Log) (h : Sink.run c .init es = some (t, ls))
    (e : Ev) :
    (t.step c e = .abort → (e = .create true false) ∨ (∃ now dl, e = .refresh now dl ∧ now ≤ 0)
      ∨ ∃ id v, e = .add id .audioControl .rtcp false v ∧ alive ls id ∧ ¬ noFailure es id)
    ∧ (t.step c (.create true false) = .abort)
    ∧ (∀ now dl, now ≤ 0 → t.step c (.refresh now dl) = .abort)
    ∧ (t.step c e = .ub ↔ ∃ id, ¬ alive ls id
        ∧ (e = .delete id ∨ e = .report id ∨ e = .query id ∨ ∃ i p mc v, e = .add id i p mc v)) := by
  have hr := run_reach h
  have hi := hr.inv
  refine ⟨?_, rfl, fun now dl hn => by simp only [Sink.step]; rw [if_pos hn], ?_⟩
  · intro hs
    cases e with
    | create al idn => cases al <;> cases idn <;> simp [Sink.step] at hs; exact Or.inl rfl
    | delete id =>
      simp only [Sink.step] at hs
      split at hs
      · simp at hs
      · split at hs
        · rename_i h1
          split at hs
          · rename_i h2
            rw [hi.ac] at h2
            have := List.length_pos_of_mem h1.2
            omega
          · simp at hs
        · simp at hs
    | add id i p mc v =>
      simp only [Sink.step] at hs
      split at hs
      · simp at hs
      · rename_i hm
        have hm : id ∈ t.ids := by simpa using hm
        have hg := add_good (hi.sl id hm) i p mc v
        cases ha : (t.slot id).add c i p mc v with
        | abort =>
          rw [ha] at hg
          obtain ⟨h1, rfl, rfl, rfl, h2⟩ := hg
          exact Or.inr (Or.inr ⟨id, v, rfl, (hi.al id).1 hm, hr.bad id hm h1⟩)
        | refused s => rw [ha] at hs; simp at hs
        | added s => rw [ha] at hs; simp at hs
    | write f => simp [Sink.step] at hs
    | report id => simp only [Sink.step] at hs; split at hs <;> simp at hs
    | refresh now dl =>
      simp only [Sink.step] at hs
      split at hs
      · rename_i h1; exact Or.inr (Or.inl ⟨now, dl, rfl, h1⟩)
      · simp at hs
    | query id => simp only [Sink.step] at hs; split at hs <;> simp at hs
  · constructor
    · intro hs
      cases e with
      | create al idn => cases al <;> cases idn <;> simp [Sink.step] at hs
      | delete id =>
        simp only [Sink.step] at hs
        split at hs
        · rename_i h1; exact ⟨id, fun h => h1 ((hi.al id).2 h), Or.inl rfl⟩
        · split at hs
          · split at hs <;> simp at hs
          · simp at hs
      | add id i p mc v =>
        simp only [Sink.step] at hs
        split at hs
        · rename_i h1
          exact ⟨id, fun h => h1 ((hi.al id).2 h), Or.inr (Or.inr (Or.inr ⟨i, p, mc, v, rfl⟩))⟩
        · split at hs <;> simp at hs
      | write f => simp [Sink.step] at hs
      | report id =>
        simp only [Sink.step] at hs
        split at hs
        · rename_i h1; exact ⟨id, fun h => h1 ((hi.al id).2 h), Or.inr (Or.inl rfl)⟩
        · simp at hs
      | refresh now dl => simp only [Sink.step] at hs; split at hs <;> simp at hs
      | query id =>
        simp only [Sink.step] at hs
        split at hs
        · rename_i h1; exact ⟨id, fun h => h1 ((hi.al id).2 h), Or.inr (Or.inr (Or.inl rfl))⟩
        · simp at hs
    · rintro ⟨id, h1, h2⟩
      have hm : id ∉ t.ids := fun h => h1 ((hi.al id).1 h)
      rcases h2 with rfl | rfl | rfl | ⟨i, p, mc, v, rfl⟩ <;> simp [Sink.step, hm]

/-! ## Examples -/

/-- Reed-Solomon, compiled in. -/
def exConf : Conf := ⟨fun _ => true, .rs8m⟩

/-- Two slots, endpoints in different order, frames in between, one slot deleted. -/
def exEvs : List Ev :=
  [.create true true, .add 0 .audioRepair .rs8mRepair false .rich, .write 1, .create true true,
    .add 1 .audioControl .rtcp false .rich, .add 1 .audioSource .rtpRs8mSource false .rich,
    .add 0 .audioSource .rtpRs8mSource false .rich, .write 2, .add 1 .audioRepair .rs8mRepair false .rich,
    .add 1 .audioSource .rtpRs8mSource false .rich, .write 3, .report 1, .report 0, .query 0, .delete 0, .write 4,
    .refresh 10 (fun id => 100 + (id : Int))]

example : (Sink.run exConf .init exEvs).map (fun x => (got 0 x.2, got 1 x.2, x.1.active, x.2.drop 9)) =
    some ([2, 3], [3, 4], 1,
      [.refused, .wrote 3 [0, 1], .report 1 true, .report 0 false, .metrics 0 true, .deleted 0, .wrote 4 [1],
        .refreshed 101]) := by decide +kernel

example : (Sink.run exConf .init exEvs).map (fun x => (due exConf 0 false false x.2, due exConf 1 false false x.2)) =
    some ([2, 3], [3, 4]) := by decide +kernel

/-- The hypotheses of `C118_pipeline_fails` and `C118_monitor_fails` are met after one endpoint was added. -/
example : ∃ t ls, Sink.run exConf .init [.create true true, .add 0 .audioRepair .rs8mRepair false .rich] = some (t, ls)
    ∧ alive ls 0 ∧ noFailure [.create true true, .add 0 .audioRepair .rs8mRepair false .rich] 0
    ∧ added ls 0 .audioSource = none ∧ Allowed exConf .audioSource .rtpRs8mSource
    ∧ (added ls 0 .audioRepair).isSome = true ∧ added ls 0 .audioControl = none := by
  refine ⟨_, _, rfl, ?_⟩
  refine ⟨by unfold alive; decide +kernel, ?_, by decide +kernel, Or.inr ⟨by decide +kernel, Or.inr rfl⟩, by decide +kernel,
    by decide +kernel⟩
  intro i p mc e he
  simp at he
  exact he.2.2.2

example : (Sink.run exConf .init [.create true true, .add 0 .audioRepair .rs8mRepair false .rich,
      .add 0 .audioSource .rtpRs8mSource false ⟨true, .badMonitor, true⟩, .add 0 .audioControl .rtcp false .rich]).isNone := by
  decide +kernel

end Verif.SenderSlots
