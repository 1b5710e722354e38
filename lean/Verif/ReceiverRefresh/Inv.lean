import Verif.ReceiverRefresh.Lemmas

/-!
# Invariant of a receiver
-/

namespace Verif.ReceiverRefresh

/-- Invariant: sessions are good, the mixer has every session exactly once, the number of active sessions is right. -/
structure Inv (t : St) : Prop where
  map : MapOk t.map
  good : ∀ s ∈ t.slots, ∀ x ∈ s.sessions, Good x
  known : ∀ s ∈ t.slots, ∀ x ∈ s.sessions, ∀ e, x.src.enc = some e → find t.map e.1 = some e.2
  keys : (t.slots.map (·.key)).Nodup
  perm : t.mixer.Perm t.ids
  nodup : t.ids.Nodup
  lt : ∀ i ∈ t.ids, i < t.next
  active : t.active = t.mixer.length

theorem inv_init : Inv St.init :=
  ⟨by unfold MapOk; decide, (fun s hs => (by cases hs)), (fun s hs => (by cases hs)), List.nodup_nil, .refl _, List.nodup_nil, (fun i hi => (by cases hi)), rfl⟩

/-- Names of the sessions of a slot. -/
def Slot.ids (s : Slot) : List Nat := s.sessions.map (·.id)

theorem ids_split (t : St) (done l : List Slot) (s : Slot) (h : t.slots = done ++ s :: l) :
    t.ids = done.flatMap Slot.ids ++ (s.ids ++ l.flatMap Slot.ids) := by
  show t.slots.flatMap Slot.ids = _
  rw [h, List.flatMap_append, List.flatMap_cons]

theorem work_ok {t : St} (h : Inv t) {s : Slot} (hs : s ∈ t.slots) : WOk ⟨s.sessions, t.mixer, t.active⟩ := by
  obtain ⟨done, l, e⟩ := List.append_of_mem hs
  have hi := ids_split t done l s e
  refine ⟨?_, h.perm.nodup_iff.mpr h.nodup, ?_⟩
  · have := h.nodup
    rw [hi] at this
    exact ((List.nodup_append.mp this).2.1 |> List.nodup_append.mp).1
  · intro x hx
    apply h.perm.mem_iff.mpr
    rw [hi]
    exact List.mem_append_right _ (List.mem_append_left _ (List.mem_map_of_mem hx))

theorem contains_false {l : List Nat} {i : Nat} (h : i ∉ l) : l.contains i = false := by
  rw [Bool.eq_false_iff]; intro hc; exact h (List.contains_iff_mem.mp hc)

theorem ids_removed {done l : List Slot} {s s' : Slot} {P : Nat → Bool} (hn : (done.flatMap Slot.ids ++ (s.ids ++ l.flatMap Slot.ids)).Nodup)
    (hs : s'.sessions = s.sessions.filter fun x => !P x.id) :
    done.flatMap Slot.ids ++ (s'.ids ++ l.flatMap Slot.ids) =
      (done.flatMap Slot.ids ++ (s.ids ++ l.flatMap Slot.ids)).filter fun i => !(P i && s.ids.contains i) := by
  obtain ⟨_, h2, h3⟩ := List.nodup_append.mp hn
  obtain ⟨_, _, h4⟩ := List.nodup_append.mp h2
  rw [List.filter_append, List.filter_append]
  congr 1
  · symm
    rw [List.filter_eq_self]
    intro i hi
    have : i ∉ s.ids := fun h => h3 i hi i (List.mem_append_left _ h) rfl
    rw [contains_false this, Bool.and_false]; rfl
  · congr 1
    · show s'.sessions.map (·.id) = (s.sessions.map (·.id)).filter _
      rw [hs, List.filter_map]
      congr 1
      apply List.filter_congr
      intro x hx
      have : s.ids.contains x.id = true := List.contains_iff_mem.mpr (List.mem_map_of_mem hx)
      show _ = !(P x.id && s.ids.contains x.id)
      rw [this, Bool.and_true]
    · symm
      rw [List.filter_eq_self]
      intro i hi
      have : i ∉ s.ids := fun h => h4 i h i hi rfl
      rw [contains_false this, Bool.and_false]; rfl

theorem inv_removed {t t' : St} {done l : List Slot} {s s' : Slot} {w : Work} {P : Nat → Bool} (h : Inv t) (e : t.slots = done ++ s :: l)
    (r : Removed ⟨s.sessions, t.mixer, t.active⟩ w P) (hk : s'.key = s.key) (hs : s'.sessions = w.sessions)
    (e1 : t'.slots = done ++ s' :: l) (e2 : t'.mixer = w.mixer) (e3 : t'.active = w.active) (e4 : t'.map = t.map) (e5 : t'.next = t.next) : Inv t' := by
  have hsub : ∀ x ∈ t'.slots, ∀ y ∈ x.sessions, ∃ z ∈ t.slots, y ∈ z.sessions := by
    intro x hx y hy
    rw [e1] at hx
    rcases List.mem_append.mp hx with hx | hx
    · exact ⟨x, by rw [e]; exact List.mem_append_left _ hx, hy⟩
    · rcases List.mem_cons.mp hx with rfl | hx
      · rw [hs, r.sessions] at hy
        exact ⟨s, by rw [e]; exact List.mem_append_right _ List.mem_cons_self, (List.mem_filter.mp hy).1⟩
      · exact ⟨x, by rw [e]; exact List.mem_append_right _ (List.mem_cons_of_mem _ hx), hy⟩
  have hi := ids_split t done l s e
  have hi' := ids_split t' done l s' e1
  have hn := h.nodup
  rw [hi] at hn
  have hf : t'.ids = t.ids.filter fun i => !(P i && s.ids.contains i) := by
    rw [hi', hi]
    exact ids_removed hn (by rw [hs, r.sessions])
  refine ⟨by rw [e4]; exact h.map, ?_, ?_, ?_, ?_, ?_, ?_, ?_⟩
  · intro x hx y hy
    obtain ⟨z, hz, hy⟩ := hsub x hx y hy
    exact h.good z hz y hy
  · intro x hx y hy
    obtain ⟨z, hz, hy⟩ := hsub x hx y hy
    rw [e4]; exact h.known z hz y hy
  · have := h.keys
    rw [e, List.map_append, List.map_cons] at this
    rw [e1, List.map_append, List.map_cons, hk]
    exact this
  · rw [hf, e2, r.mixer]
    exact h.perm.filter _
  · rw [hf]; exact h.nodup.filter _
  · intro i hm
    rw [hf] at hm
    rw [e5]; exact h.lt i (List.mem_filter.mp hm).1
  · have h1 := r.active
    have h2 := h.active
    simp only at h1
    rw [e3, e2]
    omega

/-- A slot changes in things other than names of sessions. -/
theorem inv_same {t t' : St} {done l : List Slot} {s s' : Slot} (h : Inv t) (e : t.slots = done ++ s :: l) (hk : s'.key = s.key) (hi : s'.ids = s.ids)
    (hg : ∀ x ∈ s'.sessions, Good x) (e4 : MapOk t'.map) (hm : ∀ pt r, find t.map pt = some r → find t'.map pt = some r)
    (hn : ∀ x ∈ s'.sessions, ∀ e, x.src.enc = some e → find t'.map e.1 = some e.2)
    (e1 : t'.slots = done ++ s' :: l) (e2 : t'.mixer = t.mixer) (e3 : t'.active = t.active) (e5 : t'.next = t.next) : Inv t' := by
  have hids : t'.ids = t.ids := by rw [ids_split t done l s e, ids_split t' done l s' e1, hi]
  have hmem : ∀ x ∈ t'.slots, x = s' ∨ x ∈ t.slots := by
    intro x hx
    rw [e1] at hx
    rcases List.mem_append.mp hx with hx | hx
    · exact .inr (by rw [e]; exact List.mem_append_left _ hx)
    · rcases List.mem_cons.mp hx with rfl | hx
      · exact .inl rfl
      · exact .inr (by rw [e]; exact List.mem_append_right _ (List.mem_cons_of_mem _ hx))
  refine ⟨e4, ?_, ?_, ?_, by rw [hids, e2]; exact h.perm, by rw [hids]; exact h.nodup, by rw [hids, e5]; exact h.lt, by rw [e2, e3]; exact h.active⟩
  · intro x hx
    rcases hmem x hx with rfl | hx
    · exact hg
    · exact h.good x hx
  · intro x hx
    rcases hmem x hx with rfl | hx
    · exact hn
    · exact fun y hy e he => hm _ _ (h.known x hx y hy e he)
  · have := h.keys
    rw [e, List.map_append, List.map_cons] at this
    rw [e1, List.map_append, List.map_cons, hk]
    exact this

/-- A slot gets one more session. -/
theorem inv_added {t t' : St} {done l : List Slot} {s s' : Slot} {x : Session} (h : Inv t) (e : t.slots = done ++ s :: l) (hk : s'.key = s.key)
    (hs : s'.sessions = s.sessions ++ [x]) (hx : x.id = t.next) (hg : Good x) (hn : ∀ e, x.src.enc = some e → find t.map e.1 = some e.2)
    (e1 : t'.slots = done ++ s' :: l) (e2 : t'.mixer = t.mixer ++ [x.id]) (e3 : t'.active = t.active + 1) (e4 : t'.map = t.map) (e5 : t'.next = t.next + 1) :
    Inv t' := by
  have hi := ids_split t done l s e
  have hi' := ids_split t' done l s' e1
  have hp : t'.ids.Perm (t.ids ++ [x.id]) := by
    have hids : s'.ids = s.ids ++ [x.id] := by
      show s'.sessions.map (·.id) = _
      rw [hs, List.map_append]; rfl
    rw [hi', hi, hids]
    simp only [List.append_assoc]
    exact ((List.perm_append_comm (l₁ := [x.id]) (l₂ := l.flatMap Slot.ids)).append_left s.ids).append_left _
  have hnew : x.id ∉ t.ids := fun hm => by
    have := h.lt _ hm
    omega
  have hmem : ∀ z ∈ t'.slots, ∀ y ∈ z.sessions, y = x ∨ ∃ z ∈ t.slots, y ∈ z.sessions := by
    intro z hz y hy
    rw [e1] at hz
    rcases List.mem_append.mp hz with hz | hz
    · exact .inr ⟨z, by rw [e]; exact List.mem_append_left _ hz, hy⟩
    · rcases List.mem_cons.mp hz with rfl | hz
      · rw [hs] at hy
        rcases List.mem_append.mp hy with hy | hy
        · exact .inr ⟨s, by rw [e]; exact List.mem_append_right _ List.mem_cons_self, hy⟩
        · exact .inl (List.mem_singleton.mp hy)
      · exact .inr ⟨z, by rw [e]; exact List.mem_append_right _ (List.mem_cons_of_mem _ hz), hy⟩
  refine ⟨by rw [e4]; exact h.map, ?_, ?_, ?_, ?_, ?_, ?_, ?_⟩
  · intro z hz y hy
    rcases hmem z hz y hy with rfl | ⟨z, hz, hy⟩
    · exact hg
    · exact h.good z hz y hy
  · intro z hz y hy
    rw [e4]
    rcases hmem z hz y hy with rfl | ⟨z, hz, hy⟩
    · exact hn
    · exact h.known z hz y hy
  · have := h.keys
    rw [e, List.map_append, List.map_cons] at this
    rw [e1, List.map_append, List.map_cons, hk]
    exact this
  · rw [e2]
    exact (h.perm.append_right _).trans hp.symm
  · rw [hp.nodup_iff, List.nodup_append]
    refine ⟨h.nodup, List.nodup_singleton _, ?_⟩
    intro a ha b hb hab
    rw [List.mem_singleton.mp hb] at hab
    exact hnew (hab ▸ ha)
  · intro i hm
    rw [e5]
    rcases List.mem_append.mp (hp.mem_iff.mp hm) with hm | hm
    · have := h.lt i hm; omega
    · rw [List.mem_singleton.mp hm]; omega
  · rw [e3, e2, h.active, List.length_append]
    simp

/-- A slot without sessions goes away. -/
theorem inv_dropped {t t' : St} {done l : List Slot} {s : Slot} (h : Inv t) (e : t.slots = done ++ s :: l) (hs : s.sessions = []) (e1 : t'.slots = done ++ l)
    (e2 : t'.mixer = t.mixer) (e3 : t'.active = t.active) (e4 : t'.map = t.map) (e5 : t'.next = t.next) : Inv t' := by
  have hids : t'.ids = t.ids := by
    rw [ids_split t done l s e]
    show t'.slots.flatMap Slot.ids = _
    have : s.ids = [] := by unfold Slot.ids; rw [hs]; rfl
    rw [e1, List.flatMap_append, this]; rfl
  have hsub : List.Sublist t'.slots t.slots := by
    rw [e1, e]
    exact (List.Sublist.refl _).append (List.sublist_cons_self _ _)
  exact ⟨by rw [e4]; exact h.map, fun x hx => h.good x (hsub.mem hx), by rw [e4]; exact fun x hx => h.known x (hsub.mem hx), h.keys.sublist (hsub.map _),
    by rw [hids, e2]; exact h.perm, by rw [hids]; exact h.nodup, by rw [hids, e5]; exact h.lt, by rw [e2, e3]; exact h.active⟩

/-! ## Operations of one slot -/

theorem slot_split {t : St} (h : Inv t) {k : Nat} {s : Slot} (hs : t.slot k = some s) :
    s.key = k ∧ ∃ done l, t.slots = done ++ s :: l ∧ (∀ x ∈ done ++ l, x.key ≠ s.key) := by
  have hm := List.mem_of_find?_eq_some hs
  have hk : s.key = k := by simpa using List.find?_some hs
  obtain ⟨done, l, e⟩ := List.append_of_mem hm
  refine ⟨hk, done, l, e, ?_⟩
  have hn := h.keys
  rw [e, List.map_append, List.map_cons] at hn
  obtain ⟨_, h2, h3⟩ := List.nodup_append.mp hn
  obtain ⟨h4, _⟩ := List.nodup_cons.mp h2
  intro x hx he
  rcases List.mem_append.mp hx with hx | hx
  · exact h3 _ (List.mem_map_of_mem hx) _ List.mem_cons_self he
  · exact h4 (he ▸ List.mem_map_of_mem hx)

theorem put_split {t : St} {done l : List Slot} {s s' : Slot} (e : t.slots = done ++ s :: l) (hd : ∀ x ∈ done ++ l, x.key ≠ s.key) (hk : s'.key = s.key) :
    (t.put s').slots = done ++ s' :: l := by
  have key : ∀ m : List Slot, (∀ x ∈ m, x.key ≠ s.key) → m.map (fun x => if x.key = s'.key then s' else x) = m := by
    intro m hm
    refine (List.map_congr_left (g := id) ?_).trans (List.map_id m)
    intro x hx
    exact if_neg (by rw [hk]; exact hm x hx)
  show t.slots.map _ = _
  rw [e, List.map_append, List.map_cons, key done (fun x hx => hd x (List.mem_append_left _ hx)), key l (fun x hx => hd x (List.mem_append_right _ hx)),
    if_pos hk.symm]

theorem write_known {m m' : Encodings} {s : Session} (hn : ∀ e, s.src.enc = some e → find m' e.1 = some e.2)
    (w : Wire) : ∀ e, (s.write m' (parse m w)).src.enc = some e → find m' e.1 = some e.2 := by
  unfold Session.write
  split
  · split
    · intro e he
      cases w with
      | repair => exact hn e he
      | source pt src sn fec =>
        have key : ∀ x, s.src.look m' pt = some x → find m' x.1 = some x.2 := by
          intro x hx
          have k2 : (find m' pt).map (fun r => (pt, r)) = some x → find m' x.1 = some x.2 := by
            intro hx
            obtain ⟨r, hr, e⟩ := Option.map_eq_some_iff.mp hx
            rw [← e]; exact hr
          unfold Meter.look at hx
          cases hse : s.src.enc with
          | none => rw [hse] at hx; exact k2 hx
          | some y =>
            rw [hse] at hx
            have hx : (if y.1 = pt then some y else (find m' pt).map fun r => (pt, r)) = some x := hx
            by_cases hy : y.1 = pt
            · rw [if_pos hy] at hx; rw [← Option.some.inj hx]; exact hn y hse
            · rw [if_neg hy] at hx; exact k2 hx
        have he : ((match s.src.look m' pt with
          | none => { s.src with enc := none }
          | some e => (⟨some e, true, s.src.sn.update sn⟩ : Meter)).enc) = some e := he
        cases hl : s.src.look m' pt with
        | none => rw [hl] at he; cases he
        | some y => rw [hl] at he; cases he; exact key _ hl
    · exact hn
  · split
    · split
      · exact hn
      · exact hn
    · exact hn

/-- Registration of encodings while a packet waits. -/
theorem inv_map {t : St} (h : Inv t) {m : Encodings} (hm : MapOk m) (hs : ∀ pt r, find t.map pt = some r → find m pt = some r) : Inv { t with map := m } :=
  ⟨hm, h.good, fun x hx y hy e he => hs _ _ (h.known x hx y hy e he), h.keys, h.perm, h.nodup, h.lt, h.active⟩

theorem inv_route {t : St} (h : Inv t) {k : Nat} {s : Slot} (hs : t.slot k = some s) {m : Encodings} (hsub : ∀ pt r, find m pt = some r → find t.map pt = some r)
    (w : Wire) (target : Option Nat) : Inv (t.route s (parse m w) target) := by
  obtain ⟨hk, done, l, e, hd⟩ := slot_split h hs
  have hmem : s ∈ t.slots := by rw [e]; exact List.mem_append_right _ List.mem_cons_self
  unfold St.route
  split
  · rename_i x hx
    obtain ⟨s', hs'⟩ : ∃ s' : Slot, s' = { s with sessions := s.sessions.map fun y => if y.id = x.id then y.write t.map (parse m w) else y } := ⟨_, rfl⟩
    rw [← hs']
    have hk' : s'.key = s.key := by rw [hs']
    refine inv_same (s' := s') h e hk' ?_ ?_ h.map (fun _ _ h => h) ?_ (put_split e hd hk') rfl rfl rfl
    · rw [hs']
      show (s.sessions.map _).map Session.id = s.sessions.map Session.id
      rw [List.map_map]
      apply List.map_congr_left
      intro y _
      show (if y.id = x.id then y.write t.map (parse m w) else y).id = y.id
      split
      · exact write_id _ _ _
      · rfl
    · intro y hy
      rw [hs'] at hy
      obtain ⟨z, hz, rfl⟩ := List.mem_map.mp hy
      split
      · exact good_write (h.good s hmem z hz) h.map hsub w
      · exact h.good s hmem z hz
    · intro y hy
      rw [hs'] at hy
      obtain ⟨z, hz, rfl⟩ := List.mem_map.mp hy
      split
      · exact write_known (h.known s hmem z hz) w
      · exact h.known s hmem z hz
  · by_cases hr : (parse m w).repair = true
    · rw [if_pos hr]; exact h
    · rw [if_neg hr]
      unfold St.create
      split
      · exact h
      · rename_i pt src sn hp
        split
        · exact h
        · rename_i r hf
          have hk' : ∀ ss, ({ s with sessions := ss } : Slot).key = s.key := fun _ => rfl
          refine inv_added (x := Session.write t.map ⟨t.next, (parse m w).fec, Route.init, Route.init, Meter.init, Meter.init⟩ (parse m w))
            h e (hk' _) rfl (write_id _ _ _) (good_write (good_init _ _) h.map hsub w) (write_known (fun e he => (by cases he)) w)
            (put_split e hd (hk' _)) rfl rfl rfl rfl

theorem inv_process {t : St} (h : Inv t) {k : Nat} {s : Slot} (hs : t.slot k = some s) (hr : s.rtcp = true) {now : Int} (hn : 0 < now) (gone : List Nat) :
    ∃ t', t.process s now gone = some t' ∧ Inv t' := by
  obtain ⟨hk, done, l, e, hd⟩ := slot_split h hs
  have hmem : s ∈ t.slots := by rw [e]; exact List.mem_append_right _ List.mem_cons_self
  obtain ⟨w, ew, rw'⟩ := drops_ok gone ⟨s.sessions, t.mixer, t.active⟩ (work_ok h hmem)
  unfold St.process
  rw [if_neg (by rw [hr]; intro hc; rcases hc with hc | hc; cases hc; omega), ask_eq (h.good s hmem)]
  simp only [ew]
  refine ⟨_, rfl, ?_⟩
  exact inv_removed h e rw' (s' := { s with buf := s.sessions.flatMap fun x => x.all s.ssrc (s.fresh now), time := s.fresh now, sessions := w.sessions })
    rfl rfl (put_split e hd rfl) rfl rfl rfl rfl

theorem inv_delete {t : St} (h : Inv t) {k : Nat} {s : Slot} (hs : t.slot k = some s) :
    ∃ t', t.deleteSlot s = some t' ∧ Inv t' ∧ t'.slots = t.slots.filter (fun x => x.key ≠ k) ∧ t'.mixer = t.mixer.filter (fun i => !s.ids.contains i) := by
  obtain ⟨hk, done, l, e, hd⟩ := slot_split h hs
  have hmem : s ∈ t.slots := by rw [e]; exact List.mem_append_right _ List.mem_cons_self
  obtain ⟨w, ew, rw'⟩ := clear_ok s.sessions.length ⟨s.sessions, t.mixer, t.active⟩ (work_ok h hmem) rfl
  have hw0 : w.sessions = [] := by rw [rw'.sessions]; simp
  unfold St.deleteSlot
  rw [ew]
  have hf : t.slots.filter (fun x => x.key ≠ s.key) = done ++ l := by
    have key : ∀ m : List Slot, (∀ x ∈ m, x.key ≠ s.key) → m.filter (fun x => x.key ≠ s.key) = m := by
      intro m hm
      rw [List.filter_eq_self]
      exact fun x hx => decide_eq_true (hm x hx)
    rw [e, List.filter_append, key done (fun x hx => hd x (List.mem_append_left _ hx)), List.filter_cons_of_neg (by simp),
      key l (fun x hx => hd x (List.mem_append_right _ hx))]
  have h1 : Inv { t with slots := done ++ { s with sessions := w.sessions } :: l, mixer := w.mixer, active := w.active } :=
    inv_removed h e rw' (s' := { s with sessions := w.sessions }) rfl rfl rfl rfl rfl rfl rfl
  refine ⟨_, rfl, inv_dropped h1 rfl hw0 hf rfl rfl rfl rfl, by rw [← hk], ?_⟩
  show w.mixer = _
  rw [rw'.mixer]
  apply List.filter_congr
  intro i _
  rfl

end Verif.ReceiverRefresh
