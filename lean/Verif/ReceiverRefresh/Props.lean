import Verif.ReceiverRefresh.Inv

/-!
# Slots and sessions of a receiver: theorems
-/

namespace Verif.ReceiverRefresh

/-! ## Refresh -/

/-- A slot after `refresh`. -/
def after (env : Env) (now : Int) (s : Slot) : Slot :=
  { s with
    sessions := s.sessions.filter fun x => !env.dead x.id
    buf := if s.rtcp && env.due s.key then s.sessions.flatMap fun x => x.all s.ssrc (s.fresh now) else s.buf
    time := if s.rtcp && env.due s.key then s.fresh now else s.time }

/-- Deadline of a slot. -/
def dl (env : Env) (s : Slot) : Int := if s.rtcp then env.deadline s.key else 0

theorem refreshAll_ok (env : Env) (now : Int) : ∀ (l done : List Slot) (t : St) (d : Int), Inv { t with slots := done ++ l } →
    ∃ t' d', St.refreshAll env now t done l d = some (t', d') ∧ Inv t' ∧ t'.slots = done ++ l.map (after env now) ∧ t'.map = t.map ∧ t'.next = t.next ∧
      d' = (l.map (dl env)).foldl earlier d ∧ t'.mixer = t.mixer.filter fun i => !(env.dead i && (l.flatMap Slot.ids).contains i) := by
  intro l
  induction l with
  | nil =>
    intro done t d h
    refine ⟨{ t with slots := done }, d, rfl, ?_, (List.append_nil _).symm, rfl, rfl, rfl, ?_⟩
    · rw [List.append_nil] at h; exact h
    · show t.mixer = _
      symm
      rw [List.filter_eq_self]
      intro i _
      show (!(env.dead i && false)) = true
      rw [Bool.and_false]; rfl
  | cons s l ih =>
    intro done t d h
    have hmem : s ∈ ({ t with slots := done ++ s :: l } : St).slots := List.mem_append_right _ List.mem_cons_self
    have hask := ask_eq (h.good s hmem) now
    obtain ⟨w, ew, r⟩ := sweep_all env.dead ⟨s.sessions, t.mixer, t.active⟩ (work_ok h hmem)
    have ew : Work.sweep env.dead ⟨s.sessions, t.mixer, t.active⟩ s.sessions = some w := ew
    have hslot : t.refreshSlot env now s = some (after env now s, w.mixer, w.active, dl env s) := by
      unfold St.refreshSlot
      by_cases hg : (s.rtcp && env.due s.key) = true
      · rw [if_pos hg, hask]
        simp only [ew]
        have : after env now s = { s with buf := s.sessions.flatMap fun x => x.all s.ssrc (s.fresh now), time := s.fresh now, sessions := w.sessions } := by
          unfold after
          rw [if_pos hg, if_pos hg, r.sessions]
        rw [this]; rfl
      · rw [if_neg hg]
        simp only [ew]
        have : after env now s = { s with sessions := w.sessions } := by
          unfold after
          rw [if_neg hg, if_neg hg, r.sessions]
        rw [this]; rfl
    have hinv : Inv { t with mixer := w.mixer, active := w.active, slots := (done ++ [after env now s]) ++ l } :=
      inv_removed (s' := after env now s) (done := done) (l := l) h rfl r rfl r.sessions.symm (by simp) rfl rfl rfl rfl
    obtain ⟨t', d', e', i1, i2, i3, i4, i5, i6⟩ := ih (done ++ [after env now s]) { t with mixer := w.mixer, active := w.active } (earlier d (dl env s)) hinv
    refine ⟨t', d', ?_, i1, by rw [i2, List.append_assoc]; rfl, i3, i4, i5, ?_⟩
    · show (match t.refreshSlot env now s with
        | none => none
        | some (s', mix, act, e) => St.refreshAll env now { t with mixer := mix, active := act } (done ++ [s']) l (earlier d e)) = _
      rw [hslot]; exact e'
    · rw [i6]
      show w.mixer.filter _ = _
      rw [r.mixer, List.filter_filter]
      apply List.filter_congr
      intro i _
      have hc : ((s :: l).flatMap Slot.ids).contains i = (s.ids.contains i || (l.flatMap Slot.ids).contains i) := by
        rw [List.flatMap_cons, List.contains_append]
      rw [hc]
      show ((!(env.dead i && (l.flatMap Slot.ids).contains i)) && !(env.dead i && s.ids.contains i)) = _
      cases env.dead i <;> cases (l.flatMap Slot.ids).contains i <;> cases s.ids.contains i <;> rfl

theorem reclockAll_ok (dead : Nat → Bool) : ∀ (l done : List Slot) (t : St), Inv { t with slots := done ++ l } →
    ∃ t', St.reclockAll dead t done l = some t' ∧ Inv t' ∧ t'.slots = done ++ l.map (fun s => { s with sessions := s.sessions.filter fun x => !dead x.id }) ∧
      t'.mixer = t.mixer.filter fun i => !(dead i && (l.flatMap Slot.ids).contains i) := by
  intro l
  induction l with
  | nil =>
    intro done t h
    refine ⟨{ t with slots := done }, rfl, ?_, (List.append_nil _).symm, ?_⟩
    · rw [List.append_nil] at h; exact h
    · show t.mixer = _
      symm
      rw [List.filter_eq_self]
      intro i _
      show (!(dead i && false)) = true
      rw [Bool.and_false]; rfl
  | cons s l ih =>
    intro done t h
    have hmem : s ∈ ({ t with slots := done ++ s :: l } : St).slots := List.mem_append_right _ List.mem_cons_self
    obtain ⟨w, ew, r⟩ := sweep_all dead ⟨s.sessions, t.mixer, t.active⟩ (work_ok h hmem)
    have ew : Work.sweep dead ⟨s.sessions, t.mixer, t.active⟩ s.sessions = some w := ew
    have hinv : Inv { t with mixer := w.mixer, active := w.active, slots := (done ++ [{ s with sessions := w.sessions }]) ++ l } :=
      inv_removed (s' := { s with sessions := w.sessions }) (done := done) (l := l) h rfl r rfl rfl (by simp) rfl rfl rfl rfl
    obtain ⟨t', e', i1, i2, i6⟩ := ih (done ++ [{ s with sessions := w.sessions }]) { t with mixer := w.mixer, active := w.active } hinv
    refine ⟨t', ?_, i1, by rw [i2, List.append_assoc, r.sessions]; rfl, ?_⟩
    · show (match Work.sweep dead ⟨s.sessions, t.mixer, t.active⟩ s.sessions with
        | none => none
        | some w => St.reclockAll dead { t with mixer := w.mixer, active := w.active } (done ++ [{ s with sessions := w.sessions }]) l) = _
      rw [ew]; exact e'
    · rw [i6]
      show w.mixer.filter _ = _
      rw [r.mixer, List.filter_filter]
      apply List.filter_congr
      intro i _
      have hc : ((s :: l).flatMap Slot.ids).contains i = (s.ids.contains i || (l.flatMap Slot.ids).contains i) := by
        rw [List.flatMap_cons, List.contains_append]
      rw [hc]
      show ((!(dead i && (l.flatMap Slot.ids).contains i)) && !(dead i && s.ids.contains i)) = _
      cases dead i <;> cases (l.flatMap Slot.ids).contains i <;> cases s.ids.contains i <;> rfl

/-! ## Every operation -/

theorem inv_step {t : St} (h : Inv t) (o : Op) (ho : o.Sound t) : ∃ t', t.step o = some t' ∧ Inv t' := by
  cases o with
  | slot k ssrc =>
    refine ⟨_, rfl, ?_⟩
    split
    · exact h
    · rename_i hn
      have hnone : t.slot k = none := by cases hx : t.slot k with
        | none => rfl
        | some s => exact absurd (by rw [hx]; rfl) hn
      have hids : ({ t with slots := t.slots ++ [⟨k, ssrc, false, [], [], 0⟩] } : St).ids = t.ids := by
        show (t.slots ++ [_]).flatMap _ = t.slots.flatMap _
        rw [List.flatMap_append]
        simp
      refine ⟨h.map, ?_, ?_, ?_, by rw [hids]; exact h.perm, by rw [hids]; exact h.nodup, by rw [hids]; exact h.lt, h.active⟩
      · intro s hs x hx
        rcases List.mem_append.mp hs with hs | hs
        · exact h.good s hs x hx
        · rw [List.mem_singleton.mp hs] at hx; cases hx
      · intro s hs x hx
        rcases List.mem_append.mp hs with hs | hs
        · exact h.known s hs x hx
        · rw [List.mem_singleton.mp hs] at hx; cases hx
      · show ((t.slots ++ [(⟨k, ssrc, false, [], [], 0⟩ : Slot)]).map (·.key)).Nodup
        rw [List.map_append, List.nodup_append]
        refine ⟨h.keys, List.nodup_singleton _, ?_⟩
        intro a ha b hb hab
        obtain ⟨s, hs, rfl⟩ := List.mem_map.mp ha
        have hb : b = k := List.mem_singleton.mp hb
        have := List.find?_eq_none.mp hnone s hs
        exact this (decide_eq_true (hab.trans hb))
  | delete k =>
    show ∃ t', (match t.slot k with
      | none => some t
      | some s => t.deleteSlot s) = some t' ∧ Inv t'
    cases hs : t.slot k with
    | none => exact ⟨t, rfl, h⟩
    | some s =>
      obtain ⟨t', e, i, _⟩ := inv_delete h hs
      exact ⟨t', e, i⟩
  | rtcp k =>
    show ∃ t', (match t.slot k with
      | none => some t
      | some s => some (t.put { s with rtcp := true })) = some t' ∧ Inv t'
    cases hs : t.slot k with
    | none => exact ⟨t, rfl, h⟩
    | some s =>
      obtain ⟨hk, done, l, e, hd⟩ := slot_split h hs
      have hmem : s ∈ t.slots := by rw [e]; exact List.mem_append_right _ List.mem_cons_self
      exact ⟨_, rfl, inv_same (s' := { s with rtcp := true }) h e rfl rfl (h.good s hmem) h.map (fun _ _ h => h) (h.known s hmem) (put_split e hd rfl) rfl rfl rfl⟩
  | register e => exact ⟨_, rfl, inv_map h (mapOk_register h.map) (fun _ _ h => find_register h)⟩
  | packet k w regs target =>
    show ∃ t', (match t.slot k with
      | none => some t
      | some s => some (St.route { t with map := regs.foldl register t.map } s (parse t.map w) target)) = some t' ∧ Inv t'
    cases hs : t.slot k with
    | none => exact ⟨t, rfl, h⟩
    | some s =>
      exact ⟨_, rfl, inv_route (t := { t with map := regs.foldl register t.map })
        (inv_map h (mapOk_registers regs h.map) (fun _ _ h => find_registers regs h)) hs (fun _ _ h => find_registers regs h) w target⟩
  | control k now gone =>
    show ∃ t', (match t.slot k with
      | none => some t
      | some s => t.process s now gone) = some t' ∧ Inv t'
    cases hs : t.slot k with
    | none => exact ⟨t, rfl, h⟩
    | some s => exact inv_process h hs (ho s hs).2 (ho s hs).1 gone
  | source k ssrc =>
    show ∃ t', (match t.slot k with
      | none => some t
      | some s => some (t.put { s with ssrc := ssrc })) = some t' ∧ Inv t'
    cases hs : t.slot k with
    | none => exact ⟨t, rfl, h⟩
    | some s =>
      obtain ⟨hk, done, l, e, hd⟩ := slot_split h hs
      have hmem : s ∈ t.slots := by rw [e]; exact List.mem_append_right _ List.mem_cons_self
      exact ⟨_, rfl, inv_same (s' := { s with ssrc := ssrc }) h e rfl rfl (h.good s hmem) h.map (fun _ _ h => h) (h.known s hmem) (put_split e hd rfl) rfl rfl rfl⟩
  | refresh env now =>
    obtain ⟨t', d', e, i, _⟩ := refreshAll_ok env now t.slots [] t 0 h
    refine ⟨t', ?_, i⟩
    show (t.refresh env now).map (·.1) = some t'
    have ho : 0 < now := ho
    unfold St.refresh
    rw [if_neg (by omega), e]; rfl
  | reclock dead =>
    obtain ⟨t', e, i, _⟩ := reclockAll_ok dead t.slots [] t h
    exact ⟨t', e, i⟩

theorem step_inv {t t' : St} (h : Inv t) (o : Op) (e : t.step o = some t') : Inv t' := by
  by_cases ho : o.Sound t
  · obtain ⟨t1, e1, i⟩ := inv_step h o ho
    rw [e1] at e
    rw [← Option.some.inj e]; exact i
  · exfalso
    cases o with
    | refresh env now =>
      have ho : ¬ 0 < now := ho
      have e : (t.refresh env now).map (·.1) = some t' := e
      unfold St.refresh at e
      rw [if_pos (by omega)] at e
      cases e
    | control k now gone =>
      have e : (match t.slot k with
        | none => some t
        | some s => t.process s now gone) = some t' := e
      cases hs : t.slot k with
      | none => exact ho fun s h' => by rw [hs] at h'; cases h'
      | some s =>
        rw [hs] at e
        have e : t.process s now gone = some t' := e
        unfold St.process at e
        split at e
        · cases e
        · rename_i hc
          refine ho fun s' h' => ⟨by omega, ?_⟩
          rw [hs] at h'
          rw [← Option.some.inj h']
          cases hr : s.rtcp with
          | true => rfl
          | false => exact absurd (.inl hr) hc
    | slot => exact ho trivial
    | delete => exact ho trivial
    | rtcp => exact ho trivial
    | register => exact ho trivial
    | packet => exact ho trivial
    | source => exact ho trivial
    | reclock => exact ho trivial

theorem run_inv : ∀ (os : List Op) {t t' : St}, Inv t → t.run os = some t' → Inv t' := by
  intro os
  induction os with
  | nil => intro t t' h e; cases e; exact h
  | cons o os ih =>
    intro t t' h e
    have e : (match t.step o with
      | none => none
      | some t' => t'.run os) = some t' := e
    cases hs : t.step o with
    | none => rw [hs] at e; cases e
    | some t1 => rw [hs] at e; exact ih (step_inv h o hs) e

theorem inv_of_reachable {t : St} (h : Reachable t) : Inv t := by
  obtain ⟨os, e⟩ := h
  exact run_inv os inv_init e

/-! ## Theorems -/

/-- History for the examples: a slot with control endpoint, an encoding at 48000 Hz, two sessions — the first with FEC and repair packets —, a second slot with a
session of its own. -/
def demo : List Op :=
  [.slot 1 100, .rtcp 1, .register (96, 48000), .packet 1 (.source 10 77 5#16 true) [] none, .packet 1 .repair [] (some 0), .packet 1 (.source 96 78 9#16 false) [] none,
    .packet 1 (.source 10 77 6#16 true) [] (some 0), .slot 2 200, .packet 2 (.source 96 79 1#16 false) [] none]

/-- State after `demo`. -/
def demoSt : St := (St.init.run demo).getD St.init

/-- Reports of the first slot are due, its second session has ended. -/
def demoEnv : Env := ⟨fun k => k == 1, fun k => 1000 * k, fun i => i == 1⟩

theorem demo_reachable : Reachable demoSt := ⟨demo, by decide +kernel⟩

example : demoSt.slots.map (fun s => (s.key, s.sessions.map (·.id))) = [(1, [0, 1]), (2, [2])] ∧ demoSt.mixer = [0, 1, 2] := by decide +kernel

/-- **C117** (no abort). In no state does an operation that the code may perform end in a panic: not the removal of sessions from slots and the mixer, not the
check of reports by the RTCP reporter, whatever packets come — of any payload types, known or not — and whenever encodings are registered. -/
theorem C117_total {t : St} (h : Reachable t) (o : Op) (ho : o.Sound t) : ∃ t', t.step o = some t' := by
  obtain ⟨t', e, _⟩ := inv_step (inv_of_reachable h) o ho
  exact ⟨t', e⟩

example : Op.Sound demoSt (.refresh demoEnv 500) ∧ Op.Sound demoSt (.control 1 700 [0]) :=
  ⟨by show (0 : Int) < 500; decide, fun s h => ⟨by decide, by
    have hk : (demoSt.slot 1).all (·.rtcp) = true := by decide +kernel
    rw [h] at hk; exact hk⟩⟩

/-- **C117** (mixer). The inputs of the mixer are the sessions of all slots, each one once; the number of active sessions is their number. -/
theorem C117_mixer {t : St} (h : Reachable t) : t.mixer.Perm t.ids ∧ t.mixer.Nodup ∧ t.active = t.ids.length := by
  have hi := inv_of_reachable h
  exact ⟨hi.perm, hi.perm.nodup_iff.mpr hi.nodup, by rw [hi.active, hi.perm.length_eq]⟩

example : Reachable demoSt ∧ demoSt.active = 3 := ⟨demo_reachable, by decide +kernel⟩

/-- **C117** (refresh). `refresh` removes the sessions that have ended, and only those, from their slots and from the mixer; the order of the others stays. -/
theorem C117_refresh {t t' : St} {d : Int} (h : Reachable t) (env : Env) (now : Int) (e : t.refresh env now = some (t', d)) :
    t'.slots.map (fun s => (s.key, s.ssrc, s.rtcp, s.sessions)) = t.slots.map (fun s => (s.key, s.ssrc, s.rtcp, s.sessions.filter fun x => !env.dead x.id)) ∧
      t'.mixer = t.mixer.filter (fun i => !env.dead i) ∧ t'.active = t'.mixer.length := by
  have hi := inv_of_reachable h
  obtain ⟨t1, d1, e1, i1, i2, _, _, _, i6⟩ := refreshAll_ok env now t.slots [] t 0 hi
  unfold St.refresh at e
  split at e
  · cases e
  · rw [e1] at e
    have e := Option.some.inj e
    have et : t1 = t' := congrArg Prod.fst e
    subst et
    refine ⟨?_, ?_, i1.active⟩
    · rw [i2, List.nil_append, List.map_map]; rfl
    · rw [i6]
      apply List.filter_congr
      intro i hm
      have : (t.slots.flatMap Slot.ids).contains i = true := List.contains_iff_mem.mpr (hi.perm.mem_iff.mp hm)
      rw [this, Bool.and_true]

example : (demoSt.refresh demoEnv 500).map (fun r => (r.1.slots.map (fun s => s.sessions.map (·.id)), r.1.mixer, r.2)) = some ([[0], [2]], [0, 2], 1000) := by
  decide +kernel

/-- **C117** (reclock). `reclock` removes the sessions that have ended, and only those. -/
theorem C117_reclock {t : St} (h : Reachable t) (dead : Nat → Bool) :
    ∃ t', t.step (.reclock dead) = some t' ∧ t'.slots = t.slots.map (fun s => { s with sessions := s.sessions.filter fun x => !dead x.id }) ∧
      t'.mixer = t.mixer.filter (fun i => !dead i) := by
  have hi := inv_of_reachable h
  obtain ⟨t1, e1, i1, i2, i6⟩ := reclockAll_ok dead t.slots [] t hi
  refine ⟨t1, e1, by rw [i2, List.nil_append], ?_⟩
  rw [i6]
  apply List.filter_congr
  intro i hm
  have : (t.slots.flatMap Slot.ids).contains i = true := List.contains_iff_mem.mpr (hi.perm.mem_iff.mp hm)
  rw [this, Bool.and_true]

example : (demoSt.step (.reclock fun i => i != 0)).map (·.mixer) = some [0] := by decide +kernel

/-- **C117** (delete). Deletion of a slot removes its sessions from the mixer, and no others. -/
theorem C117_delete {t : St} (h : Reachable t) (k : Nat) (s : Slot) (hs : t.slot k = some s) :
    ∃ t', t.step (.delete k) = some t' ∧ t'.slots = t.slots.filter (fun x => x.key ≠ k) ∧
      ∀ i, i ∈ t'.mixer ↔ i ∈ t.mixer ∧ ∀ x ∈ s.sessions, x.id ≠ i := by
  obtain ⟨t', e, _, i2, i3⟩ := inv_delete (inv_of_reachable h) hs
  refine ⟨t', ?_, i2, ?_⟩
  · show (match t.slot k with
      | none => some t
      | some s => t.deleteSlot s) = some t'
    rw [hs]; exact e
  · intro i
    rw [i3, List.mem_filter]
    refine and_congr_right fun _ => ?_
    constructor
    · intro hc x hx he
      have : s.ids.contains i = true := List.contains_iff_mem.mpr (he ▸ List.mem_map_of_mem hx)
      rw [this] at hc; cases hc
    · intro hc
      have : i ∉ s.ids := fun hm => by
        obtain ⟨x, hx, he⟩ := List.mem_map.mp hm
        exact hc x hx he
      rw [contains_false this]; rfl

example : (demoSt.slot 1).isSome ∧ (demoSt.step (.delete 1)).map (·.mixer) = some [2] := by decide +kernel

theorem earliest_fold : ∀ (l : List Int) (d : Int), Earliest (l.foldl earlier d) (d :: l) := by
  intro l
  induction l with
  | nil =>
    intro d
    by_cases hd : d = 0
    · exact .inl ⟨hd, fun x hx => by rw [List.mem_singleton.mp hx]; exact hd⟩
    · exact .inr ⟨hd, List.mem_cons_self, fun x hx _ => by rw [List.mem_singleton.mp hx]; exact Int.le_refl _⟩
  | cons e l ih =>
    intro d
    have h := ih (earlier d e)
    show Earliest (l.foldl earlier (earlier d e)) _
    obtain ⟨r, hr⟩ : ∃ r, r = l.foldl earlier (earlier d e) := ⟨_, rfl⟩
    rw [← hr] at h ⊢
    have hde : (earlier d e = 0 ∧ d = 0 ∧ e = 0) ∨ (earlier d e ≠ 0 ∧ (earlier d e = d ∨ earlier d e = e) ∧ (d ≠ 0 → earlier d e ≤ d) ∧ (e ≠ 0 → earlier d e ≤ e)) := by
      unfold earlier
      by_cases he : e = 0
      · by_cases hd : d = 0
        · left; simp [he, hd]
        · right; simp [he, hd]
      · by_cases hd : d = 0
        · right; simp [he, hd]
        · right
          rw [if_pos he, if_neg hd]
          rcases Int.le_total d e with hl | hl
          · rw [Int.min_eq_left hl]; exact ⟨hd, .inl rfl, fun _ => Int.le_refl _, fun _ => hl⟩
          · rw [Int.min_eq_right hl]; exact ⟨he, .inr rfl, fun _ => hl, fun _ => Int.le_refl _⟩
    rcases h with ⟨h1, h2⟩ | ⟨h1, h2, h3⟩
    · have h0 := h2 _ List.mem_cons_self
      rcases hde with ⟨_, hd, he⟩ | ⟨hn, _⟩
      · refine .inl ⟨h1, ?_⟩
        intro x hx
        rcases List.mem_cons.mp hx with rfl | hx
        · exact hd
        · rcases List.mem_cons.mp hx with rfl | hx
          · exact he
          · exact h2 x (List.mem_cons_of_mem _ hx)
      · exact absurd h0 hn
    · refine .inr ⟨h1, ?_, ?_⟩
      · rcases List.mem_cons.mp h2 with h2 | h2
        · rcases hde with ⟨h0, _⟩ | ⟨_, ho, _⟩
          · exact absurd (h2.trans h0) h1
          · rcases ho with ho | ho
            · rw [h2, ho]; exact List.mem_cons_self
            · rw [h2, ho]; exact List.mem_cons_of_mem _ List.mem_cons_self
        · exact List.mem_cons_of_mem _ (List.mem_cons_of_mem _ h2)
      · intro x hx hx0
        have hm : ∀ y, y ≠ 0 → (y = d ∨ y = e) → r ≤ y := by
          intro y hy hyd
          rcases hde with ⟨_, hd, he⟩ | ⟨hn, _, h4, h5⟩
          · rcases hyd with rfl | rfl
            · exact absurd hd hy
            · exact absurd he hy
          · have hle := h3 _ List.mem_cons_self hn
            rcases hyd with rfl | rfl
            · exact Int.le_trans hle (h4 hy)
            · exact Int.le_trans hle (h5 hy)
        rcases List.mem_cons.mp hx with rfl | hx
        · exact hm _ hx0 (.inl rfl)
        · rcases List.mem_cons.mp hx with rfl | hx
          · exact hm _ hx0 (.inr rfl)
          · exact h3 x (List.mem_cons_of_mem _ hx) hx0

/-- **C117** (deadline). `refresh` returns the earliest deadline of the communicators of all slots that have one; zero iff none of them has a deadline. -/
theorem C117_deadline {t t' : St} {d : Int} (h : Reachable t) (env : Env) (now : Int) (e : t.refresh env now = some (t', d)) :
    Earliest d ((t.slots.filter (·.rtcp)).map fun s => env.deadline s.key) := by
  obtain ⟨t1, d1, e1, _, _, _, _, i5, _⟩ := refreshAll_ok env now t.slots [] t 0 (inv_of_reachable h)
  unfold St.refresh at e
  split at e
  · cases e
  · rw [e1] at e
    have ed : d1 = d := congrArg Prod.snd (Option.some.inj e)
    rw [← ed, i5]
    have hf := earliest_fold (t.slots.map (dl env)) 0
    have key : ∀ x, x ≠ 0 → (x ∈ (0 : Int) :: t.slots.map (dl env) ↔ x ∈ (t.slots.filter (·.rtcp)).map fun s => env.deadline s.key) := by
      intro x hx
      rw [List.mem_cons]
      constructor
      · rintro (h0 | hm)
        · exact absurd h0 hx
        · obtain ⟨s, hs, he⟩ := List.mem_map.mp hm
          unfold dl at he
          cases hr : s.rtcp with
          | false => rw [hr] at he; exact absurd he.symm hx
          | true =>
            rw [hr] at he
            exact List.mem_map.mpr ⟨s, List.mem_filter.mpr ⟨hs, hr⟩, he⟩
      · intro hm
        obtain ⟨s, hs, he⟩ := List.mem_map.mp hm
        obtain ⟨hs, hr⟩ := List.mem_filter.mp hs
        refine .inr (List.mem_map.mpr ⟨s, hs, ?_⟩)
        unfold dl
        rw [hr]; exact he
    rcases hf with ⟨h1, h2⟩ | ⟨h1, h2, h3⟩
    · refine .inl ⟨h1, ?_⟩
      intro x hx
      by_cases h0 : x = 0
      · exact h0
      · exact h2 x ((key x h0).mpr hx)
    · exact .inr ⟨h1, (key _ h1).mp h2, fun x hx h0 => h3 x ((key x h0).mpr hx) h0⟩

example : (demoSt.slots.filter (·.rtcp)).map (fun s => demoEnv.deadline s.key) = [1000] := by decide +kernel

/-- What a report must say about a session. -/
structure Tells (t : St) (s : Slot) (now : Int) (x : Session) (r : Report) : Prop where
  receiver : r.receiver = s.ssrc
  sender : x.audio.source = some r.sender
  time : r.time = now ∨ r.time = now + 1
  rate : ∃ pt, find t.map pt = some r.rate ∧ r.rate ≠ 0
  first : r.first = x.src.sn.extFirst
  last : r.last = x.src.sn.extLast

/-- **C117** (reports). When `refresh` generates reports for a slot, there is one report for every session whose source of audio is known, in the order of the
sessions; it tells the source of the slot, the source of the session, the time, the rate of a registered encoding, and the sequence numbers seen. -/
theorem C117_reports {t t' : St} {d : Int} (h : Reachable t) (env : Env) (now : Int) (e : t.refresh env now = some (t', d)) (s : Slot) (hs : s ∈ t.slots)
    (hr : s.rtcp = true) (hd : env.due s.key = true) :
    ∃ s' ∈ t'.slots, s'.key = s.key ∧ s'.buf.map (·.sender) = s.sessions.filterMap (·.audio.source) ∧ ∀ r ∈ s'.buf, ∃ x ∈ s.sessions, Tells t s now x r := by
  have hi := inv_of_reachable h
  obtain ⟨t1, d1, e1, _, i2, _, _, _, _⟩ := refreshAll_ok env now t.slots [] t 0 hi
  unfold St.refresh at e
  split at e
  · cases e
  · rw [e1] at e
    have et : t1 = t' := congrArg Prod.fst (Option.some.inj e)
    subst et
    have hb : (after env now s).buf = s.sessions.flatMap fun x => x.all s.ssrc (s.fresh now) := if_pos (by rw [hr, hd]; rfl)
    refine ⟨after env now s, by rw [i2]; exact List.mem_append_right _ (List.mem_map_of_mem hs), rfl, ?_, ?_⟩
    · rw [hb, List.map_flatMap]
      have : ∀ l : List Session, (∀ x ∈ l, Good x) → l.flatMap (fun x => (x.all s.ssrc (s.fresh now)).map (·.sender)) = l.filterMap (·.audio.source) := by
        intro l
        induction l with
        | nil => intro _; rfl
        | cons x l ih =>
          intro hl
          rw [List.flatMap_cons, ih (fun y hy => hl y (List.mem_cons_of_mem _ hy)), all_sender (hl x List.mem_cons_self)]
          cases hx : x.audio.source with
          | none => simp only [List.filterMap_cons, hx]; rfl
          | some k => simp only [List.filterMap_cons, hx]; rfl
      exact this s.sessions (hi.good s hs)
    · intro r hm
      rw [hb] at hm
      obtain ⟨x, hx, hm⟩ := List.mem_flatMap.mp hm
      obtain ⟨k, e, hk, he, rfl⟩ := all_mem (hi.good s hs x hx) hm
      refine ⟨x, hx, rfl, hk, ?_, ⟨e.1, hi.known s hs x hx e he, (hi.good s hs x hx).rate e he⟩, rfl, rfl⟩
      show s.fresh now = now ∨ s.fresh now = now + 1
      unfold Slot.fresh
      split
      · exact .inl rfl
      · exact .inr rfl

example : (demoSt.refresh demoEnv 500).map (fun r => r.1.slots.map (·.buf)) =
    some [[⟨100, 77, 500, 44100, 5, 6⟩, ⟨100, 78, 500, 48000, 9, 9⟩], []] := by decide +kernel

/-- **C117** (first packet). A packet that starts a session — its payload type is known, no session was found for it — makes one at the end of the slot, whose
source is that of the packet, so that the next reports include it. -/
theorem C117_first_packet {t t' : St} (h : Reachable t) (k : Nat) (s : Slot) (hs : t.slot k = some s) (pt src : Nat) (sn : Units.Seqnum) (fec : Bool)
    (regs : List (Nat × Nat)) (hpt : (find t.map pt).isSome) (e : t.step (.packet k (.source pt src sn fec) regs none) = some t') :
    ∃ s' x, t'.slot k = some s' ∧ s'.sessions = s.sessions ++ [x] ∧ x.audio.source = some src ∧ x.fec = fec ∧ x.id ∉ t.mixer ∧ t'.mixer = t.mixer ++ [x.id] := by
  have hi := inv_of_reachable h
  obtain ⟨hk, done, l, es, hd⟩ := slot_split hi hs
  obtain ⟨r, hr⟩ := Option.isSome_iff_exists.mp hpt
  have hr' := find_registers regs hr
  have e : (match t.slot k with
    | none => some t
    | some s => some (St.route { t with map := regs.foldl register t.map } s (parse t.map (.source pt src sn fec)) none)) = some t' := e
  rw [hs] at e
  have e := Option.some.inj e
  have hc : t' = St.create { t with map := regs.foldl register t.map } s (parse t.map (.source pt src sn fec)) := e.symm
  have ha : (parse t.map (.source pt src sn fec)).audio = true := hpt
  unfold St.create at hc
  simp only [parse] at hc
  rw [hr'] at hc
  simp only [] at hc
  have hx : (Session.write (regs.foldl register t.map) ⟨t.next, fec, Route.init, Route.init, Meter.init, Meter.init⟩
      (parse t.map (.source pt src sn fec))).audio.source = some src ∧
      (Session.write (regs.foldl register t.map) ⟨t.next, fec, Route.init, Route.init, Meter.init, Meter.init⟩
      (parse t.map (.source pt src sn fec))).fec = fec := by
    unfold Session.write
    rw [if_pos ha]
    exact ⟨rfl, rfl⟩
  have hid : (Session.write (regs.foldl register t.map) ⟨t.next, fec, Route.init, Route.init, Meter.init, Meter.init⟩
      (parse t.map (.source pt src sn fec))).id = t.next := write_id _ _ _
  refine ⟨{ s with sessions := s.sessions ++ [Session.write (regs.foldl register t.map) ⟨t.next, fec, Route.init, Route.init, Meter.init, Meter.init⟩
      (parse t.map (.source pt src sn fec))] }, _, ?_, rfl, hx.1, hx.2, ?_, ?_⟩
  · rw [hc]
    show (St.put _ _).slots.find? _ = _
    rw [put_split (t := { t with map := regs.foldl register t.map }) (s' := { s with sessions := s.sessions ++ [Session.write (regs.foldl register t.map)
      ⟨t.next, fec, Route.init, Route.init, Meter.init, Meter.init⟩ ⟨some (pt, src, sn), (find t.map pt).isSome, false, fec⟩] }) es hd rfl, List.find?_append]
    have hn : done.find? (fun x => decide (x.key = k)) = none := by
      rw [List.find?_eq_none]
      intro x hx
      simpa [hk] using hd x (List.mem_append_left _ hx)
    rw [hn, Option.none_or, List.find?_cons_of_pos (by simpa using hk)]
    rfl
  · rw [hid]
    intro hm
    have := hi.lt _ (hi.perm.mem_iff.mp hm)
    omega
  · rw [hc]
    rfl

example : (demoSt.slot 2).isSome ∧ (find demoSt.map 11).isSome ∧ ((demoSt.step (.packet 2 (.source 11 80 3#16 false) [] none)).map (·.mixer)) = some [0, 1, 2, 3] := by
  decide +kernel

/-- **C117 fails** (repair packets). There is never a report about the repair packets of a session: the source of the repair stream stays unknown, however many
repair packets come, because they carry no RTP header. -/
theorem C117_repair_fails {t : St} (h : Reachable t) (s : Slot) (hs : s ∈ t.slots) (x : Session) (hx : x ∈ s.sessions) :
    x.repair.source = none ∧ x.rep.has = false :=
  ⟨((inv_of_reachable h).good s hs x hx).rsource, ((inv_of_reachable h).good s hs x hx).rhas⟩

example : demoSt.slots.map (fun s => s.sessions.map fun x => (x.fec, x.repair.started)) = [[(true, true), (false, false)], [(false, false)]] := by decide +kernel

/-- **C117** (unknown payload type). A packet of an unknown payload type changes no session and makes none. -/
theorem C117_unknown {t t' : St} (h : Reachable t) (k : Nat) (pt src : Nat) (sn : Units.Seqnum) (fec : Bool) (target : Option Nat) (hpt : find t.map pt = none)
    (e : t.step (.packet k (.source pt src sn fec) [] target) = some t') : t' = t := by
  have e : (match t.slot k with
    | none => some t
    | some s => some (St.route { t with map := t.map } s (parse t.map (.source pt src sn fec)) target)) = some t' := e
  cases hs : t.slot k with
  | none => rw [hs] at e; exact (Option.some.inj e).symm
  | some s =>
    rw [hs] at e
    have e : St.route t s (parse t.map (.source pt src sn fec)) target = t' := Option.some.inj e
    have hp : parse t.map (.source pt src sn fec) = ⟨some (pt, src, sn), false, false, fec⟩ := by
      show (⟨some (pt, src, sn), (find t.map pt).isSome, false, fec⟩ : Packet) = _
      rw [hpt]; rfl
    rw [hp] at e
    rw [← e]
    have hw : ∀ y : Session, y.write t.map ⟨some (pt, src, sn), false, false, fec⟩ = y := by
      intro y
      unfold Session.write
      rw [if_neg (by simp), if_neg (by simp)]
    unfold St.route
    split
    · rename_i x hx
      obtain ⟨_, done, l, es, hd⟩ := slot_split (inv_of_reachable h) hs
      have hm : (s.sessions.map fun y => if y.id = x.id then y.write t.map ⟨some (pt, src, sn), false, false, fec⟩ else y) = s.sessions := by
        refine (List.map_congr_left (g := id) ?_).trans (List.map_id _)
        intro y _
        split
        · exact hw y
        · rfl
      rw [hm]
      have hp := put_split (s' := s) es hd rfl
      rw [← es] at hp
      show St.mk t.map (t.put s).slots t.mixer t.active t.next = t
      rw [hp]
    · rw [if_neg (by simp)]
      unfold St.create
      simp only [hpt]

example : find demoSt.map 50 = none ∧ (demoSt.step (.packet 1 (.source 50 77 7#16 true) [] (some 0))).isSome := by decide +kernel

end Verif.ReceiverRefresh
