import Verif.TaskQueue.Views

/-! The invariant is preserved by every allowed step, and no allowed step aborts. -/

namespace Verif.TaskQueue

theorem inv_mk {s s' : State} (t : Nat) (h : Inv s) (hg : GInv s') (ht : TInv (s'.view t))
    (hf : ∀ i, i ≠ t → s'.view i = s.view i) : Inv s' :=
  ⟨hg, fun i => by
    by_cases hi : i = t
    · subst hi; exact ht
    · rw [hf i hi]; exact h.t i⟩

theorem upd_same (f : Nat → Task) (t : Nat) (k : Task) : upd f t k t = k := by simp [upd]
theorem upd_ne (f : Nat → Task) {t i : Nat} (k : Task) (h : i ≠ t) : upd f t k i = f i := by simp [upd, h]

/-- Facts about one task, in terms of the state. -/
theorem Inv.at {s : State} (h : Inv s) (t : Nat) :
    TInv ⟨s.task t, decide (t ∈ s.ready), decide (t ∈ s.sleeping), decide (t ∈ s.paused), decide (s.pc = .exec t),
      nSched t s.tr, nDone t s.tr, lastReq t s.tr, owed t s.tr, pending t s.tr, wakened t s.tr⟩ := h.t t

theorem Inv.sleepingPos {s : State} (h : Inv s) {t : Nat} (ht : t ∈ s.sleeping) : 0 < (s.task t).effDl :=
  ((h.at t).s (by simpa using ht)).2.1

theorem Inv.readyIff {s : State} (h : Inv s) (t : Nat) : t ∈ s.ready ↔ (s.task t).st = .ready := by
  have := (h.at t).r; simpa using this

/-- Change of a task that keeps deadlines of the sleeping ones. -/
theorem sorted_upd {s : State} (h : Inv s) (t : Nat) (k : Task) (hk : k.effDl = (s.task t).effDl ∨ t ∉ s.sleeping) :
    s.sleeping.Pairwise fun a b => (upd s.task t k a).effDl ≤ (upd s.task t k b).effDl := by
  refine pairwise_congr ?_ h.g.sorted
  intro i hi
  by_cases hit : i = t
  · subst hit
    rcases hk with hk | hk
    · rw [upd_same, hk]
    · exact absurd hi hk
  · rw [upd_ne _ _ hit]

theorem sorted_erase {s : State} (h : Inv s) (t : Nat) (k : Task) :
    (s.sleeping.erase t).Pairwise fun a b => (upd s.task t k a).effDl ≤ (upd s.task t k b).effDl := by
  refine pairwise_congr ?_ (h.g.sorted.sublist List.erase_sublist)
  intro i hi
  rw [upd_ne]
  exact (h.g.snd.mem_erase_iff.1 hi).1

theorem sorted_insert {s : State} (h : Inv s) (t : Nat) (k : Task) :
    (insertBy (fun i => (upd s.task t k i).effDl) t (s.sleeping.erase t)).Pairwise
      fun a b => (upd s.task t k a).effDl ≤ (upd s.task t k b).effDl :=
  sorted_insertBy (fun i => (upd s.task t k i).effDl) t _ (sorted_erase h t k)

theorem nodup_insert {s : State} (h : Inv s) (t : Nat) (f : Nat → Int) : (insertBy f t (s.sleeping.erase t)).Nodup :=
  nodup_insertBy _ _ _ (fun c => (h.g.snd.mem_erase_iff.1 c).1 rfl) (h.g.snd.erase t)

/-- The timer after an update with nothing in the ready queue. -/
def dlFront (f : Nat → Int) : List Nat → Int
  | [] => -1
  | t :: _ => f t

theorem updateTimer_eq (s : State) : s.updateTimer = { s with
    timer := if s.size = 0 then dlFront (fun i => (s.task i).effDl) s.sleeping else 0 } := by
  unfold State.updateTimer dlFront
  cases s.sleeping <;> rfl

theorem timer_dlFront {l : List Nat} {f : Nat → Int} (hs : l.Pairwise fun a b => f a ≤ f b) (hp : ∀ i ∈ l, 0 < f i) :
    ∀ i ∈ l, 0 ≤ dlFront f l ∧ dlFront f l ≤ f i := by
  cases l with
  | nil => simp
  | cons a l =>
    intro i hi
    rw [List.pairwise_cons] at hs
    have := hp a (by simp)
    refine ⟨by simp [dlFront]; omega, ?_⟩
    rcases List.mem_cons.1 hi with rfl | hi
    · exact Int.le_refl _
    · exact hs.1 i hi

/-- The events that are added concern only task `t`. -/
def TrFrame (t : Nat) (tr tr' : List Ev) : Prop :=
  ∀ i, i ≠ t → nSched i tr' = nSched i tr ∧ nDone i tr' = nDone i tr ∧ lastReq i tr' = lastReq i tr ∧ owed i tr' = owed i tr ∧ pending i tr' = pending i tr ∧ wakened i tr' = wakened i tr

theorem TrFrame.refl (t : Nat) (tr : List Ev) : TrFrame t tr tr := fun _ _ => ⟨rfl, rfl, rfl, rfl, rfl, rfl⟩

theorem TrFrame.sched (t : Nat) (d : Int) (tr : List Ev) : TrFrame t tr (.sched t d :: tr) := by
  intro i hi
  have hi' : ¬ t = i := fun c => hi c.symm
  simp [nSched, nDone, lastReq, owed, pending, wakened, hi']

theorem TrFrame.cancel (t : Nat) (tr : List Ev) : TrFrame t tr (.cancel t :: tr) := by
  intro i hi
  have hi' : ¬ t = i := fun c => hi c.symm
  simp [nSched, nDone, lastReq, owed, pending, wakened, hi']

theorem TrFrame.done (t : Nat) (c : Bool) (tr : List Ev) : TrFrame t tr (.done t c :: tr) := by
  intro i hi
  have hi' : ¬ t = i := fun c => hi c.symm
  simp [nSched, nDone, lastReq, owed, pending, wakened, hi']

theorem TrFrame.trans {t : Nat} {a b c : List Ev} (h1 : TrFrame t a b) (h2 : TrFrame t b c) : TrFrame t a c := by
  intro i hi
  have h1 := h1 i hi
  have h2 := h2 i hi
  exact ⟨h2.1.trans h1.1, h2.2.1.trans h1.2.1, h2.2.2.1.trans h1.2.2.1, h2.2.2.2.1.trans h1.2.2.2.1, h2.2.2.2.2.1.trans h1.2.2.2.2.1, h2.2.2.2.2.2.trans h1.2.2.2.2.2⟩

/-- Only task `t` changes; the queues do not. -/
theorem keep_inv {s s' : State} (h : Inv s) (t : Nat) (k : Task) (e1 : s'.task = upd s.task t k)
    (e2 : s'.ready = s.ready) (e3 : s'.size = s.size) (e4 : s'.sleeping = s.sleeping) (e5 : s'.paused = s.paused)
    (e6 : s'.timer = s.timer) (e7 : s'.now = s.now) (e8 : s'.pc = .asleep → s.pc = .asleep)
    (e9 : ∀ i, i ≠ t → (s'.pc = .exec i ↔ s.pc = .exec i))
    (hk : k.effDl = (s.task t).effDl ∨ t ∉ s.sleeping) (hfr : TrFrame t s.tr s'.tr) (hst : Obeys s'.tr)
    (hv : TInv ⟨k, decide (t ∈ s.ready), decide (t ∈ s.sleeping), decide (t ∈ s.paused), decide (s'.pc = .exec t),
      nSched t s'.tr, nDone t s'.tr, lastReq t s'.tr, owed t s'.tr, pending t s'.tr, wakened t s'.tr⟩) : Inv s' := by
  refine inv_mk t h ?_ ?_ ?_
  · refine ⟨by rw [e2]; exact h.g.rnd, by rw [e4]; exact h.g.snd, by rw [e5]; exact h.g.pnd,
      by rw [e1, e4]; exact sorted_upd h t k hk, by rw [e2, e3]; exact h.g.size, by rw [e7]; exact h.g.now, ?_, hst⟩
    intro hpc
    have ht := h.g.tmr (e8 hpc)
    rw [e2, e4, e6, e1]
    refine ⟨ht.1, fun i hi => ?_⟩
    by_cases hit : i = t
    · subst hit
      rw [upd_same]
      rcases hk with hk | hk
      · rw [hk]; exact ht.2 i hi
      · exact absurd hi hk
    · rw [upd_ne _ _ hit]; exact ht.2 i hi
  · simp only [State.view, e1, e2, e4, e5, upd_same]; exact hv
  · intro i hi
    have hf := hfr i hi
    simp only [State.view, e1, e2, e4, e5, upd_ne _ _ hi, hf, e9 i hi]

/-- Task `t` is put into the ready queue. -/
theorem push_inv {s s' : State} (h : Inv s) (t : Nat) (k : Task) (e1 : s'.task = upd s.task t k)
    (e2 : s'.ready = s.ready ++ [t]) (e3 : s'.size = s.size + 1) (e4 : s'.sleeping = s.sleeping) (e5 : s'.paused = s.paused)
    (e6 : s'.pc = .asleep → s'.timer = 0) (e7 : s'.now = s.now)
    (e9 : ∀ i, i ≠ t → (s'.pc = .exec i ↔ s.pc = .exec i)) (hnr : (s.task t).st ≠ .ready)
    (hk : k.effDl = (s.task t).effDl) (hfr : TrFrame t s.tr s'.tr) (hst : Obeys s'.tr)
    (hv : TInv ⟨k, true, decide (t ∈ s.sleeping), decide (t ∈ s.paused), decide (s'.pc = .exec t),
      nSched t s'.tr, nDone t s'.tr, lastReq t s'.tr, owed t s'.tr, pending t s'.tr, wakened t s'.tr⟩) : Inv s' := by
  have hnr' : t ∉ s.ready := fun c => hnr ((h.readyIff t).1 c)
  refine inv_mk t h ?_ ?_ ?_
  · refine ⟨?_, by rw [e4]; exact h.g.snd, by rw [e5]; exact h.g.pnd,
      by rw [e1, e4]; exact sorted_upd h t k (.inl hk), ?_, by rw [e7]; exact h.g.now, ?_, hst⟩
    · rw [e2]
      refine List.nodup_append.2 ⟨h.g.rnd, by simp, ?_⟩
      intro a ha b hb
      simp only [List.mem_singleton] at hb
      subst hb
      rintro rfl
      exact hnr' ha
    · have := h.g.size; rw [e2, e3]; simp; omega
    · intro hpc
      rw [e6 hpc, e4, e1]
      refine ⟨fun _ => rfl, fun i hi => ⟨Int.le_refl _, ?_⟩⟩
      by_cases hit : i = t
      · subst hit; rw [upd_same, hk]; exact Int.le_of_lt (h.sleepingPos hi)
      · rw [upd_ne _ _ hit]; exact Int.le_of_lt (h.sleepingPos hi)
  · simp only [State.view, e1, e2, e4, e5, upd_same]
    simpa using hv
  · intro i hi
    have hf := hfr i hi
    simp only [State.view, e1, e2, e4, e5, upd_ne _ _ hi, hf, e9 i hi]
    simp [hi]

/-- Task `t` leaves the sleeping and paused queues; possibly it is removed from the ready queue. -/
theorem out_inv {s s' : State} (h : Inv s) (t : Nat) (k : Task) (e1 : s'.task = upd s.task t k)
    (e2 : s'.ready = s.ready.erase t) (e3 : s'.size = s'.ready.length) (e4 : s'.sleeping = s.sleeping.erase t)
    (e5 : s'.paused = s.paused.erase t) (e6 : s'.pc = .asleep → s'.ready = [] ∧ s'.timer =
      dlFront (fun i => (s'.task i).effDl) s'.sleeping) (e7 : s'.now = s.now)
    (e9 : ∀ i, i ≠ t → (s'.pc = .exec i ↔ s.pc = .exec i))
    (hfr : TrFrame t s.tr s'.tr) (hst : Obeys s'.tr)
    (hv : TInv ⟨k, false, false, false, decide (s'.pc = .exec t),
      nSched t s'.tr, nDone t s'.tr, lastReq t s'.tr, owed t s'.tr, pending t s'.tr, wakened t s'.tr⟩) : Inv s' := by
  have hs := sorted_erase h t k
  refine inv_mk t h ?_ ?_ ?_
  · refine ⟨by rw [e2]; exact h.g.rnd.erase t, by rw [e4]; exact h.g.snd.erase t, by rw [e5]; exact h.g.pnd.erase t,
      by rw [e1, e4]; exact hs, e3, by rw [e7]; exact h.g.now, ?_, hst⟩
    intro hpc
    refine ⟨fun c => absurd (e6 hpc).1 c, ?_⟩
    rw [(e6 hpc).2, e4, e1]
    refine timer_dlFront (f := fun i => (upd s.task t k i).effDl) hs ?_
    intro i hi
    have hm := h.g.snd.mem_erase_iff.1 hi
    simp only [upd_ne _ _ hm.1]; exact h.sleepingPos hm.2
  · simp only [State.view, e1, e2, e4, e5, upd_same]
    simpa [h.g.rnd.mem_erase_iff, h.g.snd.mem_erase_iff, h.g.pnd.mem_erase_iff] using hv
  · intro i hi
    have hf := hfr i hi
    simp only [State.view, e1, e2, e4, e5, upd_ne _ _ hi, hf, e9 i hi]
    simp [hi, h.g.rnd.mem_erase_iff, h.g.snd.mem_erase_iff, h.g.pnd.mem_erase_iff]

/-- Task `t` goes to the sleeping queue; possibly it is removed from the ready queue. -/
theorem sleep_inv {s s' : State} (h : Inv s) (t : Nat) (k : Task) (e1 : s'.task = upd s.task t k)
    (e2 : s'.ready = s.ready.erase t) (e3 : s'.size = s'.ready.length)
    (e4 : s'.sleeping = insertBy (fun i => (upd s.task t k i).effDl) t (s.sleeping.erase t))
    (e5 : s'.paused = s.paused.erase t) (e6 : s'.pc = .asleep → s'.ready = [] ∧ s'.timer =
      dlFront (fun i => (s'.task i).effDl) s'.sleeping) (e7 : s'.now = s.now)
    (e9 : ∀ i, i ≠ t → (s'.pc = .exec i ↔ s.pc = .exec i)) (hk : 0 < k.effDl)
    (hfr : TrFrame t s.tr s'.tr) (hst : Obeys s'.tr)
    (hv : TInv ⟨k, false, true, false, decide (s'.pc = .exec t),
      nSched t s'.tr, nDone t s'.tr, lastReq t s'.tr, owed t s'.tr, pending t s'.tr, wakened t s'.tr⟩) : Inv s' := by
  have hs := sorted_insert h t k
  refine inv_mk t h ?_ ?_ ?_
  · refine ⟨by rw [e2]; exact h.g.rnd.erase t, by rw [e4]; exact nodup_insert h t _, by rw [e5]; exact h.g.pnd.erase t,
      by rw [e1, e4]; exact hs, e3, by rw [e7]; exact h.g.now, ?_, hst⟩
    intro hpc
    refine ⟨fun c => absurd (e6 hpc).1 c, ?_⟩
    rw [(e6 hpc).2, e4, e1]
    refine timer_dlFront (f := fun i => (upd s.task t k i).effDl) hs ?_
    intro i hi
    rcases (mem_insertBy _ _ _ _).1 hi with rfl | hi
    · simp only [upd_same]; exact hk
    have hm := h.g.snd.mem_erase_iff.1 hi
    simp only [upd_ne _ _ hm.1]; exact h.sleepingPos hm.2
  · simp only [State.view, e1, e2, e4, e5, upd_same, mem_insertBy]
    simpa [h.g.rnd.mem_erase_iff, h.g.snd.mem_erase_iff, h.g.pnd.mem_erase_iff] using hv
  · intro i hi
    have hf := hfr i hi
    simp only [State.view, e1, e2, e4, e5, upd_ne _ _ hi, hf, e9 i hi, mem_insertBy]
    simp [hi, h.g.rnd.mem_erase_iff, h.g.snd.mem_erase_iff, h.g.pnd.mem_erase_iff]

theorem step_schedule {s : State} (h : Inv s) (t : Nat) (dl : Int) (hd : 0 ≤ dl) :
    ∃ s', s.schedule t dl = some s' ∧ Inv s' := by
  have hv := h.at t
  unfold State.schedule
  rw [if_neg (by omega)]
  dsimp only
  unfold State.requestRenew
  have hfl : ({ s.task t with exec := true, renDl := dl, renVer := (s.task t).renVer + 1 } : Task).flagsOk = true := hv.fl
  simp only [State.set, State.ev, if_true]
  rw [if_neg (by omega), if_neg (by rw [hfl]; simp)]
  have hu : (fun i => if i = t then { s.task t with exec := true, renDl := dl, renVer := (s.task t).renVer + 1 }
      else if i = t then { s.task t with exec := true } else s.task i)
      = upd s.task t { s.task t with exec := true, renDl := dl, renVer := (s.task t).renVer + 1 } := by
    funext i; unfold upd; split <;> simp_all
  have keep : (s.task t).paused = true ∨ (s.task t).st = .ready →
      Inv { s with task := upd s.task t { s.task t with exec := true, renDl := dl, renVer := (s.task t).renVer + 1 },
                   tr := .sched t dl :: s.tr } := by
    intro hk
    refine keep_inv h t _ rfl rfl rfl rfl rfl rfl rfl id (fun _ _ => Iff.rfl) (.inl rfl) (.sched t dl _) h.g.starts ?_
    have := v_sched_keep hv hd hk
    simpa [nSched, nDone, lastReq, owed, pending, wakened, Nat.add_comm] using this
  by_cases hpa : (s.task t).paused = true
  · rw [if_pos hpa]
    exact ⟨_, rfl, by rw [hu]; exact keep (.inl hpa)⟩
  rw [if_neg hpa]
  by_cases hre : (s.task t).st = .ready
  · rw [if_pos hre]
    exact ⟨_, rfl, by rw [hu]; exact keep (.inr hre)⟩
  rw [if_neg hre]
  have hpa' : (s.task t).paused = false := by simpa using hpa
  have hu2 : (fun i => if i = t then { s.task t with exec := true, renDl := dl, renVer := (s.task t).renVer + 1, st := .ready }
      else if i = t then { s.task t with exec := true, renDl := dl, renVer := (s.task t).renVer + 1 }
      else if i = t then { s.task t with exec := true } else s.task i)
      = upd s.task t { s.task t with exec := true, renDl := dl, renVer := (s.task t).renVer + 1, st := .ready } := by
    funext i; unfold upd; split <;> simp_all
  rw [hu2]
  unfold State.enqueue
  dsimp only
  have hnr : t ∉ s.ready := fun c => hre ((h.readyIff t).1 c)
  by_cases hc : s.size + 1 = 1 ∧ (dl > 0 ∨ (dl < 0 ∧ ¬ (s.task t).comp = true)) ∧ s.pc = .asleep ∧
      (¬ (s.task t).paused = true ∨ (dl < 0 ∧ ¬ (s.task t).comp = true))
  · have hdl : 0 < dl := by omega
    have hasl := hc.2.2.1
    rw [if_pos (by simpa [upd_same] using hc)]
    obtain ⟨s1, hs1⟩ : ∃ s1 : State, s1 = { s with
      task := upd s.task t { s.task t with exec := true, renDl := dl, renVer := (s.task t).renVer + 1, st := .ready }
      size := s.size + 1
      tr := .sched t dl :: s.tr } := ⟨_, rfl⟩
    have ht1 : s1.task t = { s.task t with exec := true, renDl := dl, renVer := (s.task t).renVer + 1, st := .ready } := by
      rw [hs1]; exact upd_same _ _ _
    have hrn := renew_later s1 t dl ((s.task t).renVer + 1) (by rw [ht1]) hdl (by rw [ht1]; exact hpa') (by
      rw [ht1, hs1]; exact h.sleepingPos) (by rw [hs1]; exact h.g.snd) (by rw [hs1]; exact h.g.pnd)
    rw [upd_same]
    dsimp only
    rw [← hs1, hrn]
    refine ⟨_, rfl, ?_⟩
    have hre0 : s.ready = [] := by
      have := h.g.size; have h0 := hc.1
      exact List.length_eq_zero_iff.1 (by omega)
    rw [ht1]
    have hupd : upd s1.task t { s.task t with exec := true, renDl := dl, renVer := (s.task t).renVer + 1, st := .sleeping, effDl := dl, effVer := (s.task t).renVer + 1 }
      = upd s.task t { s.task t with exec := true, renDl := dl, renVer := (s.task t).renVer + 1, st := .sleeping, effDl := dl, effVer := (s.task t).renVer + 1 } := by
      rw [hs1]; exact upd_upd _ _ _ _
    refine sleep_inv h t { s.task t with exec := true, renDl := dl, renVer := (s.task t).renVer + 1, st := .sleeping, effDl := dl, effVer := (s.task t).renVer + 1 }
      hupd (by simp [updateTimer_eq, hs1, hre0]) ?_ ?_ (by simp [updateTimer_eq, hs1]) ?_ (by simp [updateTimer_eq, hs1]) (by simp [updateTimer_eq, hs1]) hdl
      (by simp only [updateTimer_eq, hs1]; exact .sched t dl _) (by simp only [updateTimer_eq, hs1]; exact h.g.starts) ?_
    · have := h.g.size
      simp only [updateTimer_eq, hs1]; omega
    · show insertBy (fun i => (upd s1.task t { s.task t with exec := true, renDl := dl, renVer := (s.task t).renVer + 1, st := .sleeping, effDl := dl, effVer := (s.task t).renVer + 1 } i).effDl) t (s1.sleeping.erase t) = _
      rw [hupd, hs1]
    · intro _
      refine ⟨by simp only [updateTimer_eq, hs1]; exact hre0, ?_⟩
      simp only [updateTimer_eq]
      rw [if_pos (by rw [hs1]; simp only; omega)]
    · have := v_sched_inplace (by simpa [hasl] using hv) hdl hpa' hre
      simp only [updateTimer_eq, hs1, hasl]
      simpa [nSched, nDone, lastReq, owed, pending, wakened, Nat.add_comm, hre0] using this
  · rw [if_neg (by simpa [upd_same] using hc)]
    refine ⟨_, rfl, ?_⟩
    refine push_inv h t _ rfl rfl rfl rfl rfl (fun _ => rfl) rfl (fun _ _ => Iff.rfl) hre rfl (.sched t dl _) h.g.starts ?_
    have := v_sched_push hv hd hpa' hre
    simpa [nSched, nDone, lastReq, owed, pending, wakened, Nat.add_comm] using this

theorem step_cancel {s : State} (h : Inv s) (t : Nat) : ∃ s', s.cancel t = some s' ∧ Inv s' := by
  have hv := h.at t
  have he : s.cancel t = if (s.task t).st = .sleeping then
      ({ s with
        task := fun i => if i = t then { s.task t with renDl := -1, renVer := (s.task t).renVer + 1, st := .ready }
          else if i = t then { s.task t with renDl := -1, renVer := (s.task t).renVer + 1 }
          else s.task i
        tr := .cancel t :: s.tr } : State).enqueue t (-1)
      else some { s with
        task := upd s.task t { s.task t with renDl := -1, renVer := (s.task t).renVer + 1 }
        tr := .cancel t :: s.tr } := rfl
  rw [he]
  by_cases hsl : ¬ (s.task t).st = .sleeping
  · rw [if_neg hsl]
    refine ⟨_, rfl, ?_⟩
    refine keep_inv h t _ rfl rfl rfl rfl rfl rfl rfl id (fun _ _ => Iff.rfl) (.inl rfl) (.cancel t _) h.g.starts ?_
    have := v_cancel_keep hv hsl
    simpa [nSched, nDone, lastReq, owed, pending, wakened] using this
  simp only [Decidable.not_not] at hsl
  rw [if_pos hsl]
  have hu2 : (fun i => if i = t then { s.task t with renDl := -1, renVer := (s.task t).renVer + 1, st := .ready }
      else if i = t then { s.task t with renDl := -1, renVer := (s.task t).renVer + 1 }
      else s.task i)
      = upd s.task t { s.task t with renDl := -1, renVer := (s.task t).renVer + 1, st := .ready } := by
    funext i; unfold upd; split <;> simp_all
  rw [hu2]
  unfold State.enqueue
  dsimp only
  have hre : (s.task t).st ≠ .ready := by rw [hsl]; simp
  have hnr : t ∉ s.ready := fun c => hre ((h.readyIff t).1 c)
  have hnx : ¬ s.pc = .exec t := by
    intro c
    have := (hv.x (by simpa using c)).1
    simp [hsl] at this
  by_cases hc : s.size + 1 = 1 ∧ ((-1 : Int) > 0 ∨ ((-1 : Int) < 0 ∧ ¬ (s.task t).comp = true)) ∧ s.pc = .asleep ∧
      (¬ (s.task t).paused = true ∨ ((-1 : Int) < 0 ∧ ¬ (s.task t).comp = true))
  · have hasl := hc.2.2.1
    rw [if_pos (by simpa [upd_same] using hc)]
    obtain ⟨s1, hs1⟩ : ∃ s1 : State, s1 = { s with
      task := upd s.task t { s.task t with renDl := -1, renVer := (s.task t).renVer + 1, st := .ready }
      size := s.size + 1
      tr := .cancel t :: s.tr } := ⟨_, rfl⟩
    have ht1 : s1.task t = { s.task t with renDl := -1, renVer := (s.task t).renVer + 1, st := .ready } := by
      rw [hs1]; exact upd_same _ _ _
    have hrn := renew_cancel s1 t (-1) ((s.task t).renVer + 1) (by rw [ht1]) (by omega)
      (by rw [ht1]; have := hv.ver; simp only at this ⊢; omega) (by
      rw [ht1, hs1]; exact h.sleepingPos)
    rw [upd_same]
    dsimp only
    rw [← hs1, hrn]
    refine ⟨_, rfl, ?_⟩
    have hre0 : s.ready = [] := by
      have := h.g.size; have h0 := hc.1
      exact List.length_eq_zero_iff.1 (by omega)
    rw [ht1]
    have hupd : upd s1.task t { s.task t with renDl := -1, renVer := (s.task t).renVer + 1, st := .completed, succ := false, paused := false, resumed := false, cancelled := true, effDl := -1, effVer := (s.task t).renVer + 1 }
      = upd s.task t { s.task t with renDl := -1, renVer := (s.task t).renVer + 1, st := .completed, succ := false, paused := false, resumed := false, cancelled := true, effDl := -1, effVer := (s.task t).renVer + 1 } := by
      rw [hs1]; exact upd_upd _ _ _ _
    refine out_inv h t { s.task t with renDl := -1, renVer := (s.task t).renVer + 1, st := .completed, succ := false, paused := false, resumed := false, cancelled := true, effDl := -1, effVer := (s.task t).renVer + 1 }
      hupd (by simp [updateTimer_eq, hs1, hre0]) ?_ (by simp [updateTimer_eq, hs1]) (by simp [updateTimer_eq, hs1]) ?_ (by simp [updateTimer_eq, hs1]) (by simp [updateTimer_eq, hs1])
      (by simp only [updateTimer_eq, hs1]; exact .trans (.cancel t _) (.done t _ _)) (by simp only [updateTimer_eq, hs1]; exact ⟨fun _ => by simp [lastReq], h.g.starts⟩) ?_
    · have := h.g.size
      simp only [updateTimer_eq, hs1]; omega
    · intro _
      refine ⟨by simp only [updateTimer_eq, hs1]; exact hre0, ?_⟩
      simp only [updateTimer_eq]
      rw [if_pos (by rw [hs1]; simp only; omega)]
    · have := v_cancel_inplace (by simpa [hasl] using hv) hsl
      simp only [updateTimer_eq, hs1, hasl]
      simpa [nSched, nDone, lastReq, owed, pending, wakened, Nat.add_comm, hre0] using this
  · rw [if_neg (by simpa [upd_same] using hc)]
    refine ⟨_, rfl, ?_⟩
    refine push_inv h t _ rfl rfl rfl rfl rfl (fun _ => rfl) rfl (fun _ _ => Iff.rfl) hre rfl (.cancel t _) h.g.starts ?_
    have := v_cancel_push hv hsl
    simpa [nSched, nDone, lastReq, owed, pending, wakened, Nat.add_comm] using this

theorem step_resume {s : State} (h : Inv s) (t : Nat) (ha : (s.task t).paused = true ∨ (s.pc = .exec t ∧ t ∉ s.paused)) :
    ∃ s', s.resume t = some s' ∧ Inv s' := by
  have hv := h.at t
  have hfr : TrFrame t s.tr (.resume t :: s.tr) := by
    intro i hi
    have hi' : ¬ t = i := fun c => hi c.symm
    simp [hi', nSched, nDone, lastReq, owed, pending, wakened]
  have he : s.resume t = if (s.task t).flagsOk = false then none
      else if (s.task t).resumed then some { s with tr := .resume t :: s.tr }
      else if (s.task t).st = .ready then some { s with
        task := upd s.task t { s.task t with resumed := true }
        tr := .resume t :: s.tr }
      else some { s with
        task := upd s.task t { s.task t with resumed := true, st := .ready }
        tr := .resume t :: s.tr
        size := s.size + 1, ready := s.ready ++ [t], timer := 0 } := rfl
  rw [he]
  rw [if_neg (by rw [show (s.task t).flagsOk = true from hv.fl]; simp)]
  by_cases hre : (s.task t).resumed = true
  · rw [if_pos hre]
    refine ⟨_, rfl, ?_⟩
    refine keep_inv h t (s.task t) ?_ rfl rfl rfl rfl rfl rfl id (fun _ _ => Iff.rfl) (.inl rfl) hfr h.g.starts ?_
    · funext i; unfold upd; split
      · rename_i hi; subst hi; rfl
      · rfl
    · have hw : wakened t s.tr = true := by rw [← hre]; exact hv.rs.symm
      rw [hw] at hv
      simpa [nSched, nDone, lastReq, owed, pending, wakened] using hv
  rw [if_neg hre]
  by_cases hst : (s.task t).st = .ready
  · rw [if_pos hst]
    refine ⟨_, rfl, ?_⟩
    refine keep_inv h t _ rfl rfl rfl rfl rfl rfl rfl id (fun _ _ => Iff.rfl) (.inl rfl) hfr h.g.starts ?_
    have := v_resume_ready hv hst
    simpa [nSched, nDone, lastReq, owed, pending, wakened] using this
  · rw [if_neg hst]
    refine ⟨_, rfl, ?_⟩
    refine push_inv h t _ rfl rfl rfl rfl rfl (fun _ => rfl) rfl (fun _ _ => Iff.rfl) hst rfl hfr h.g.starts ?_
    have := v_resume_push hv hst (ha.imp id (fun c => by simpa using c.1))
    simpa [nSched, nDone, lastReq, owed, pending, wakened] using this

theorem step_tick {s : State} (h : Inv s) (dt : Nat) : Inv { s with now := s.now + dt } := by
  refine ⟨⟨h.g.rnd, h.g.snd, h.g.pnd, h.g.sorted, h.g.size, ?_, h.g.tmr, h.g.starts⟩, h.t⟩
  have := h.g.now
  show 0 ≤ s.now + dt
  omega

/-- A move of the background thread that does not touch anything else, between positions where no task
runs and that are not the sleep. -/
theorem pc_inv {s : State} (h : Inv s) (pc : Pc) (hx : ∀ i, s.pc ≠ .exec i) (hx' : ∀ i, pc ≠ .exec i) (ha : pc ≠ .asleep) :
    Inv { s with pc := pc } := by
  refine ⟨⟨h.g.rnd, h.g.snd, h.g.pnd, h.g.sorted, h.g.size, h.g.now, fun c => absurd c ha, h.g.starts⟩, fun i => ?_⟩
  have := h.at i
  simp only [State.view]
  simpa [hx, hx'] using this

theorem step_update {s : State} (h : Inv s) (hpc : s.pc = .update) : ∃ s', s.loop = some s' ∧ Inv s' := by
  unfold State.loop
  rw [hpc]
  refine ⟨_, rfl, ?_⟩
  simp only [updateTimer_eq]
  by_cases h0 : s.size = 0
  · have hre0 : s.ready = [] := List.length_eq_zero_iff.1 (by have := h.g.size; omega)
    refine ⟨⟨h.g.rnd, h.g.snd, h.g.pnd, h.g.sorted, h.g.size, h.g.now, fun _ => ⟨fun c => absurd hre0 c, ?_⟩, h.g.starts⟩, fun i => ?_⟩
    · dsimp only
      rw [if_pos h0]
      exact timer_dlFront (f := fun i => (s.task i).effDl) h.g.sorted (fun i hi => h.sleepingPos hi)
    · have := h.at i
      simp only [State.view, hpc] at this ⊢
      rw [if_pos h0]
      split <;> simpa using this
  · rw [if_neg h0, if_pos rfl]
    refine ⟨⟨h.g.rnd, h.g.snd, h.g.pnd, h.g.sorted, h.g.size, h.g.now, by simp, h.g.starts⟩, fun i => ?_⟩
    have := h.at i
    simp only [State.view, hpc] at this ⊢
    simpa using this

theorem start_eq {s : State} {t : Nat} (h1 : 0 ≤ (s.task t).effDl) (h2 : (s.task t).exec = true) :
    s.start t = some { s with
      task := upd s.task t { s.task t with succ := false, cancelled := false, resumed := false }
      tr := .start t s.now (s.task t).paused :: s.tr
      pc := .exec t } := by
  unfold State.start
  dsimp only
  rw [if_neg (by simp [h2]; omega), if_neg (by unfold Task.flagsOk; simp)]
  rfl

theorem TrFrame.start (t : Nat) (n : Int) (b : Bool) (tr : List Ev) : TrFrame t tr (.start t n b :: tr) := by
  intro i hi
  have hi' : ¬ t = i := fun c => hi c.symm
  simp [nSched, nDone, lastReq, owed, pending, wakened, hi']

theorem step_rdy {s : State} (h : Inv s) (first : Bool) (hpc : s.pc = .rdy first) : ∃ s', s.loop = some s' ∧ Inv s' := by
  unfold State.loop
  rw [hpc]
  cases hr : s.ready with
  | nil =>
    refine ⟨_, rfl, ?_⟩
    have := pc_inv h (if first then .slp false else .update) (by simp [hpc]) (by intro i; split <;> simp) (by split <;> simp)
    simpa [hr] using this
  | cons t rest =>
    dsimp only
    have hv := h.at t
    have hst : (s.task t).st = .ready := (h.readyIff t).1 (by rw [hr]; simp)
    have hvt : TInv ⟨s.task t, true, decide (t ∈ s.sleeping), decide (t ∈ s.paused), false,
      nSched t s.tr, nDone t s.tr, lastReq t s.tr, owed t s.tr, pending t s.tr, wakened t s.tr⟩ := by
      simpa [hpc, hr] using hv
    have her : rest = s.ready.erase t := by rw [hr]; simp
    have hlen : s.size = rest.length + 1 := by have := h.g.size; rw [hr] at this; simpa using this
    rw [if_neg (by rw [show (s.task t).flagsOk = true from hv.fl]; simp)]
    obtain ⟨s1, hs1⟩ : ∃ s1 : State, s1 = { s with ready := rest, pc := .rdy first } := ⟨_, rfl⟩
    rw [← hs1]
    have ht1 : s1.task = s.task := by rw [hs1]
    have hsl1 : s1.sleeping = s.sleeping := by rw [hs1]
    have hpa1 : s1.paused = s.paused := by rw [hs1]
    have hpos : t ∈ s1.sleeping → 0 < (s1.task t).effDl := by rw [ht1, hsl1]; exact h.sleepingPos
    have hex := hvt.ex (by simp only [hst]; simp)
    by_cases hneg : (s.task t).renDl < 0
    · rw [renew_cancel s1 t _ _ (by rw [ht1]; exact hst) hneg (by
        rw [ht1]; have := hvt.rdy hst; simp only at this; omega) hpos]
      refine ⟨_, rfl, ?_⟩
      refine out_inv h t _ (by simp only [ht1]; rfl) (by simp only [hs1]; exact her) ?_ (by simp only [hs1]) (by simp only [hs1])
        (by simp [hs1]) (by simp [hs1]) (by simp [hs1, hpc]) (by simp only [hs1]; exact .done t _ _) (by simp only [hs1]; exact ⟨fun _ => by have h1 := hex.2; have h2 := hvt.can; simp only at h1 h2; rw [h1, show (s.task t).renDl = -1 by omega], h.g.starts⟩) ?_
      · simp only [hs1]; omega
      · have := v_pop_cancel hvt hneg
        simp only [hs1, hpc]
        simpa [nSched, nDone, lastReq, owed, pending, wakened, Nat.add_comm] using this
    by_cases hpa : (s.task t).paused = true
    · rw [renew_paused s1 t _ _ (by rw [ht1]; exact hst) (by omega) (by rw [ht1]; exact hpa)]
      have hnp : t ∉ s.sleeping := by
        intro c
        have := (hvt.s (by simpa using c)).2.2.2
        simp only at this
        rw [hpa] at this; simp at this
      rw [ht1]
      have frame : ∀ (k : Task) (pc : Pc) (fr : Bool) (tr : List Ev), (∀ i, i ≠ t → pc ≠ .exec i) → pc ≠ .asleep → TrFrame t s.tr tr →
          Obeys tr → TInv ⟨k, false, decide (t ∈ s.sleeping), decide (t ∈ s.paused), decide (pc = .exec t), nSched t tr, nDone t tr, lastReq t tr, owed t tr, pending t tr, wakened t tr⟩ →
          Inv { s1 with task := upd s.task t k, size := s1.size - 1, pc := pc, fetchReady := fr, tr := tr } := by
        intro k pc fr tr hpc1 hpc2 htf hso htv
        refine inv_mk t h ?_ ?_ ?_
        · refine ⟨by simp only [hs1, her]; exact h.g.rnd.erase t, by simp only [hs1]; exact h.g.snd, by simp only [hs1]; exact h.g.pnd,
            ?_, by simp only [hs1]; omega, by simp only [hs1]; exact h.g.now, fun c => absurd c hpc2, hso⟩
          simp only [hs1]
          exact sorted_upd h t k (.inr hnp)
        · simp only [State.view, hs1, upd_same, her]
          simpa [h.g.rnd.mem_erase_iff] using htv
        · intro i hi
          have hf := htf i hi
          have := hpc1 i hi
          simp [State.view, hs1, upd_ne _ _ hi, hf, her, hi, h.g.rnd.mem_erase_iff, this, hpc]
      by_cases hres : (s.task t).resumed = true
      · simp only [hres, if_true, Option.bind_some]
        rw [start_eq (by simp only [upd_same]; exact (hvt.pau hpa).2.1) (by simp only [upd_same]; exact hex.1)]
        refine ⟨_, rfl, ?_⟩
        simp only [upd_same, upd_upd]
        have := frame { s.task t with st := .processing, succ := false, cancelled := false, resumed := false } (.exec t)
          (if first then !s1.fetchReady else s1.fetchReady) (.start t s1.now (s.task t).paused :: s1.tr)
          (by intro i hi; simp; exact fun c => hi c.symm) (by simp)
          (by simp only [hs1]; exact .start _ _ _ _) ⟨.inl hpa, by simp only [hs1]; exact h.g.starts⟩ (by
            have := v_pop_resumed hvt (by omega) hpa
            simp only [hs1]
            simpa [nSched, nDone, lastReq, owed, pending, wakened, hpa] using this)
        exact this
      · have hres' : (s.task t).resumed = false := by simpa using hres
        simp only [hres', Bool.false_eq_true, if_false, Option.bind_some]
        refine ⟨_, rfl, ?_⟩
        have := frame { s.task t with st := .sleeping, resumed := false } s1.pc s1.fetchReady s1.tr (by simp [hs1, hpc]) (by simp [hs1, hpc])
          (by simp only [hs1]; exact .refl _ _) (by simp only [hs1]; exact h.g.starts) (by
            have := v_pop_paused hvt (by omega) hpa hres'
            simp only [hs1, hpc]
            simpa [hres'] using this)
        exact this
    have hpa' : (s.task t).paused = false := by simpa using hpa
    by_cases h0 : (s.task t).renDl = 0
    · rw [h0, renew_now s1 t _ (by rw [ht1]; exact hst) (by rw [ht1]; exact hpa') hpos]
      simp only [Option.bind_some, if_true]
      rw [start_eq (by simp only [upd_same]; omega) (by simp only [upd_same, ht1]; exact hex.1)]
      refine ⟨_, rfl, ?_⟩
      simp only [upd_same, upd_upd, ht1]
      refine out_inv h t _ rfl (by simp only [hs1]; exact her) ?_ (by simp only [hs1]) (by simp only [hs1])
        (by simp) (by simp [hs1]) ?_ (by simp only [hs1]; exact .start _ _ _ _) ?_ ?_
      · simp only [hs1]; omega
      · intro i hi
        simp [hpc]
        exact fun c => hi c.symm
      · simp only [hs1]
        refine ⟨.inr ⟨0, ?_, Int.le_refl _, h.g.now⟩, h.g.starts⟩
        have := hex.2; simp only at this; rw [this, h0]
      · have := v_pop_now hvt h0 hpa'
        simp only [hs1]
        simpa [nSched, nDone, lastReq, owed, pending, wakened, hpa'] using this
    · have hpd : 0 < (s.task t).renDl := by omega
      rw [renew_later s1 t _ _ (by rw [ht1]; exact hst) hpd (by rw [ht1]; exact hpa') hpos (by rw [hsl1]; exact h.g.snd) (by rw [hpa1]; exact h.g.pnd)]
      simp only [Option.bind_some, Bool.false_eq_true, if_false]
      refine ⟨_, rfl, ?_⟩
      refine sleep_inv h t { s.task t with st := .sleeping, effDl := (s.task t).renDl, effVer := (s.task t).renVer } (by simp only [ht1]) (by simp only [hs1]; exact her) ?_ (by simp only [hs1]) (by simp only [hs1])
        (by simp [hs1]) (by simp [hs1]) (by simp [hs1, hpc]) hpd (by simp only [hs1]; exact .refl t _) (by simp only [hs1]; exact h.g.starts) ?_
      · simp only [hs1]; omega
      · have := v_pop_later hvt hpd hpa'
        simp only [hs1, hpc]
        simpa using this

theorem step_slp {s : State} (h : Inv s) (first : Bool) (hpc : s.pc = .slp first) : ∃ s', s.loop = some s' ∧ Inv s' := by
  unfold State.loop
  rw [hpc]
  have skip : ∃ s', some { s with pc := if first = true then Pc.rdy false else Pc.update } = some s' ∧ Inv s' :=
    ⟨_, rfl, pc_inv h _ (by simp [hpc]) (by intro i; split <;> simp) (by split <;> simp)⟩
  dsimp only
  cases hr : s.sleeping with
  | nil => dsimp only; rw [← hr]; exact skip
  | cons t rest =>
    dsimp only
    rw [← hr]
    have hv := h.at t
    have hm : t ∈ s.sleeping := by rw [hr]; simp
    have hvt : TInv ⟨s.task t, decide (t ∈ s.ready), true, decide (t ∈ s.paused), false,
      nSched t s.tr, nDone t s.tr, lastReq t s.tr, owed t s.tr, pending t s.tr, wakened t s.tr⟩ := by
      simpa [hpc, hm] using hv
    by_cases hle : (s.task t).effDl > s.now
    · rw [if_pos hle]; exact skip
    rw [if_neg hle, dropSleeping_eq _ _ (fun _ => h.sleepingPos hm)]
    simp only [Option.bind_some]
    have frame : ∀ (k : Task) (pc : Pc) (fr : Bool) (tr : List Ev), (∀ i, i ≠ t → pc ≠ .exec i) → pc ≠ .asleep → TrFrame t s.tr tr →
        Obeys tr → TInv ⟨k, decide (t ∈ s.ready), false, decide (t ∈ s.paused), decide (pc = .exec t), nSched t tr, nDone t tr, lastReq t tr, owed t tr, pending t tr, wakened t tr⟩ →
        Inv { s with task := upd s.task t k, sleeping := s.sleeping.erase t, pc := pc, fetchReady := fr, tr := tr } := by
      intro k pc fr tr hpc1 hpc2 htf hso htv
      refine inv_mk t h ?_ ?_ ?_
      · exact ⟨h.g.rnd, h.g.snd.erase t, h.g.pnd, sorted_erase h t k, h.g.size, h.g.now, fun c => absurd c hpc2, hso⟩
      · simp only [State.view, upd_same]
        simpa [h.g.snd.mem_erase_iff] using htv
      · intro i hi
        have hf := htf i hi
        have := hpc1 i hi
        simp [State.view, upd_ne _ _ hi, hf, hi, h.g.snd.mem_erase_iff, this, hpc]
    by_cases hst : (s.task t).st ≠ .sleeping
    · rw [if_pos hst]
      refine ⟨_, rfl, ?_⟩
      have := frame (s.task t) (if first = true then Pc.rdy false else Pc.update) s.fetchReady s.tr (by intro i _; split <;> simp)
        (by split <;> simp) (.refl t _) h.g.starts (by
          have := v_slp_drop hvt hst
          have h2 : (if first = true then Pc.rdy false else Pc.update) ≠ .exec t := by split <;> simp
          simpa [h2] using this)
      have hself : upd s.task t (s.task t) = s.task := by
        funext i; unfold upd; split
        · rename_i hi; subst hi; rfl
        · rfl
      rw [hself] at this
      exact this
    · rw [if_neg hst]
      simp only [ne_eq, Decidable.not_not] at hst
      have hex := hvt.ex (by simp only [hst]; simp)
      have hsl : (s.task t).paused = false := (hvt.s rfl).2.2.2
      have hee := hvt.slp hst hsl
      simp only [State.set]
      rw [start_eq (by simp only [if_true]; exact Int.le_of_lt (h.sleepingPos hm)) (by simp only [if_true]; exact hex.1)]
      refine ⟨_, rfl, ?_⟩
      simp only [if_true]
      have := frame { s.task t with st := .processing, succ := false, cancelled := false, resumed := false } (.exec t)
          (if first = true then !s.fetchReady else s.fetchReady) (.start t s.now (s.task t).paused :: s.tr)
          (by intro i hi; simp; exact fun c => hi c.symm) (by simp)
          (.start _ _ _ _) ⟨.inr ⟨(s.task t).renDl, hex.2, ?_, ?_⟩, h.g.starts⟩ (by
            have := v_slp_start hvt hst
            simpa [nSched, nDone, lastReq, owed, pending, wakened, hsl] using this)
      · have hu : (upd (fun i => if i = t then { s.task t with st := .processing } else s.task i) t
          { s.task t with st := .processing, succ := false, cancelled := false, resumed := false }) =
          upd s.task t { s.task t with st := .processing, succ := false, cancelled := false, resumed := false } := upd_upd _ _ _ _
        rw [hu]; exact this
      · have := h.sleepingPos hm
        have h2 := hee.2.1
        simp only at h2; omega
      · have h2 := hee.2.1
        simp only at h2; omega

theorem step_loop {s : State} (h : Inv s) : ∃ s', s.loop = some s' ∧ Inv s' := by
  cases hpc : s.pc with
  | asleep =>
    unfold State.loop; rw [hpc]
    refine ⟨_, rfl, ?_⟩
    split
    · exact pc_inv h _ (by simp [hpc]) (by simp) (by simp)
    · exact h
  | top =>
    unfold State.loop; rw [hpc]
    exact ⟨_, rfl, pc_inv h _ (by simp [hpc]) (by intro i; split <;> simp) (by split <;> simp)⟩
  | rdy first => exact step_rdy h first hpc
  | slp first => exact step_slp h first hpc
  | exec t => unfold State.loop; rw [hpc]; exact ⟨_, rfl, h⟩
  | update => exact step_update h hpc

theorem step_finish {s : State} (h : Inv s) (r : Res) (ha : Allowed s (.finish r)) : ∃ s', s.finish r = some s' ∧ Inv s' := by
  by_cases hx : ∃ t, s.pc = .exec t
  swap
  · refine ⟨s, ?_, h⟩
    unfold State.finish
    cases hpc : s.pc <;> simp_all
  obtain ⟨t, hpc⟩ := hx
  have hv := h.at t
  have hvt : TInv ⟨s.task t, decide (t ∈ s.ready), decide (t ∈ s.sleeping), decide (t ∈ s.paused), true,
      nSched t s.tr, nDone t s.tr, lastReq t s.tr, owed t s.tr, pending t s.tr, wakened t s.tr⟩ := by
    simpa [hpc] using hv
  obtain ⟨hst, hdl, hns, hsu, hca⟩ := hvt.x rfl
  simp only [decide_eq_false_iff_not] at hns
  have hpne : ∀ i, i ≠ t → (Pc.top = .exec i ↔ s.pc = .exec i) := by
    intro i hi
    simp [hpc]; exact fun c => hi c.symm
  have done : ∀ b : Bool, (s.task t).resumed = false → ∃ s',
      (((s.set t { s.task t with succ := b, paused := false, resumed := false, cancelled := false }).complete t .processing).map fun s1 =>
        { (if (s.task t).renVer ≠ (s.task t).effVer ∧ (s.task t).renDl ≥ 0 then s1.reborn t .completed else s1) with pc := .top }) = some s' ∧ Inv s' := by
    intro b hres
    unfold State.complete
    simp only [State.set, State.ev, if_true, Bool.false_eq_true, if_false, Option.map_some]
    refine ⟨_, rfl, ?_⟩
    rcases hst with hst | hst
    · have hst' : (s.task t).st = .processing := hst
      simp only [hst', if_true]
      have hu : (fun i => if i = t then { s.task t with succ := b, paused := false, resumed := false, cancelled := false, st := .completed }
          else if i = t then { s.task t with succ := b, paused := false, resumed := false, cancelled := false, st := .processing } else s.task i)
          = upd s.task t { s.task t with succ := b, paused := false, resumed := false, cancelled := false, st := .completed } := by
        funext i; unfold upd; split <;> simp_all
      rw [hu]
      by_cases hr : (s.task t).renVer ≠ (s.task t).effVer ∧ (s.task t).renDl ≥ 0
      · rw [if_pos hr]
        unfold State.reborn
        simp only [upd_same, if_true, State.set]
        refine push_inv h t { s.task t with succ := b, paused := false, resumed := false, cancelled := false, st := .ready } (upd_upd _ _ _ _) rfl rfl rfl rfl (by simp) rfl hpne
          (by rw [hst']; simp) rfl (.done t _ _) ⟨by simp, h.g.starts⟩ ?_
        have := v_done_push hvt hst b hr
        simpa [nSched, nDone, lastReq, owed, pending, wakened, Nat.add_comm] using this
      · rw [if_neg hr]
        refine keep_inv h t _ rfl rfl rfl rfl rfl rfl rfl (by simp) hpne (.inl rfl) (.done t _ _) ⟨by simp, h.g.starts⟩ ?_
        have := v_done hvt hst b hr
        simpa [nSched, nDone, lastReq, owed, pending, wakened, Nat.add_comm] using this
    · have hst' : (s.task t).st = .ready := hst
      have e1 : ¬ St.ready = St.processing := by decide
      have e2 : ¬ St.ready = St.completing := by decide
      have e3 : ¬ St.ready = St.completed := by decide
      simp only [hst', e1, e2, if_false]
      have hu : (fun i => if i = t then { s.task t with succ := b, paused := false, resumed := false, cancelled := false, st := .ready }
          else if i = t then { s.task t with succ := b, paused := false, resumed := false, cancelled := false, st := .ready } else s.task i)
          = upd s.task t { s.task t with succ := b, paused := false, resumed := false, cancelled := false } := by
        funext i; unfold upd; split <;> simp_all
      have key : Inv { s with
          task := upd s.task t { s.task t with succ := b, paused := false, resumed := false, cancelled := false }
          pc := .top
          tr := .done t false :: s.tr } := by
        refine keep_inv h t _ rfl rfl rfl rfl rfl rfl rfl (by simp) hpne (.inl rfl) (.done t _ _) ⟨by simp, h.g.starts⟩ ?_
        have := v_done_ready hvt (by simp [hst']) hres b
        simpa [nSched, nDone, lastReq, owed, pending, wakened, Nat.add_comm] using this
      have hrb : ({ s with
          task := upd s.task t { s.task t with succ := b, paused := false, resumed := false, cancelled := false }
          tr := .done t false :: s.tr } : State).reborn t .completed = { s with
          task := upd s.task t { s.task t with succ := b, paused := false, resumed := false, cancelled := false }
          tr := .done t false :: s.tr } := by
        unfold State.reborn
        simp [upd_same, hst']
      have hu' : (fun i => if i = t then { s.task t with succ := b, paused := false, resumed := false, cancelled := false, st := .ready }
          else if i = t then { s.task t with succ := b, paused := false, resumed := false, cancelled := false } else s.task i)
          = upd s.task t { s.task t with succ := b, paused := false, resumed := false, cancelled := false } := by
        funext i; unfold upd; split <;> simp_all
      first
        | rw [hu]
        | rw [hu']
      rw [hrb]
      simpa using key
  unfold State.finish
  rw [hpc]
  cases r with
  | success => exact done _ (ha t hpc)
  | failure => exact done _ (ha t hpc)
  | pause =>
    have hnp : t ∉ s.paused := ha t hpc
    have hvt' := hvt
    rw [show decide (t ∈ s.paused) = false by simpa using hnp] at hvt'
    dsimp only
    rw [if_neg (by simp [Task.flagsOk] at *; simp_all), if_neg (by tauto)]
    refine ⟨_, rfl, ?_⟩
    have hr : ∀ s' : State, (s'.task t).st ≠ .processing → (if (s.task t).renDl < 0 then s'.reborn t .processing else s') = s' := by
      intro s' hs'
      split
      · unfold State.reborn; simp [hs']
      · rfl
    obtain ⟨k, hk⟩ : ∃ k : Task, k = { s.task t with paused := true, st := if (s.task t).st = .processing then .sleeping else (s.task t).st } := ⟨_, rfl⟩
    have hkk : (if (s.task t).st = .processing then ({ s.task t with paused := true, st := .sleeping } : Task) else { s.task t with paused := true }) = k := by
      rw [hk]; split <;> rfl
    rw [hkk]
    have hkr : k.renDl = (s.task t).renDl := by rw [hk]
    have hks : k.st ≠ .processing := by rw [hk]; simp only; split <;> simp_all
    rw [hkr, hr _ (by simpa [State.set] using hks)]
    show Inv { s with task := upd s.task t k, paused := s.paused ++ [t], pc := .top }
    refine inv_mk t h ?_ ?_ ?_
    · refine ⟨h.g.rnd, h.g.snd, ?_, sorted_upd h t k (.inr hns), h.g.size, h.g.now, by simp, h.g.starts⟩
      refine List.nodup_append.2 ⟨h.g.pnd, by simp, ?_⟩
      intro a ha b hb
      simp only [List.mem_singleton] at hb
      subst hb
      rintro rfl
      exact hnp ha
    · have := v_pause hvt'
      rw [← hk] at this
      simpa [State.view, upd_same] using this
    · intro i hi
      have := hpne i hi
      simp [State.view, upd_ne _ _ hi, hi, ← this]
  | again =>
    dsimp only
    rw [if_neg (by simp [Task.flagsOk] at *; simp_all)]
    refine ⟨_, rfl, ?_⟩
    unfold State.reborn
    simp only [State.set, if_true]
    by_cases hp : (s.task t).st = .processing
    · rw [if_pos hp]
      refine push_inv h t { s.task t with paused := false, st := .ready } (upd_upd _ _ _ _) rfl rfl rfl rfl (by simp) rfl hpne
        (by rw [hp]; simp) rfl (.refl t _) h.g.starts ?_
      have := v_again_push hvt hp
      simpa using this
    · rw [if_neg hp]
      refine keep_inv h t _ rfl rfl rfl rfl rfl rfl rfl (by simp) hpne (.inl rfl) (.refl t _) h.g.starts ?_
      have := v_again_keep hvt hp
      simpa using this

theorem inv_step {s : State} (h : Inv s) {o : Op} (ha : Allowed s o) : ∃ s', s.step o = some s' ∧ Inv s' := by
  cases o with
  | schedule t dl => exact step_schedule h t dl ha
  | cancel t => exact step_cancel h t
  | resume t => exact step_resume h t ha
  | tick dt => exact ⟨_, rfl, step_tick h dt⟩
  | loop => exact step_loop h
  | finish r => exact step_finish h r ha

theorem inv_init (now : Int) (comp : Nat → Bool) (h : 0 ≤ now) : Inv (State.init now comp) := by
  refine ⟨⟨by simp [State.init], by simp [State.init], by simp [State.init], by simp [State.init], by simp [State.init], h, by simp [State.init], trivial⟩, fun t => ?_⟩
  constructor <;> simp [State.view, State.init, Task.init, Task.flagsOk, nSched, nDone, lastReq, owed, pending, wakened]

theorem reach_inv {s : State} (h : Reach s) : Inv s := by
  induction h with
  | init now comp h => exact inv_init now comp h
  | step _ ha hs ih =>
    obtain ⟨s'', h1, h2⟩ := inv_step ih ha
    rw [h1] at hs
    exact Option.some.inj hs ▸ h2

end Verif.TaskQueue
