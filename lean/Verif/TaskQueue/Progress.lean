import Verif.TaskQueue.Steps

/-! The background thread, left alone, soon runs a task function or goes to sleep. -/

namespace Verif.TaskQueue

/-- A task function runs, or the thread sleeps and the timer does not fire. -/
def Settled (s : State) : Prop := (∃ t, s.pc = .exec t) ∨ (s.pc = .asleep ∧ ¬ (0 ≤ s.timer ∧ s.timer ≤ s.now))

/-- Some number of steps of the background thread. -/
def Settles (s : State) : Prop :=
  ∃ n s', s.run (List.replicate n .loop) = some s' ∧ s'.now = s.now ∧ Inv s' ∧ Settled s'

theorem settles_now {s : State} (h : Inv s) (hs : Settled s) : Settles s := ⟨0, s, rfl, rfl, h, hs⟩

theorem settles_step {s s1 : State} (h1 : s.loop = some s1) (hn : s1.now = s.now) (h2 : Settles s1) : Settles s := by
  obtain ⟨n, s', hr, hn', hi, hs⟩ := h2
  refine ⟨n + 1, s', ?_, by rw [hn', hn], hi, hs⟩
  rw [List.replicate_succ]
  show (s.loop).bind (fun s => s.run (List.replicate n .loop)) = some s'
  rw [h1]; exact hr

theorem drop_frame {s s' : State} {t : Nat} (h : s.dropSleeping t = some s') :
    s'.pc = s.pc ∧ s'.ready = s.ready ∧ s'.now = s.now := by
  unfold State.dropSleeping at h
  split at h
  · split at h
    · exact absurd h (by simp)
    · rw [← Option.some.inj h]; exact ⟨rfl, rfl, rfl⟩
  · rw [← Option.some.inj h]; exact ⟨rfl, rfl, rfl⟩

theorem insert_frame {s s' : State} {t : Nat} (h : s.insertSleeping t = some s') :
    s'.pc = s.pc ∧ s'.ready = s.ready ∧ s'.now = s.now := by
  unfold State.insertSleeping at h
  split at h
  · exact absurd h (by simp)
  · split at h
    · exact absurd h (by simp)
    · rw [← Option.some.inj h]; exact ⟨rfl, rfl, rfl⟩

theorem complete_frame {s s' : State} {t : Nat} {src : St} (h : s.complete t src = some s') :
    s'.pc = s.pc ∧ s'.ready = s.ready ∧ s'.now = s.now := by
  unfold State.complete at h
  dsimp only at h
  split at h
  · exact absurd h (by simp)
  · rw [← Option.some.inj h]; exact ⟨rfl, rfl, rfl⟩

theorem cancelTask_frame {s s' : State} {t ver : Nat} (h : s.cancelTask t ver = some s') :
    s'.pc = s.pc ∧ s'.ready = s.ready ∧ s'.now = s.now := by
  unfold State.cancelTask at h
  dsimp only at h
  split at h
  · exact absurd h (by simp)
  · obtain ⟨s1, h1, h2⟩ := Option.bind_eq_some_iff.1 h
    have f1 := drop_frame h1
    have f2 := complete_frame h2
    rw [dropPaused_eq] at f1
    exact ⟨f2.1.trans f1.1, f2.2.1.trans f1.2.1, f2.2.2.trans f1.2.2⟩

theorem reschedule_frame {s : State} {t : Nat} {dl : Int} {ver : Nat} {r : State × Bool} (h : s.reschedule t dl ver = some r) :
    r.1.pc = s.pc ∧ r.1.ready = s.ready ∧ r.1.now = s.now := by
  unfold State.reschedule at h
  obtain ⟨s1, h1, h2⟩ := Option.bind_eq_some_iff.1 h
  have f1 := drop_frame h1
  rw [dropPaused_eq] at f1
  dsimp only at h2
  split at h2
  · rw [← Option.some.inj h2]; exact f1
  · obtain ⟨s2, h3, h4⟩ := Option.map_eq_some_iff.1 h2
    have f2 := insert_frame h3
    rw [← h4]
    exact ⟨f2.1.trans f1.1, f2.2.1.trans f1.2.1, f2.2.2.trans f1.2.2⟩

theorem renew_frame {s : State} {t : Nat} {dl : Int} {ver : Nat} {r : State × Bool} (h : s.renew t dl ver = some r) :
    r.1.pc = s.pc ∧ r.1.ready = s.ready ∧ r.1.now = s.now := by
  unfold State.renew at h
  dsimp only at h
  split at h
  · exact absurd h (by simp)
  · split at h
    · split at h
      · rw [← Option.some.inj h]; exact ⟨rfl, rfl, rfl⟩
      · have f := reschedule_frame h; exact f
    · obtain ⟨s2, h3, h4⟩ := Option.map_eq_some_iff.1 h
      rw [← h4]
      have f := cancelTask_frame h3; exact f

theorem start_frame {s s' : State} {t : Nat} (h : s.start t = some s') : s'.pc = .exec t ∧ s'.now = s.now := by
  unfold State.start at h
  dsimp only at h
  split at h
  · cases h
  split at h
  · cases h
  cases h; exact ⟨rfl, rfl⟩

theorem rdy_frame {s s' : State} {first : Bool} {t : Nat} {rest : List Nat} (hpc : s.pc = .rdy first) (hr : s.ready = t :: rest)
    (h : s.loop = some s') : s'.now = s.now ∧ ((∃ t, s'.pc = .exec t) ∨ (s'.pc = .rdy first ∧ s'.ready = rest)) := by
  unfold State.loop at h
  rw [hpc] at h
  dsimp only at h
  rw [hr] at h
  dsimp only at h
  split at h
  · cases h
  obtain ⟨r, hrn, h⟩ := Option.bind_eq_some_iff.1 h
  have hf := renew_frame hrn
  dsimp only at hf h
  split at h
  · have := start_frame h
    exact ⟨this.2.trans hf.2.2, .inl ⟨t, this.1⟩⟩
  · cases h
    exact ⟨hf.2.2, .inr ⟨hf.1, hf.2.1⟩⟩

theorem slp_frame {s s' : State} {first : Bool} (hpc : s.pc = .slp first) (h : s.loop = some s') :
    s'.now = s.now ∧ ((∃ t, s'.pc = .exec t) ∨ (s'.pc = (if first then .rdy false else .update) ∧ s'.ready = s.ready)) := by
  unfold State.loop at h
  rw [hpc] at h
  dsimp only at h
  cases hs : s.sleeping with
  | nil => rw [hs] at h; cases h; exact ⟨rfl, .inr ⟨rfl, rfl⟩⟩
  | cons t rest =>
    rw [hs] at h
    dsimp only at h
    split at h
    · cases h; exact ⟨rfl, .inr ⟨rfl, rfl⟩⟩
    obtain ⟨s1, h1, h⟩ := Option.bind_eq_some_iff.1 h
    have hf : s1.ready = s.ready ∧ s1.now = s.now := by
      unfold State.dropSleeping at h1
      split at h1
      · split at h1
        · cases h1
        · cases h1; exact ⟨rfl, rfl⟩
      · cases h1; exact ⟨rfl, rfl⟩
    split at h
    · cases h; exact ⟨hf.2, .inr ⟨rfl, hf.1⟩⟩
    · have := start_frame h
      exact ⟨this.2.trans hf.2, .inl ⟨t, this.1⟩⟩

/-- Nothing is ready and the first sleeping task is due: it is run. -/
theorem slp_due {s : State} (h : Inv s) {first : Bool} (hpc : s.pc = .slp first) (hre : s.ready = []) {t : Nat} {rest : List Nat}
    (hs : s.sleeping = t :: rest) (hd : (s.task t).effDl ≤ s.now) {s' : State} (hl : s.loop = some s') : s'.pc = .exec t := by
  have hm : t ∈ s.sleeping := by rw [hs]; simp
  have hst : (s.task t).st = .sleeping := by
    rcases ((h.at t).s (by simpa using hm)).1 with c | c
    · exact c
    · have := (h.readyIff t).2 c; rw [hre] at this; cases this
  unfold State.loop at hl
  rw [hpc] at hl
  dsimp only at hl
  rw [hs] at hl
  dsimp only at hl
  rw [if_neg (by omega)] at hl
  obtain ⟨s1, h1, h2⟩ := Option.bind_eq_some_iff.1 hl
  rw [if_neg (by simp [hst])] at h2
  exact (start_frame h2).1

theorem loop_inv {s s1 : State} (h : Inv s) (hl : s.loop = some s1) : Inv s1 := by
  obtain ⟨s2, h1, h2⟩ := step_loop h
  rw [hl] at h1
  exact Option.some.inj h1 ▸ h2

/-- At `slp` with nothing ready and something due. -/
theorem settles_slp_due {s : State} (h : Inv s) {first : Bool} (hpc : s.pc = .slp first) (hre : s.ready = []) {t : Nat} {rest : List Nat}
    (hs : s.sleeping = t :: rest) (hd : (s.task t).effDl ≤ s.now) : Settles s := by
  obtain ⟨s1, hl, hi⟩ := step_loop h
  exact settles_step hl (slp_frame hpc hl).1 (settles_now hi (.inl ⟨t, slp_due h hpc hre hs hd hl⟩))

theorem settles_top_due {s : State} (h : Inv s) (hpc : s.pc = .top) (hre : s.ready = []) {t : Nat} {rest : List Nat}
    (hs : s.sleeping = t :: rest) (hd : (s.task t).effDl ≤ s.now) : Settles s := by
  have hl : s.loop = some { s with pc := if s.fetchReady then .rdy true else .slp true } := by
    unfold State.loop; rw [hpc]
  have hi := loop_inv h hl
  refine settles_step hl rfl ?_
  by_cases hf : s.fetchReady = true
  swap
  · rw [if_neg hf] at hi ⊢
    exact settles_slp_due (first := true) hi rfl hre hs hd
  · rw [if_pos hf] at hi ⊢
    have hl2 : ({ s with pc := .rdy true } : State).loop = some { s with pc := .slp false } := by
      unfold State.loop; simp only [hre]; rfl
    refine settles_step hl2 rfl ?_
    exact settles_slp_due (first := false) (loop_inv hi hl2) rfl hre hs hd

theorem settles_update {s : State} (h : Inv s) (hpc : s.pc = .update) (hre : s.ready = []) : Settles s := by
  have h0 : s.size = 0 := by have := h.g.size; rw [hre] at this; simpa using this
  obtain ⟨d, hd⟩ : ∃ d, d = dlFront (fun i => (s.task i).effDl) s.sleeping := ⟨_, rfl⟩
  have hd0 : d ≠ 0 := by
    rw [hd]
    cases hs : s.sleeping with
    | nil => simp [dlFront]
    | cons t rest =>
      have := h.sleepingPos (t := t) (by rw [hs]; simp)
      simp only [dlFront]; omega
  have hl : s.loop = some { s with timer := d, pc := .asleep } := by
    unfold State.loop; rw [hpc]
    simp only [updateTimer_eq, h0, if_true, ← hd, hd0, if_false]
  have hi := loop_inv h hl
  refine settles_step hl rfl ?_
  by_cases hq : 0 ≤ d ∧ d ≤ s.now
  · have hl2 : ({ s with timer := d, pc := .asleep } : State).loop = some { s with timer := d, pc := .top } := by
      unfold State.loop; simp only; rw [if_pos hq]
    refine settles_step hl2 rfl ?_
    have hi2 := loop_inv hi hl2
    rcases hs : s.sleeping with _ | ⟨t, rest⟩
    · rw [hs] at hd; simp [dlFront] at hd; omega
    · rw [hs] at hd
      have hq2 := hq.2; rw [hd] at hq2
      have := settles_top_due (t := t) (rest := rest) hi2 rfl hre hs hq2
      simpa only [hs] using this
  · exact settles_now hi (.inr ⟨rfl, hq⟩)

theorem settles_slp_false {s : State} (h : Inv s) (hpc : s.pc = .slp false) (hre : s.ready = []) : Settles s := by
  obtain ⟨s1, hl, hi⟩ := step_loop h
  obtain ⟨hn, hf⟩ := slp_frame hpc hl
  refine settles_step hl hn ?_
  rcases hf with hf | ⟨hf, hr⟩
  · exact settles_now hi (.inl hf)
  · exact settles_update hi (by simpa using hf) (by rw [hr, hre])

theorem settles_rdy : ∀ (n : Nat) {s : State} (_ : Inv s) {first : Bool} (_ : s.pc = .rdy first), s.ready.length = n → Settles s := by
  intro n
  induction n with
  | zero =>
    intro s h first hpc hn
    have hre : s.ready = [] := List.length_eq_zero_iff.1 hn
    have hl : s.loop = some { s with pc := if first then .slp false else .update } := by
      unfold State.loop; rw [hpc]; simp only [hre]
    have hi := loop_inv h hl
    refine settles_step hl rfl ?_
    cases first with
    | true => exact settles_slp_false hi rfl hre
    | false => exact settles_update hi rfl hre
  | succ n ih =>
    intro s h first hpc hn
    cases hr : s.ready with
    | nil => rw [hr] at hn; simp at hn
    | cons t rest =>
      obtain ⟨s1, hl, hi⟩ := step_loop h
      obtain ⟨hnw, hf⟩ := rdy_frame hpc hr hl
      refine settles_step hl hnw ?_
      rcases hf with hf | ⟨hf, hr'⟩
      · exact settles_now hi (.inl hf)
      · exact ih hi hf (by rw [hr']; rw [hr] at hn; simpa using hn)

theorem settles_slp {s : State} (h : Inv s) (hpc : s.pc = .slp true) : Settles s := by
  obtain ⟨s1, hl, hi⟩ := step_loop h
  obtain ⟨hn, hf⟩ := slp_frame hpc hl
  refine settles_step hl hn ?_
  rcases hf with hf | ⟨hf, hr⟩
  · exact settles_now hi (.inl hf)
  · exact settles_rdy _ hi (first := false) (by simpa using hf) rfl

theorem settles_top {s : State} (h : Inv s) (hpc : s.pc = .top) : Settles s := by
  have hl : s.loop = some { s with pc := if s.fetchReady then .rdy true else .slp true } := by
    unfold State.loop; rw [hpc]
  have hi := loop_inv h hl
  refine settles_step hl rfl ?_
  by_cases hf : s.fetchReady = true
  · rw [if_pos hf] at hi ⊢; exact settles_rdy _ hi (first := true) rfl rfl
  · rw [if_neg hf] at hi ⊢; exact settles_slp hi rfl

/-- After `update` with a non-empty ready queue the thread starts over. -/
theorem settles_update' {s : State} (h : Inv s) (hpc : s.pc = .update) : Settles s := by
  by_cases hre : s.ready = []
  · exact settles_update h hpc hre
  · have h0 : s.size ≠ 0 := by
      have := h.g.size
      have h2 : s.ready.length ≠ 0 := fun c => hre (List.length_eq_zero_iff.1 c)
      omega
    have hl : s.loop = some { s with timer := 0, pc := .top } := by
      unfold State.loop; rw [hpc]
      simp only [updateTimer_eq, h0, if_false, if_true]
    exact settles_step hl rfl (settles_top (loop_inv h hl) rfl)

theorem settles_all {s : State} (h : Inv s) : Settles s := by
  cases hpc : s.pc with
  | asleep =>
    by_cases hq : 0 ≤ s.timer ∧ s.timer ≤ s.now
    · have hl : s.loop = some { s with pc := .top } := by
        unfold State.loop; rw [hpc]; simp only; rw [if_pos hq]
      exact settles_step hl rfl (settles_top (loop_inv h hl) rfl)
    · exact settles_now h (.inr ⟨hpc, hq⟩)
  | top => exact settles_top h hpc
  | rdy first => exact settles_rdy _ h hpc rfl
  | slp first =>
    cases first with
    | true => exact settles_slp h hpc
    | false =>
      obtain ⟨s1, hl, hi⟩ := step_loop h
      obtain ⟨hn, hf⟩ := slp_frame hpc hl
      refine settles_step hl hn ?_
      rcases hf with hf | ⟨hf, hr⟩
      · exact settles_now hi (.inl hf)
      · exact settles_update' hi (by simpa using hf)
  | exec t => exact settles_now h (.inl ⟨t, hpc⟩)
  | update => exact settles_update' h hpc

/-- While the thread sleeps and the timer does not fire, tasks that are not completed wait for their
deadline or are paused. -/
theorem quiet {s : State} (h : Inv s) (hpc : s.pc = .asleep) (hq : ¬ (0 ≤ s.timer ∧ s.timer ≤ s.now)) (t : Nat)
    (hst : (s.task t).st ≠ .completed) : (s.task t).paused = true ∨ (lastReq t s.tr = some (s.task t).renDl ∧ s.now < (s.task t).renDl) := by
  have hv := h.at t
  have hnx : ¬ s.pc = .exec t := by rw [hpc]; simp
  obtain ⟨h1, h2⟩ := h.g.tmr hpc
  have hnow := h.g.now
  have hre : s.ready = [] := by
    by_contra c
    have := h1 c
    omega
  by_cases hpa : (s.task t).paused = true
  · exact .inl hpa
  right
  refine ⟨(hv.ex hst).2, ?_⟩
  have hpa' : (s.task t).paused = false := by simpa using hpa
  have hsl : (s.task t).st = .sleeping := by
    rcases hv.st with c | c | c | c
    · have := (h.readyIff t).2 c; rw [hre] at this; cases this
    · exact c
    · have := hv.proc c; simp only [decide_eq_true_eq] at this; exact absurd this hnx
    · exact absurd c hst
  obtain ⟨a1, a2, a3⟩ := hv.slp hsl hpa'
  simp only [decide_eq_true_eq] at a1 a2
  have := h2 t a1
  omega

end Verif.TaskQueue
