import Verif.PipelineLoop.Solo

/-!
# Pipeline loop: properties (C45)
-/

namespace Verif.PipelineLoop

/-! ### Safety, for all interleavings -/

/-- The thread runs a task or a frame, or otherwise touches the pipeline. -/
def inPipeline : PC → Prop
  | .exec | .fBody | .fHand _ | .pHand _ => True
  | _ => False

/-- **C45**: tasks and frames never run at the same time, whichever threads run them. -/
theorem C45_exclusive {s : G} (h : Reach s) {t u : Tid} (ht : inPipeline (s.pc t)) (hu : inPipeline (s.pc u)) : t = u := by
  have key : ∀ v, inPipeline (s.pc v) → crit (s.pc v) = true := by
    intro v hv
    cases hp : s.pc v <;> rw [hp] at hv <;> first | rfl | exact absurd hv (by simp [inPipeline])
  have h1 := (h.inv.pm t).1 (key t ht)
  have h2 := (h.inv.pm u).1 (key u hu)
  rw [h1] at h2
  injection h2

/-- **C45**: no task is executed twice, and only scheduled tasks are. -/
theorem C45_once {s : G} (h : Reach s) : s.executed.Nodup ∧ ∀ i ∈ s.executed, i ∈ s.sched := by
  constructor
  · rw [List.nodup_iff_count]
    intro i
    have := h.inv.cnt i
    split_ifs at this <;> omega
  · intro i hi
    rw [h.inv.sched]
    intro hc
    have := h.inv.cnt i
    rw [if_pos hc] at this
    have h2 : 0 < s.executed.count i := List.count_pos_iff.2 hi
    omega

/-- **C45**: a task that was scheduled and not executed is in the queue, or in the hands of a thread that is in the middle of an operation. -/
theorem C45_kept {s : G} (h : Reach s) {i : Nat} (hi : i ∈ s.sched) (hn : i ∉ s.executed) :
    i ∈ s.queue ∨ (∃ t, s.pc t = .fHand i ∨ s.pc t = .pHand i) ∨ (s.pc (.task i) ≠ .idle ∧ s.pc (.task i) ≠ .done) := by
  have h1 := h.inv.cnt i
  rw [if_neg ((h.inv.sched i).1 hi), List.count_eq_zero.2 hn] at h1
  by_cases hq : i ∈ s.queue
  · exact Or.inl hq
  rw [List.count_eq_zero.2 hq] at h1
  by_cases hh : hold (s.pc (.task i)) = true
  · right; right
    constructor <;> intro hc <;> rw [hc] at hh <;> cases hh
  · right; left
    rw [if_neg hh] at h1
    unfold handCnt at h1
    cases hm : s.pm with
    | none => rw [hm] at h1; simp at h1
    | some t =>
      rw [hm] at h1
      simp only at h1
      by_cases hd : hand (s.pc t) = some i
      · refine ⟨t, ?_⟩
        cases hp : s.pc t <;> rw [hp] at hd <;> simp [hand] at hd
        · left; rw [hd]
        · right; rw [hd]
      · rw [if_neg hd] at h1; simp at h1

/-- **C45**: when the loop reports no pending tasks, every scheduled task has been executed (so that the destructor's check is right). -/
theorem C45_pending {s : G} (h : Reach s) (hp : s.pend = 0) : ∀ i ∈ s.sched, i ∈ s.executed := by
  have hinv := h.inv
  have h1 := hinv.pend
  have hn := (C45_once h).1
  have hsub : s.executed ⊆ s.sched := fun i hi => (C45_once h).2 i hi
  have hle := hinv.exec_le
  have hsp := List.subperm_of_subset hn hsub
  have hlen : s.sched.length ≤ s.executed.length := by omega
  have hperm := hsp.perm_of_length_le hlen
  intro i hi
  exact hperm.mem_iff.2 hi

/-! ### A task may be left waiting with nobody responsible for it -/

def ok : Ch := ⟨true, true, true, true⟩

/-- Tasks 0 and 1 make the scheduler call `process_tasks`; while it returns, tasks 2 and 3 are scheduled. -/
def lost : List (Tid × Ch) :=
  -- task 0 is executed in place
  List.replicate 4 (.task 0, ok) ++
  -- meanwhile task 1 is put into the queue
  List.replicate 2 (.task 1, ok) ++
  -- task 0 asks the scheduler
  List.replicate 11 (.task 0, ok) ++
  -- process_tasks executes task 1 and finds no other task; it is before `processing_state_ = ProcNotScheduled`
  List.replicate 14 (.proc, ok) ++
  -- task 2 begins to execute in place
  List.replicate 4 (.task 2, ok) ++
  -- task 3 is put into the queue
  List.replicate 2 (.task 3, ok) ++
  -- task 2 is finished; the state is ProcRunning, hence the scheduler is not asked
  List.replicate 10 (.task 2, ok) ++
  -- process_tasks sets ProcNotScheduled
  List.replicate 2 (.proc, ok)

theorem lost_some : (runs init lost).isSome = true := by decide +kernel

def lostSt : G := (runs init lost).get lost_some

theorem lost_eq : runs init lost = some lostSt := (Option.some_get lost_some).symm

/-- Nothing is going to be executed. -/
structure Stuck (s : G) : Prop where
  armed : s.armed = false
  pend : s.pend ≠ 0
  proc : s.pc .proc = .idle
  frames : ∀ j, s.pc (.frame j) = .idle
  tasks : ∀ i, s.pc (.task i) = .idle ∨ s.pc (.task i) = .pushOnly ∨ s.pc (.task i) = .done

theorem Stuck.step {s s' : G} {t : Tid} {ch : Ch} (h : Stuck s) (ht : ∀ j, t ≠ .frame j) (hs : step s t ch = some s') :
    Stuck s' ∧ s'.executed = s.executed := by
  unfold PipelineLoop.step at hs
  rcases t with i | j | _
  · rcases h.tasks i with hp | hp | hp <;> rw [hp] at hs <;> simp only [stepS, stepT] at hs
    · injection hs with hs
      have hne : s.pend + 1 ≠ 1 := by have := h.pend; omega
      rw [if_pos hne] at hs
      subst hs
      refine ⟨⟨h.armed, Nat.succ_ne_zero _, ?_, fun j => ?_, fun k => ?_⟩, rfl⟩
      · rw [pc_go, if_neg (by simp)]; exact h.proc
      · rw [pc_go, if_neg (by simp)]; exact h.frames j
      · rw [pc_go]
        by_cases hk : Tid.task k = Tid.task i
        · rw [if_pos hk]; exact Or.inr (Or.inl rfl)
        · rw [if_neg hk]; exact h.tasks k
    · injection hs with hs
      subst hs
      refine ⟨⟨h.armed, h.pend, ?_, fun j => ?_, fun k => ?_⟩, rfl⟩
      · rw [pc_go, if_neg (by simp)]; exact h.proc
      · rw [pc_go, if_neg (by simp)]; exact h.frames j
      · rw [pc_go]
        by_cases hk : Tid.task k = Tid.task i
        · rw [if_pos hk]; exact Or.inr (Or.inr rfl)
        · rw [if_neg hk]; exact h.tasks k
    · cases hs
  · exact absurd rfl (ht j)
  · rw [h.proc] at hs
    simp only [stepS, stepP, h.armed, Bool.false_eq_true, if_false] at hs
    cases hs

theorem Stuck.runs {s s' : G} {l : List (Tid × Ch)} (h : Stuck s) (hl : ∀ x ∈ l, ∀ j, x.1 ≠ .frame j) (hr : runs s l = some s') :
    s'.executed = s.executed := by
  induction l generalizing s with
  | nil => injection hr with hr; subst hr; rfl
  | cons x l ih =>
    obtain ⟨t, ch⟩ := x
    cases hs : PipelineLoop.step s t ch with
    | none => simp only [PipelineLoop.runs, hs, Option.bind_none] at hr; cases hr
    | some s1 =>
      simp only [PipelineLoop.runs, hs, Option.bind_some] at hr
      have h1 := h.step (hl (t, ch) List.mem_cons_self) hs
      rw [ih h1.1 (fun x hx => hl x (List.mem_cons_of_mem _ hx)) hr, h1.2]

theorem lost_mem {x : Tid × Ch} (hx : x ∈ lost) : x.1 = .proc ∨ x.1 = .task 0 ∨ x.1 = .task 1 ∨ x.1 = .task 2 ∨ x.1 = .task 3 := by
  simp only [lost, List.mem_append, List.mem_replicate] at hx
  rcases hx with ((((((⟨_, rfl⟩ | ⟨_, rfl⟩) | ⟨_, rfl⟩) | ⟨_, rfl⟩) | ⟨_, rfl⟩) | ⟨_, rfl⟩) | ⟨_, rfl⟩) | ⟨_, rfl⟩ <;> simp

theorem lost_stuck : Stuck lostSt := by
  have hd : lostSt.armed = false ∧ lostSt.pend = 1 ∧ lostSt.pc .proc = .idle ∧ lostSt.pc (.task 0) = .done ∧ lostSt.pc (.task 1) = .done ∧
      lostSt.pc (.task 2) = .done ∧ lostSt.pc (.task 3) = .done := by decide +kernel
  obtain ⟨h1, h2, h3, h4, h5, h6, h7⟩ := hd
  refine ⟨h1, by omega, h3, fun j => ?_, fun i => ?_⟩
  · refine runs_other (fun x hx hc => ?_) lost_eq
    rcases lost_mem hx with h | h | h | h | h <;> rw [h] at hc <;> cases hc
  · by_cases h : i = 0 ∨ i = 1 ∨ i = 2 ∨ i = 3
    · rcases h with rfl | rfl | rfl | rfl
      · exact Or.inr (Or.inr h4)
      · exact Or.inr (Or.inr h5)
      · exact Or.inr (Or.inr h6)
      · exact Or.inr (Or.inr h7)
    · refine Or.inl (runs_other (s := init) (fun x hx hc => ?_) lost_eq)
      rcases lost_mem hx with h' | h' | h' | h' | h' <;> rw [h'] at hc
      · cases hc
      all_goals (injection hc with hc; exact h (by simp [hc]))

/-- **C45**, failure. There is a run without any frames (and in which every `try_load` succeeds and tasks are always allowed) after which all operations have returned,
task 3 is in the queue, and whatever other tasks are scheduled from then on, none of them is ever executed, nor is task 3: nothing asks the scheduler.
`process_tasks` decides that there is nothing left to do before it resets the state, and a task scheduled in between trusts the state.
`schedule_and_wait` hangs until the next frame. -/
theorem C45_lost_wakeup_fails : ∃ l s, runs init l = some s ∧ (∀ x ∈ l, x.2 = ok ∧ ∀ j, x.1 ≠ .frame j) ∧ (∀ t, restPC (s.pc t)) ∧
    3 ∈ s.sched ∧ 3 ∈ s.queue ∧
    ∀ l' s', (∀ x ∈ l', ∀ j, x.1 ≠ .frame j) → runs s l' = some s' → s'.executed = s.executed ∧ 3 ∉ s'.executed := by
  have hd : lostSt.sched = [3, 2, 1, 0] ∧ lostSt.queue = [3] ∧ lostSt.executed = [2, 1, 0] := by decide +kernel
  refine ⟨lost, lostSt, lost_eq, fun x hx => ⟨?_, fun j hc => ?_⟩, fun t => ?_, by rw [hd.1]; simp, by rw [hd.2.1]; simp, fun l' s' hl hr => ?_⟩
  · simp only [lost, List.mem_append, List.mem_replicate] at hx
    rcases hx with ((((((⟨_, rfl⟩ | ⟨_, rfl⟩) | ⟨_, rfl⟩) | ⟨_, rfl⟩) | ⟨_, rfl⟩) | ⟨_, rfl⟩) | ⟨_, rfl⟩) | ⟨_, rfl⟩ <;> rfl
  · rcases lost_mem hx with h | h | h | h | h <;> rw [h] at hc <;> cases hc
  · rcases t with i | j | _
    · rcases lost_stuck.tasks i with h | h | h
      · exact Or.inl h
      · exfalso
        have hs : lostSt.pc (.task i) ≠ .idle := by rw [h]; simp
        rw [← (runs_reach .init lost_eq).inv.sched, hd.1] at hs
        have hd2 : lostSt.pc (.task 0) = .done ∧ lostSt.pc (.task 1) = .done ∧ lostSt.pc (.task 2) = .done ∧ lostSt.pc (.task 3) = .done := by decide +kernel
        simp only [List.mem_cons, List.not_mem_nil, or_false] at hs
        rcases hs with rfl | rfl | rfl | rfl
        · rw [hd2.2.2.2] at h; cases h
        · rw [hd2.2.2.1] at h; cases h
        · rw [hd2.2.1] at h; cases h
        · rw [hd2.1] at h; cases h
      · exact Or.inr h
    · exact Or.inl (lost_stuck.frames j)
    · exact Or.inl lost_stuck.proc
  · have := lost_stuck.runs hl hr
    refine ⟨this, ?_⟩
    rw [this, hd.2.2]
    simp

/-- Task 0 asks the scheduler; `process_tasks` runs to its end before task 0 stores the new state. -/
def stale : List (Tid × Ch) :=
  List.replicate 4 (.task 0, ok) ++ List.replicate 2 (.task 1, ok) ++ List.replicate 8 (.task 0, ok) ++ List.replicate 16 (.proc, ok) ++
  List.replicate 3 (.task 0, ok)

theorem stale_some : (runs init stale).isSome = true := by decide +kernel

def staleSt : G := (runs init stale).get stale_some

theorem stale_eq : runs init stale = some staleSt := (Option.some_get stale_some).symm

/-- The state says that the scheduler was asked, and nobody is going to change that. -/
structure Stale (s : G) : Prop where
  armed : s.armed = false
  pst : s.pst = .scheduled
  frames : s.frames = 0
  proc : s.pc .proc = .idle
  fr : ∀ j, s.pc (.frame j) = .idle
  tasks : ∀ i, s.pc (.task i) ≠ .s3 ∧ ∀ r, s.pc (.task i) ≠ .c0 r ∧ s.pc (.task i) ≠ .c1 r ∧ s.pc (.task i) ≠ .c2 r ∧ s.pc (.task i) ≠ .c3 r

theorem stale_go {s s0 : G} {i : Nat} {p : PC} (h : Stale s) (e1 : s0.armed = s.armed) (e2 : s0.pst = s.pst) (e3 : s0.frames = s.frames) (e4 : s0.pc = s.pc)
    (hp : p ≠ .s3 ∧ ∀ r, p ≠ .c0 r ∧ p ≠ .c1 r ∧ p ≠ .c2 r ∧ p ≠ .c3 r) : Stale (s0.go (.task i) p) := by
  refine ⟨e1.trans h.armed, e2.trans h.pst, e3.trans h.frames, ?_, fun j => ?_, fun k => ?_⟩
  · rw [pc_go, if_neg (by simp), e4]; exact h.proc
  · rw [pc_go, if_neg (by simp), e4]; exact h.fr j
  · rw [pc_go, e4]
    by_cases hk : Tid.task k = Tid.task i
    · rw [if_pos hk]; exact hp
    · rw [if_neg hk]; exact h.tasks k

theorem Stale.step {s s' : G} {t : Tid} {ch : Ch} (h : Stale s) (ht : ∀ j, t ≠ .frame j) (hs : step s t ch = some s') : Stale s' := by
  unfold PipelineLoop.step at hs
  rcases t with i | j | _
  · have hk := h.tasks i
    have hf := h.frames
    have hps := h.pst
    cases hp : s.pc (.task i) <;> rw [hp] at hs hk <;> simp only [stepS, stepT] at hs
    all_goals (try split at hs)
    all_goals (try (injection hs with hs; subst hs))
    all_goals first
      | (exact absurd rfl hk.1)
      | (exact absurd rfl (hk.2 _).1)
      | (exact absurd rfl (hk.2 _).2.1)
      | (exact absurd rfl (hk.2 _).2.2.1)
      | (exact absurd rfl (hk.2 _).2.2.2)
      | (refine stale_go h rfl rfl rfl rfl ?_; simp_all [fin]; done)
      | (refine stale_go h rfl rfl rfl rfl ?_; split_ifs <;> simp_all [fin]; done)
      | (cases hs; done)
      | (simp_all; done)
  · exact absurd rfl (ht j)
  · rw [h.proc] at hs
    simp only [stepS, stepP, h.armed, Bool.false_eq_true, if_false] at hs
    cases hs

theorem Stale.runs {s s' : G} {l : List (Tid × Ch)} (h : Stale s) (hl : ∀ x ∈ l, ∀ j, x.1 ≠ .frame j) (hr : runs s l = some s') : Stale s' := by
  induction l generalizing s with
  | nil => injection hr with hr; subst hr; exact h
  | cons x l ih =>
    obtain ⟨t, ch⟩ := x
    cases hs : PipelineLoop.step s t ch with
    | none => simp only [PipelineLoop.runs, hs, Option.bind_none] at hr; cases hr
    | some s1 =>
      simp only [PipelineLoop.runs, hs, Option.bind_some] at hr
      exact ih (h.step (hl (t, ch) List.mem_cons_self) hs) (fun x hx => hl x (List.mem_cons_of_mem _ hx)) hr

theorem stale_mem {x : Tid × Ch} (hx : x ∈ stale) : x.2 = ok ∧ (x.1 = .proc ∨ x.1 = .task 0 ∨ x.1 = .task 1) := by
  simp only [stale, List.mem_append, List.mem_replicate] at hx
  rcases hx with (((⟨_, rfl⟩ | ⟨_, rfl⟩) | ⟨_, rfl⟩) | ⟨_, rfl⟩) | ⟨_, rfl⟩ <;> simp

theorem stale_stale : Stale staleSt := by
  have hd : staleSt.armed = false ∧ staleSt.pst = .scheduled ∧ staleSt.frames = 0 ∧ staleSt.pc .proc = .idle ∧ staleSt.pc (.task 0) = .done ∧
      staleSt.pc (.task 1) = .done := by decide +kernel
  obtain ⟨h1, h2, h3, h4, h5, h6⟩ := hd
  refine ⟨h1, h2, h3, h4, fun j => ?_, fun i => ?_⟩
  · refine runs_other (fun x hx hc => ?_) stale_eq
    rcases (stale_mem hx).2 with h | h | h <;> rw [h] at hc <;> cases hc
  · have hi : staleSt.pc (.task i) = .idle ∨ staleSt.pc (.task i) = .done := by
      by_cases h : i = 0 ∨ i = 1
      · rcases h with rfl | rfl
        · exact Or.inr h5
        · exact Or.inr h6
      · refine Or.inl (runs_other (s := init) (fun x hx hc => ?_) stale_eq)
        rcases (stale_mem hx).2 with h' | h' | h' <;> rw [h'] at hc
        · cases hc
        all_goals (injection hc with hc; exact h (by simp [hc]))
    rcases hi with hi | hi <;> rw [hi] <;> simp

/-- **C45**, failure of another kind: after all operations have returned and all tasks were executed, the state may be `ProcScheduled` although the scheduler has nothing to do:
`schedule_async_task_processing_` stores the state after it asks the scheduler, and `process_tasks` may run in between.
Whatever tasks are scheduled from then on, `process_tasks` is never called again unless a frame comes, so that a task that is not executed in place waits for ever. -/
theorem C45_stale_state_fails : ∃ l s, runs init l = some s ∧ (∀ x ∈ l, x.2 = ok) ∧ s.pend = 0 ∧ s.queue = [] ∧
    s.pc (.task 0) = .done ∧ s.pc (.task 1) = .done ∧ s.pc .proc = .idle ∧
    ∀ l' s', (∀ x ∈ l', ∀ j, x.1 ≠ .frame j) → runs s l' = some s' → s'.armed = false ∧ s'.pc .proc = .idle := by
  have hd : staleSt.pend = 0 ∧ staleSt.queue = [] ∧ staleSt.pc (.task 0) = .done ∧ staleSt.pc (.task 1) = .done ∧ staleSt.pc .proc = .idle := by decide +kernel
  refine ⟨stale, staleSt, stale_eq, fun x hx => (stale_mem hx).1, hd.1, hd.2.1, hd.2.2.1, hd.2.2.2.1, hd.2.2.2.2, fun l' s' hl hr => ?_⟩
  have := stale_stale.runs hl hr
  exact ⟨this.armed, this.proc⟩

/-! ### Operations that do not overlap -/

/-- Operations run one after another: each from its start to its end without steps of other threads, and each `try_load` succeeds (nobody stores at the same time). -/
inductive Seq : G → Prop
  | init : Seq init
  | op {s s' : G} {t : Tid} {l : List (Tid × Ch)} : Seq s → (∀ x ∈ l, x.1 = t ∧ x.2.load = true) → runs s l = some s' → restPC (s'.pc t) → Seq s'

theorem Solo.runs {t : Tid} {s s' : G} {l : List (Tid × Ch)} (h : Solo t s) (hl : ∀ x ∈ l, x.1 = t ∧ x.2.load = true) (hr : runs s l = some s') : Solo t s' := by
  induction l generalizing s with
  | nil => injection hr with hr; subst hr; exact h
  | cons x l ih =>
    obtain ⟨u, ch⟩ := x
    have hx := hl (u, ch) List.mem_cons_self
    obtain rfl : u = t := hx.1
    cases hs : PipelineLoop.step s u ch with
    | none => simp only [PipelineLoop.runs, hs, Option.bind_none] at hr; cases hr
    | some s1 =>
      simp only [PipelineLoop.runs, hs, Option.bind_some] at hr
      exact ih (h.step hx.2 hs) (fun x hx => hl x (List.mem_cons_of_mem _ hx)) hr

theorem Seq.solo {s : G} (h : Seq s) : (∀ t, restPC (s.pc t)) ∧ ∀ t, Solo t s := by
  induction h with
  | init =>
    refine ⟨fun t => Or.inl rfl, fun t => ⟨Inv.init, fun u _ => Or.inl rfl, ?_⟩⟩
    show 0 = 0 ∧ _ ∧ _ ∧ _
    refine ⟨rfl, fun h => absurd rfl h, rfl, rfl⟩
  | @op s s' t l h1 h2 h3 h4 ih =>
    have h5 := (ih.2 t).runs h2 h3
    have hr : ∀ u, restPC (s'.pc u) := by
      intro u
      by_cases hu : u = t
      · rw [hu]; exact h4
      · exact h5.others u hu
    refine ⟨hr, fun u => ⟨h5.inv, fun v _ => hr v, ?_⟩⟩
    have h6 := h5.loc
    rcases h4 with h4 | h4 <;> rcases hr u with h7 | h7 <;> rw [h4] at h6 <;> rw [h7] <;> exact h6

/-- One more step of a run of `process_tasks`. -/
theorem proc_loop (q : List Nat) : ∀ s : G, s.pc .proc = .p4 → s.queue = q → s.frames = 0 →
    ∃ n s', runs s (List.replicate n (.proc, ok)) = some s' ∧ s'.pc .proc = .p7 0 ∧ s'.queue = [] ∧ s'.frames = 0 := by
  induction q with
  | nil =>
    intro s hp hq hf
    refine ⟨3, s.go .proc .p5 |>.go .proc .p6 |>.go .proc (.p7 0), ?_, by rw [pc_go, if_pos rfl], hq, hf⟩
    simp [List.replicate, runs, step, stepS, stepP, hp, hq, hf, ok, G.go]
  | cons i q ih =>
    intro s hp hq hf
    have h1 : runs s (List.replicate 5 (.proc, ok)) = some { s with queue := q, executed := i :: s.executed, pend := s.pend - 1 } := by
      simp [List.replicate, runs, step, stepS, stepP, hp, hq, hf, ok, G.go]
      funext u
      by_cases hu : u = .proc
      · simp [hu, hp]
      · simp [hu]
    obtain ⟨n, s', h2, h3⟩ := ih { s with queue := q, executed := i :: s.executed, pend := s.pend - 1 } hp rfl hf
    refine ⟨5 + n, s', ?_, h3⟩
    rw [← List.replicate_append_replicate, runs_append, h1]
    exact h2

/-- **C45**, partial: if operations do not overlap, then whenever a task is waiting, a call of `process_tasks` has been asked for, and that call, if tasks are allowed during it,
executes every task that was scheduled so far.
Missing: operations that overlap (C45_lost_wakeup_fails shows that the claim is false for them). -/
theorem C45_sequential_partial {s : G} (h : Seq s) :
    (∀ i ∈ s.sched, i ∉ s.executed → i ∈ s.queue) ∧
    (s.queue ≠ [] → s.armed = true ∧ s.pc .proc = .idle ∧
      ∃ n s', runs s (List.replicate n (.proc, ok)) = some s' ∧ Seq s' ∧ s'.sched = s.sched ∧ ∀ i ∈ s.sched, i ∈ s'.executed) := by
  obtain ⟨hr, hsolo⟩ := h.solo
  have hkept : ∀ {s : G}, Inv s → (∀ t, restPC (s.pc t)) → ∀ i ∈ s.sched, i ∉ s.executed → i ∈ s.queue := by
    intro s hinv hr i hi hn
    have h1 := hinv.cnt i
    rw [if_neg ((hinv.sched i).1 hi), List.count_eq_zero.2 hn] at h1
    have h2 : handCnt s i = 0 := by
      have hm : s.pm = none := by
        cases hm : s.pm with
        | none => rfl
        | some u =>
          have h3 := (hinv.pm u).2 hm
          rcases hr u with h2 | h2 <;> rw [h2] at h3 <;> cases h3
      unfold handCnt
      rw [hm]
    have h3 : hold (s.pc (.task i)) = false := by rcases hr (.task i) with h4 | h4 <;> rw [h4] <;> rfl
    rw [h2, h3] at h1
    simp only [Bool.false_eq_true, if_false] at h1
    exact List.count_pos_iff.1 (by omega)
  refine ⟨hkept (hsolo .proc).inv hr, fun hq => ?_⟩
  have hinv := (hsolo .proc).inv
  have hidle : s.pc .proc = .idle := by
    rcases hr .proc with h1 | h1
    · exact h1
    · have := hinv.kind .proc
      rw [h1] at this
      cases this
  have hl := (hsolo .proc).loc
  rw [hidle] at hl
  obtain ⟨l1, l2, l3, l4⟩ := hl
  have ha : s.armed = true := l2 (fun hc => hq (List.length_eq_zero_iff.1 hc))
  have hpm : s.pm = none := (hsolo .proc).pm_none (by rw [hidle]; rfl)
  refine ⟨ha, hidle, ?_⟩
  obtain ⟨s1, hs1⟩ : ∃ s1, s1 = ({ s with armed := false, pm := some .proc, pst := .running } : G).go .proc .p4 := ⟨_, rfl⟩
  have e1 : runs s (List.replicate 4 (.proc, ok)) = some s1 := by
    rw [hs1]
    simp [List.replicate, runs, step, stepS, stepP, hidle, ha, hpm, ok, G.go]
    funext u
    by_cases hu : u = .proc
    · simp [hu]
    · simp [hu]
  obtain ⟨n, s2, e2, p2, q2, f2⟩ := proc_loop s.queue s1 (by rw [hs1]; rfl) (by rw [hs1]; rfl) (by rw [hs1]; exact l4)
  have e12 : runs s (List.replicate (4 + n) (.proc, ok)) = some s2 := by
    rw [← List.replicate_append_replicate, runs_append, e1]
    exact e2
  have hload : ∀ m, ∀ x ∈ List.replicate m (Tid.proc, ok), x.1 = Tid.proc ∧ x.2.load = true := by
    intro m x hx
    rw [List.mem_replicate] at hx
    rw [hx.2]
    exact ⟨rfl, rfl⟩
  have hsolo2 := (hsolo .proc).runs (hload _) e12
  have hl2 := hsolo2.loc
  rw [p2, q2] at hl2
  obtain ⟨m1, m2, m3, m4, _⟩ := hl2
  obtain ⟨s3, hs3⟩ : ∃ s3, s3 = ({ s2 with pm := none, pst := .notScheduled } : G).go .proc .idle := ⟨_, rfl⟩
  have e3 : runs s2 (List.replicate 4 (.proc, ok)) = some s3 := by
    rw [hs3]
    have m1' : s2.pend = 0 := m1
    simp [List.replicate, runs, step, stepS, stepP, p2, m1', ok, G.go]
    funext u
    by_cases hu : u = .proc
    · simp [hu]
    · simp [hu]
  have e123 : runs s (List.replicate (4 + n + 4) (.proc, ok)) = some s3 := by
    rw [← List.replicate_append_replicate, runs_append, e12]
    exact e3
  have hseq : Seq s3 := .op h (hload _) e123 (by rw [hs3, pc_go, if_pos rfl]; exact Or.inl rfl)
  have hsched : s3.sched = s.sched := by
    have hh := hseq.solo.2 .proc
    -- scheduled tasks are those that are not idle, and their threads did not run
    have : ∀ m s', runs s (List.replicate m (.proc, ok)) = some s' → s'.sched = s.sched := by
      intro m
      have step_sched : ∀ (a b : G), step a .proc ok = some b → b.sched = a.sched := by
        intro a b hb
        unfold step at hb
        cases hpc : a.pc .proc <;> rw [hpc] at hb <;> simp only [stepS, stepP] at hb
        all_goals (try split at hb)
        all_goals (try (injection hb with hb; subst hb))
        all_goals first
          | rfl
          | (cases hb; done)
          | (split at hb <;> injection hb with hb <;> subst hb <;> rfl)
      clear hs1 e1 e2 e12 e123 e3 hseq hh
      suffices ∀ (a : G) s', runs a (List.replicate m (.proc, ok)) = some s' → s'.sched = a.sched from fun s' => this s s'
      induction m with
      | zero => intro a s' hr; injection hr with hr; rw [hr]
      | succ m ih =>
        intro a s' hr
        rw [List.replicate_succ] at hr
        cases hs : step a .proc ok with
        | none => simp only [runs, hs, Option.bind_none] at hr; cases hr
        | some b =>
          simp only [runs, hs, Option.bind_some] at hr
          rw [ih b s' hr, step_sched a b hs]
    exact this _ _ e123
  refine ⟨_, s3, e123, hseq, hsched, fun i hi => ?_⟩
  by_contra hn
  have := hkept (hseq.solo.2 .proc).inv hseq.solo.1 i (by rw [hsched]; exact hi) hn
  rw [hs3] at this
  change i ∈ s2.queue at this
  rw [q2] at this
  cases this

/-- Concrete case: a task that is not allowed at the moment is put into the queue, and the scheduler is asked. -/
def waiting : List (Tid × Ch) := List.replicate 11 (.task 7, ⟨true, false, true, true⟩)

theorem waiting_some : (runs init waiting).isSome = true := by decide +kernel

example : ∃ s, Seq s ∧ s.queue = [7] ∧ s.armed = true := by
  refine ⟨(runs init waiting).get waiting_some, .op (t := .task 7) .init (fun x hx => ?_) (Option.some_get waiting_some).symm (Or.inr (by decide +kernel)), by decide +kernel,
    by decide +kernel⟩
  rw [waiting, List.mem_replicate] at hx
  rw [hx.2]
  exact ⟨rfl, rfl⟩

def busy : List (Tid × Ch) := List.replicate 4 (.task 0, ok) ++ List.replicate 2 (.task 1, ok)

theorem busy_some : (runs init busy).isSome = true := by decide +kernel

/-- Concrete case for the theorems about all interleavings: a state in which a task is executed in place while another one is queued. -/
example : ∃ s, Reach s ∧ inPipeline (s.pc (.task 0)) ∧ s.queue = [1] ∧ s.sched = [1, 0] ∧ 1 ∉ s.executed := by
  refine ⟨_, runs_reach .init (Option.some_get busy_some).symm, ?_, by decide +kernel, by decide +kernel, by decide +kernel⟩
  have : ((runs init busy).get busy_some).pc (.task 0) = .exec := by decide +kernel
  rw [this]
  trivial

/-- Concrete case for C45_pending: all tasks of `stale` are executed and nothing is pending. -/
example : ∃ s, Reach s ∧ s.pend = 0 ∧ s.sched = [1, 0] :=
  ⟨_, runs_reach .init (Option.some_get stale_some).symm, by decide +kernel, by decide +kernel⟩

end Verif.PipelineLoop
