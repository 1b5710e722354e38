import Verif.TaskQueue.Progress

/-!
C68: tasks of a control queue run when they were asked to, once per request at most, never after a
cancellation, and the background thread does not sleep through a deadline.

C69: pausing and resuming a task.
-/

namespace Verif.TaskQueue

/-- Check of the rules, for examples. -/
def okB (s : State) : Op → Bool
  | .schedule _ dl => decide (0 ≤ dl)
  | .resume t => (s.task t).paused || (decide (s.pc = .exec t) && decide (t ∉ s.paused))
  | .finish .success | .finish .failure => match s.pc with
    | .exec t => !(s.task t).resumed
    | _ => true
  | .finish .pause => match s.pc with
    | .exec t => decide (t ∉ s.paused)
    | _ => true
  | _ => true

/-- A history that follows the rules, for examples. -/
def runB (s : State) : List Op → Option State
  | [] => some s
  | o :: l => if okB s o then (s.step o).bind fun s => runB s l else none

theorem okB_allowed {s : State} {o : Op} (h : okB s o = true) : Allowed s o := by
  cases o with
  | schedule t dl => simpa [okB, Allowed] using h
  | cancel t => trivial
  | resume t => simpa [okB, Allowed] using h
  | tick dt => trivial
  | loop => trivial
  | finish r =>
    cases r with
    | success | failure | pause =>
      intro t ht
      simp only [okB, ht] at h
      simpa using h
    | again => trivial

theorem reach_runB {s s' : State} (h : Reach s) : ∀ l, runB s l = some s' → Reach s' := by
  intro l
  induction l generalizing s with
  | nil => intro he; rw [← Option.some.inj he]; exact h
  | cons o l ih =>
    intro he
    unfold runB at he
    split at he
    · rename_i hok
      obtain ⟨s1, h1, h2⟩ := Option.bind_eq_some_iff.1 he
      exact ih (h.step (okB_allowed hok) h1) h2
    · cases he

/-- What is looked at in examples. -/
structure Seen where
  pc : Pc
  timer : Int
  tr : List Ev
deriving DecidableEq

def State.seen (s : State) : Seen := ⟨s.pc, s.timer, s.tr⟩

theorem reach_seen {l : List Op} {v : Seen} (h : (runB (State.init 10 fun _ => false) l).map State.seen = some v) :
    ∃ s, Reach s ∧ s.seen = v := by
  obtain ⟨s, h1, h2⟩ := Option.map_eq_some_iff.1 h
  exact ⟨s, reach_runB (.init 10 _ (by omega)) l h1, h2⟩

/-- Steps of the background thread. -/
def L (n : Nat) : List Op := List.replicate n .loop

/-! ## C68 -/

/-- No call of `schedule`, `schedule_at`, `async_cancel`, no callback result and no step of the background
thread aborts the program, in any state that callers who follow the rules can reach. -/
theorem C68_no_abort {s : State} (h : Reach s) {o : Op} (ha : Allowed s o) : ∃ s', s.step o = some s' := by
  obtain ⟨s', h1, _⟩ := inv_step (reach_inv h) ha
  exact ⟨s', h1⟩

/-- A task runs (other than to continue after a pause) only if the last request was to schedule it, and only
when the time given there has come. It is reported as cancelled only if the last request was a
cancellation. -/
theorem C68_obeys {s : State} (h : Reach s) : Obeys s.tr := (reach_inv h).g.starts

/-- A task is never completed more often than it was scheduled. -/
theorem C68_once {s : State} (h : Reach s) (t : Nat) : nDone t s.tr ≤ nSched t s.tr := ((reach_inv h).at t).cnt'

/-- While a task waits to be run there is a call that asked for it: a task that is idle owes nothing. -/
theorem C68_idle {s : State} (h : Reach s) (t : Nat) (hc : (s.task t).st = .completed) : owed t s.tr = false :=
  ((reach_inv h).at t).ow hc

theorem reach_loops {s : State} (h : Reach s) : ∀ n {s'}, s.run (List.replicate n .loop) = some s' → Reach s' := by
  intro n
  induction n generalizing s with
  | zero => intro s' he; rw [← Option.some.inj he]; exact h
  | succ n ih =>
    intro s' he
    rw [List.replicate_succ] at he
    obtain ⟨s1, h1, h2⟩ := Option.bind_eq_some_iff.1 he
    exact ih (h.step (o := .loop) trivial h1) h2

/-- From every reachable state the background thread, left alone, after finitely many steps and without
waiting either runs a task function or sleeps with the timer in the future (or off). -/
theorem C68_settles {s : State} (h : Reach s) :
    ∃ n s', s.run (List.replicate n .loop) = some s' ∧ Reach s' ∧ s'.now = s.now ∧
      ((∃ t, s'.pc = .exec t) ∨ (s'.pc = .asleep ∧ (s'.timer < 0 ∨ s'.now < s'.timer))) := by
  obtain ⟨n, s', h1, h2, _, h4⟩ := settles_all (reach_inv h)
  refine ⟨n, s', h1, reach_loops h n h1, h2, h4.imp id fun c => ⟨c.1, ?_⟩⟩
  have := c.2
  omega

/-- No task is slept through: whenever the thread sleeps with the timer in the future or off, every task
that was scheduled and not completed since is paused or its deadline is in the future. -/
theorem C68_no_oversleep {s : State} (h : Reach s) (hpc : s.pc = .asleep) (hq : s.timer < 0 ∨ s.now < s.timer) (t : Nat)
    (ho : owed t s.tr = true) : (s.task t).paused = true ∨ ∃ d, lastReq t s.tr = some d ∧ s.now < d := by
  have hi := reach_inv h
  have hst : (s.task t).st ≠ .completed := by
    intro c
    have := (hi.at t).ow c
    simp [ho] at this
  rcases quiet hi hpc (by omega) t hst with c | c
  · exact .inl c
  · exact .inr ⟨_, c⟩

/-- No request is lost, also if it comes while the task runs: whenever the thread sleeps, every task that was
scheduled and since then neither started nor reported as cancelled is paused, was cancelled later, or its
deadline is in the future. -/
theorem C68_no_loss {s : State} (h : Reach s) (hpc : s.pc = .asleep) (hq : s.timer < 0 ∨ s.now < s.timer) (t : Nat)
    (ho : pending t s.tr = true) :
    (s.task t).paused = true ∨ lastReq t s.tr = some (-1) ∨ ∃ d, lastReq t s.tr = some d ∧ s.now < d := by
  have hi := reach_inv h
  by_cases hst : (s.task t).st = .completed
  · right; left
    have h1 := (hi.at t).pe1 hst ho
    simp only at h1
    by_cases hx : (s.task t).exec = true
    · have := (hi.at t).rq hx
      simp only at this
      rw [this, h1]
    · have := (hi.at t).neverRen (by simpa using hx) hst
      simp [ho] at this
  · rcases quiet hi hpc (by omega) t hst with c | c
    · exact .inl c
    · exact .inr (.inr ⟨_, c⟩)

/-- The sleep ends not later than the deadline of any waiting task. -/
theorem C68_timer {s : State} (h : Reach s) (hpc : s.pc = .asleep) (t : Nat) (d : Int) (ho : owed t s.tr = true)
    (hp : (s.task t).paused = false) (hd : lastReq t s.tr = some d) (hd0 : 0 ≤ d) : 0 ≤ s.timer ∧ s.timer ≤ d := by
  have hi := reach_inv h
  have hv := hi.at t
  have hst : (s.task t).st ≠ .completed := by
    intro c
    have := hv.ow c
    simp [ho] at this
  have hrq := (hv.ex hst).2
  simp only at hrq
  rw [hd] at hrq
  have hdd : d = (s.task t).renDl := Option.some.inj hrq
  obtain ⟨h1, h2⟩ := hi.g.tmr hpc
  by_cases hre : s.ready = []
  · have hsl : (s.task t).st = .sleeping := by
      rcases hv.st with c | c | c | c
      · have := (hi.readyIff t).2 c; rw [hre] at this; cases this
      · exact c
      · have := hv.proc c; simp [hpc] at this
      · exact absurd c hst
    obtain ⟨a1, a2, a3⟩ := hv.slp hsl hp
    simp only [decide_eq_true_eq] at a1 a2
    have := h2 t a1
    omega
  · have := h1 hre
    omega

/-- Task 0 is scheduled for time 20, task 1 for 15 and then cancelled, task 2 at once; task 2 is scheduled
again while it runs. The thread has run task 2 twice and sleeps until 20. -/
def hist : List Op :=
  [.schedule 0 20, .schedule 1 15, .schedule 2 0] ++ L 9 ++ [.schedule 2 0, .cancel 1, .finish .success] ++ L 9 ++
    [.finish .success] ++ L 8

example : ∃ s, Reach s ∧ s.seen = ⟨.asleep, 20, [.done 1 true, .done 2 false, .start 2 10 false, .done 2 false, .cancel 1, .sched 2 0,
    .start 2 10 false, .sched 2 0, .sched 1 15, .sched 0 20]⟩ :=
  reach_seen (l := hist) (by decide +kernel)

/-! ## C69 -/

/-- As long as `resume` is called only for tasks that are paused or run for the first time, tasks that were
resumed while they ran do not complete, and tasks resumed from a pause do not pause again: a paused task
that was resumed is not forgotten. Whenever the background thread sleeps, no paused task has a `resume` that
it has not followed. -/
theorem C69_resume_partial {s : State} (h : Reach s) (hpc : s.pc = .asleep) (hq : s.timer < 0 ∨ s.now < s.timer) (t : Nat)
    (hp : (s.task t).paused = true) : wakened t s.tr = false := by
  have hi := reach_inv h
  have hv := hi.at t
  obtain ⟨h1, _⟩ := hi.g.tmr hpc
  have hnow := hi.g.now
  have hre : s.ready = [] := by
    by_contra c
    have := h1 c
    omega
  cases hw : wakened t s.tr with
  | false => rfl
  | true =>
    have hrs := hv.rs
    simp only [hw] at hrs
    have := (hi.readyIff t).2 (hv.res (.inl hp) hrs)
    rw [hre] at this; cases this

/-- Task 0 pauses, is resumed, continues, and completes. -/
example : ∃ s, Reach s ∧ s.seen = ⟨.asleep, -1, [.done 0 false, .start 0 10 true, .resume 0, .start 0 10 false, .sched 0 0]⟩ :=
  reach_seen (l := [.schedule 0 0] ++ L 3 ++ [.finish .pause] ++ L 8 ++ [.resume 0] ++ L 8 ++ [.finish .success] ++ L 8) (by decide +kernel)

/-- A task that sleeps paused. -/
example : ∃ s, Reach s ∧ s.seen = ⟨.asleep, -1, [.start 0 10 false, .sched 0 0]⟩ :=
  reach_seen (l := [.schedule 0 0] ++ L 3 ++ [.finish .pause] ++ L 4) (by decide +kernel)

/-- A cancellation that comes while the task runs is lost if the task then pauses: it stays paused, nothing
is reported, and the thread sleeps for ever. This history follows all the rules. -/
theorem C69_cancel_lost_fails : ∃ s, Reach s ∧ s.pc = .asleep ∧ s.timer = -1 ∧ s.ready = [] ∧ lastReq 0 s.tr = some (-1) ∧
    owed 0 s.tr = true ∧ (s.task 0).paused = true ∧ nDone 0 s.tr = 0 := by
  have hr : ((runB (State.init 10 fun _ => false) ([.schedule 0 0] ++ L 3 ++ [.cancel 0, .finish .pause] ++ L 8)).map fun s =>
      (decide (s.pc = .asleep ∧ s.timer = -1 ∧ s.ready = [] ∧ lastReq 0 s.tr = some (-1) ∧
        owed 0 s.tr = true ∧ (s.task 0).paused = true ∧ nDone 0 s.tr = 0))) = some true := by decide +kernel
  obtain ⟨s, h1, h2⟩ := Option.map_eq_some_iff.1 hr
  exact ⟨s, reach_runB (.init 10 _ (by omega)) _ h1, by simpa using h2⟩

/-- The history of a witness without the rules. -/
def any (l : List Op) : Option State := (State.init 10 fun _ => false).run l

/-- A task that pauses, is resumed, and pauses again aborts the program. -/
theorem C69_pause_twice_fails :
    (any ([.schedule 0 0] ++ L 3 ++ [.finish .pause] ++ L 8 ++ [.resume 0] ++ L 8)).isSome = true ∧
    any ([.schedule 0 0] ++ L 3 ++ [.finish .pause] ++ L 8 ++ [.resume 0] ++ L 8 ++ [.finish .pause]) = none := by
  have h2 : (any ([.schedule 0 0] ++ L 3 ++ [.finish .pause] ++ L 8 ++ [.resume 0] ++ L 8 ++ [.finish .pause])).isSome = false := by
    decide +kernel
  exact ⟨by decide +kernel, by simpa using h2⟩

/-- A task that is resumed while it runs and then completes is run a second time, though it was scheduled
once. -/
theorem C69_resume_running_fails : (any ([.schedule 0 0] ++ L 3 ++ [.resume 0, .finish .success] ++ L 8)).map (·.tr) =
    some [.start 0 10 false, .done 0 false, .resume 0, .start 0 10 false, .sched 0 0] := by decide +kernel

/-- Resuming a task that has completed runs it again. -/
theorem C69_resume_completed_fails :
    (any ([.schedule 0 0] ++ L 3 ++ [.finish .success] ++ L 8 ++ [.resume 0] ++ L 8)).map (·.tr) =
    some [.start 0 10 false, .resume 0, .done 0 false, .start 0 10 false, .sched 0 0] := by decide +kernel

/-- Resuming a task that was cancelled, or that was never scheduled, aborts the program. -/
theorem C69_resume_cancelled_fails :
    any ([.schedule 0 20] ++ L 8 ++ [.cancel 0] ++ L 8 ++ [.resume 0] ++ L 8) = none ∧ any ([.resume 0] ++ L 8) = none := by
  have h1 : (any ([.schedule 0 20] ++ L 8 ++ [.cancel 0] ++ L 8 ++ [.resume 0] ++ L 8)).isSome = false := by decide +kernel
  have h2 : (any ([.resume 0] ++ L 8)).isSome = false := by decide +kernel
  exact ⟨by simpa using h1, by simpa using h2⟩

/-- A task that was paused, resumed and completed is still linked in the queue of paused tasks: destroying it
aborts the program (roc_core/list_impl.h, `ListNode::~ListNode`). This history follows all the rules. -/
theorem C69_still_linked_fails : ∃ s, Reach s ∧ (s.task 0).st = .completed ∧ s.pc = .asleep ∧ 0 ∈ s.paused := by
  have hr : ((runB (State.init 10 fun _ => false) ([.schedule 0 0] ++ L 3 ++ [.finish .pause] ++ L 8 ++ [.resume 0] ++ L 8 ++ [.finish .success] ++ L 8)).map fun s =>
      (decide ((s.task 0).st = .completed ∧ s.pc = .asleep ∧ 0 ∈ s.paused))) = some true := by decide +kernel
  obtain ⟨s, h1, h2⟩ := Option.map_eq_some_iff.1 hr
  exact ⟨s, reach_runB (.init 10 _ (by omega)) _ h1, by simpa using h2⟩

end Verif.TaskQueue
