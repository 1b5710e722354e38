/-!
# Control task queue

Model of `src/internal_modules/roc_ctl/control_task_queue.cpp` and `control_task.{h,cpp}`.

A state machine of any number of tasks, the three queues, the wakeup timer, and the background thread
with its program counter. API calls happen at any moment between two steps of the background thread
(also while a task function runs). Simplifications:
* each API call and each step of the background thread is atomic, so the retries in
  `fetch_ready_task_` (741-751, 762-775), failing `try_load_v` and failing `try_set_deadline` do not occur;
* `try_lock` succeeds exactly when the background thread is in `wait_deadline`;
* versions of the renewed deadline are unbounded (in the code: 32 bit, compared for equality only);
* the timer is what C54 shows of it: `wait_deadline` returns once `0 ≤ deadline ≤ now`;
* `wait()`, stopping and logging are left out. `none` is an abort.
* `tr` is a ghost: the calls and the callbacks so far, newest first.
-/

namespace Verif.TaskQueue

/-- `ControlTask::State` (roc_ctl/control_task.h:90-109). -/
inductive St where
  | ready | sleeping | cancelling | processing | completing | completed
deriving DecidableEq, Repr

/-- `ControlTaskResult` (roc_ctl/control_task.h:33-46). -/
inductive Res where
  | success | failure | again | pause
deriving DecidableEq, Repr

/-- Fields of `ControlTask` (roc_ctl/control_task.h:111-169): state, four flags, renewed and effective
deadline with versions, whether the executor is set, whether there is a completer. -/
structure Task where
  st : St
  succ : Bool
  paused : Bool
  resumed : Bool
  cancelled : Bool
  renDl : Int
  renVer : Nat
  effDl : Int
  effVer : Nat
  exec : Bool
  comp : Bool
deriving DecidableEq, Repr

/-- `ControlTask::ControlTask` (control_task.h:70-87). -/
def Task.init (comp : Bool) : Task := ⟨.completed, false, false, false, false, 0, 0, 0, 0, false, comp⟩

/-- `ControlTask::validate_flags` (control_task.cpp:44-61): at most one of three flags. -/
def Task.flagsOk (k : Task) : Bool := !((k.succ && k.cancelled) || (k.succ && k.paused) || (k.cancelled && k.paused))

/-- What happened (ghost). (Part of the model of roc_ctl/control_task_queue.cpp:17-877.) -/
inductive Ev where
  /-- `schedule_at(t, d)`; `schedule` is `d = 0` -/
  | sched (t : Nat) (d : Int)
  /-- `async_cancel(t)` -/
  | cancel (t : Nat)
  /-- `resume(t)` -/
  | resume (t : Nat)
  /-- the function of `t` is called at time `now`; `resumed` if the task was paused -/
  | start (t : Nat) (now : Int) (resumed : Bool)
  /-- `t` is completed or cancelled (the completer, if any, is called); what `cancelled()` tells -/
  | done (t : Nat) (cancelled : Bool)
deriving DecidableEq, Repr

/-- Position of the background thread. (Part of the model of roc_ctl/control_task_queue.cpp:17-877.) -/
inductive Pc where
  /-- in `wait_deadline` (control_task_queue.cpp:98), the mutex is free -/
  | asleep
  /-- about to enter `fetch_task_` (682) -/
  | top
  /-- in the loop of `fetch_ready_task_` (721-802); the argument tells if it is tried first -/
  | rdy (first : Bool)
  /-- about to call `fetch_sleeping_task_` (804-825) -/
  | slp (first : Bool)
  /-- the function of the task runs (600) -/
  | exec (t : Nat)
  /-- about to call `update_wakeup_timer_` (685) -/
  | update
deriving DecidableEq, Repr

/-- Fields of `ControlTaskQueue` (control_task_queue.h:274-281), the tasks, the clock. -/
structure State where
  task : Nat → Task
  ready : List Nat
  size : Int
  sleeping : List Nat
  paused : List Nat
  fetchReady : Bool
  timer : Int
  now : Int
  pc : Pc
  tr : List Ev

/-- Constructor (control_task_queue.cpp:17-23); `comp t` tells if task `t` has a completer. -/
def State.init (now : Int) (comp : Nat → Bool) : State :=
  ⟨fun t => Task.init (comp t), [], 0, [], [], true, 0, now, .asleep, []⟩

/-- Change of one task. (Part of the model of roc_ctl/control_task_queue.cpp:17-877.) -/
def State.set (s : State) (t : Nat) (k : Task) : State :=
  { s with task := fun i => if i = t then k else s.task i }

/-- Ghost event. (Part of the model of roc_ctl/control_task_queue.cpp:17-877.) -/
def State.ev (s : State) (e : Ev) : State := { s with tr := e :: s.tr }

/-- `update_wakeup_timer_` (control_task_queue.cpp:851-877). -/
def State.updateTimer (s : State) : State :=
  { s with timer :=
      if s.size = 0 then match s.sleeping with
        | [] => -1
        | t :: _ => (s.task t).effDl
      else 0 }

/-- `insert_sleeping_task_` (control_task_queue.cpp:827-843), without the two checks: before the first task
with a later deadline. -/
def insertBy (dl : Nat → Int) (t : Nat) : List Nat → List Nat
  | [] => [t]
  | x :: l => if dl x > dl t then t :: x :: l else x :: insertBy dl t l

/-- `insert_sleeping_task_` (827-843); aborts for a deadline that is not positive (828) or a task that is in
a list (roc_core/list_impl.cpp:91). -/
def State.insertSleeping (s : State) (t : Nat) : Option State :=
  if ¬ (s.task t).effDl > 0 then none
  else if t ∈ s.sleeping ∨ t ∈ s.paused then none
  else some { s with sleeping := insertBy (fun i => (s.task i).effDl) t s.sleeping }

/-- `remove_sleeping_task_` if the task is in the queue (845-849, 389-391, 433-435). -/
def State.dropSleeping (s : State) (t : Nat) : Option State :=
  if t ∈ s.sleeping then
    if ¬ (s.task t).effDl > 0 then none else some { s with sleeping := s.sleeping.erase t }
  else some s

/-- Removal from the queue of paused tasks if the task is there (385-387, 429-431). -/
def State.dropPaused (s : State) (t : Nat) : State :=
  if t ∈ s.paused then { s with paused := s.paused.erase t } else s

/-- `complete_task_` (control_task_queue.cpp:472-522): `from` to completing, then completing to completed,
each only if the state is the expected one; the completer is called in any case. -/
def State.complete (s : State) (t : Nat) (src : St) : Option State :=
  let k := s.task t
  if k.paused then none
  else
    let k := if k.st = src then { k with st := .completing } else k
    let k := if k.st = .completing then { k with st := .completed } else k
    some ((s.set t k).ev (.done t k.cancelled))

/-- `cancel_task_` (control_task_queue.cpp:408-443). -/
def State.cancelTask (s : State) (t : Nat) (ver : Nat) : Option State :=
  let k := s.task t
  if k.effDl = -1 ∧ k.effVer = ver then none
  else
    ((s.dropPaused t).dropSleeping t).bind fun s =>
      let k := s.task t
      let k := { k with succ := false, paused := false, resumed := false, cancelled := true, effDl := -1, effVer := ver }
      (s.set t k).complete t .cancelling

/-- `reschedule_task_` (control_task_queue.cpp:374-406). The second component is `is_ready`. -/
def State.reschedule (s : State) (t : Nat) (dl : Int) (ver : Nat) : Option (State × Bool) :=
  ((s.dropPaused t).dropSleeping t).bind fun s =>
    let k := s.task t
    let s := s.set t { k with effDl := dl, effVer := ver }
    if dl = 0 then some (s, true) else (s.insertSleeping t).map fun s => (s, false)

/-- `renew_state_` (control_task_queue.cpp:306-335): the next state. -/
def Task.renewed (k : Task) (dl : Int) : St :=
  if k.paused then if dl < 0 then .cancelling else if k.resumed then .processing else .sleeping
  else if dl < 0 then .cancelling else if dl = 0 then .processing else .sleeping

/-- `renew_state_` (306-335), then `renew_scheduling_` (337-372); both are given the flags read before. -/
def State.renew (s : State) (t : Nat) (dl : Int) (ver : Nat) : Option (State × Bool) :=
  let k := s.task t
  if k.st ≠ .ready then none
  else
    let s := s.set t { k with st := k.renewed dl }
    if dl ≥ 0 then
      if k.paused then some (s, k.resumed)
      else s.reschedule t dl ver
    else (s.cancelTask t ver).map fun s => (s, false)

/-- The rest of `request_renew_guarded_` (control_task_queue.cpp:250-264) once the task is in state ready,
with `try_renew_inplace_` (266-304). -/
def State.enqueue (s : State) (t : Nat) (dl : Int) : Option State :=
  let k := s.task t
  let s := { s with size := s.size + 1 }
  if s.size = 1 ∧ (dl > 0 ∨ (dl < 0 ∧ ¬ k.comp)) ∧ s.pc = .asleep ∧ (¬ k.paused ∨ (dl < 0 ∧ ¬ k.comp)) then
    (s.renew t dl k.renVer).map fun r => { r.1 with size := r.1.size - 1 }.updateTimer
  else some { s with ready := s.ready ++ [t], timer := 0 }

/-- `request_renew_` (control_task_queue.cpp:175-264). -/
def State.requestRenew (s : State) (t : Nat) (dl : Int) : Option State :=
  let k := s.task t
  let k := { k with renDl := dl, renVer := k.renVer + 1 }
  let s := s.set t k
  if dl < 0 then
    if k.st = .sleeping then (s.set t { k with st := .ready }).enqueue t dl
    else some s
  else if ¬ k.flagsOk then none
  else if k.paused then some s
  else if k.st = .ready then some s
  else (s.set t { k with st := .ready }).enqueue t dl

/-- `schedule`, `schedule_at` (control_task_queue.cpp:33-68, 123-143), always with the same executor and
completer. -/
def State.schedule (s : State) (t : Nat) (dl : Int) : Option State :=
  if dl < 0 then none
  else
    let k := s.task t
    ((s.set t { k with exec := true }).ev (.sched t dl)).requestRenew t dl

/-- `async_cancel` (control_task_queue.cpp:78-84). -/
def State.cancel (s : State) (t : Nat) : Option State := (s.ev (.cancel t)).requestRenew t (-1)

/-- `resume` (control_task_queue.cpp:70-76, 145-173). -/
def State.resume (s : State) (t : Nat) : Option State :=
  let s := s.ev (.resume t)
  let k := s.task t
  if k.flagsOk = false then none
  else if k.resumed then some s
  else if k.st = .ready then some (s.set t { k with resumed := true })
  else some { s.set t { k with resumed := true, st := .ready } with
    size := s.size + 1, ready := s.ready ++ [t], timer := 0 }

/-- `reborn_task_` (control_task_queue.cpp:445-457). -/
def State.reborn (s : State) (t : Nat) (src : St) : State :=
  let k := s.task t
  if k.st = src then { s.set t { k with st := .ready } with size := s.size + 1, ready := s.ready ++ [t] }
  else s

/-- `execute_task_` up to the call of the function (control_task_queue.cpp:577-600). -/
def State.start (s : State) (t : Nat) : Option State :=
  let k := s.task t
  if k.effDl < 0 ∨ ¬ k.exec then none
  else
    let k' := { k with succ := false, cancelled := false, resumed := false }
    if ¬ k'.flagsOk then none
    else some { (s.set t k').ev (.start t s.now k.paused) with pc := .exec t }

/-- `execute_task_` after the function has returned (control_task_queue.cpp:602-675). -/
def State.finish (s : State) (r : Res) : Option State :=
  match s.pc with
  | .exec t =>
    let k := s.task t
    match r with
    | .pause =>
      let k := { k with paused := true }
      if ¬ k.flagsOk then none
      else
        let k := if k.st = .processing then { k with st := .sleeping } else k
        if t ∈ s.sleeping ∨ t ∈ s.paused then none
        else
          let s := { s.set t k with paused := s.paused ++ [t], pc := .top }
          some (if k.renDl < 0 then s.reborn t .processing else s)
    | .again =>
      let k := { k with paused := false }
      if ¬ k.flagsOk then none
      else some ({ s.set t k with pc := .top }.reborn t .processing)
    | r =>
      let renewed := k.renVer ≠ k.effVer ∧ k.renDl ≥ 0
      let k := { k with succ := decide (r = .success), paused := false, resumed := false, cancelled := false }
      ((s.set t k).complete t .processing).map fun s =>
        { (if renewed then s.reborn t .completed else s) with pc := .top }
  | _ => some s

/-- One step of the background thread other than the task function (control_task_queue.cpp:94-103, 678-825,
851-877). -/
def State.loop (s : State) : Option State :=
  match s.pc with
  | .asleep => some (if 0 ≤ s.timer ∧ s.timer ≤ s.now then { s with pc := .top } else s)
  | .top => some { s with pc := if s.fetchReady then .rdy true else .slp true }
  | .rdy first =>
    match s.ready with
    | [] => some { s with pc := if first then .slp false else .update }
    | t :: rest =>
      let s := { s with ready := rest }
      let k := s.task t
      if ¬ k.flagsOk then none
      else
        (s.renew t k.renDl k.renVer).bind fun r =>
          let s := { r.1 with size := r.1.size - 1 }
          if r.2 then { s with fetchReady := if first then !s.fetchReady else s.fetchReady }.start t
          else some s
  | .slp first =>
    let skip := some { s with pc := if first then .rdy false else .update }
    match s.sleeping with
    | [] => skip
    | t :: _ =>
      let k := s.task t
      if k.effDl > s.now then skip
      else
        (s.dropSleeping t).bind fun s =>
          if k.st ≠ .sleeping then some { s with pc := if first then .rdy false else .update }
          else
            { s.set t { k with st := .processing } with
              fetchReady := if first then !s.fetchReady else s.fetchReady }.start t
  | .exec _ => some s
  | .update =>
    let s := s.updateTimer
    some { s with pc := if s.timer = 0 then .top else .asleep }

/-- What can happen next. (Part of the model of roc_ctl/control_task_queue.cpp:17-877.) -/
inductive Op where
  | schedule (t : Nat) (dl : Int)
  | cancel (t : Nat)
  | resume (t : Nat)
  | tick (dt : Nat)
  | loop
  | finish (r : Res)
deriving DecidableEq, Repr

/-- Dispatch. (Part of the model of roc_ctl/control_task_queue.cpp:17-877.) -/
def State.step (s : State) : Op → Option State
  | .schedule t dl => s.schedule t dl
  | .cancel t => s.cancel t
  | .resume t => s.resume t
  | .tick dt => some { s with now := s.now + dt }
  | .loop => s.loop
  | .finish r => s.finish r

/-- A history. (Part of the model of roc_ctl/control_task_queue.cpp:17-877.) -/
def State.run (s : State) : List Op → Option State
  | [] => some s
  | o :: l => (s.step o).bind fun s => s.run l

end Verif.TaskQueue
