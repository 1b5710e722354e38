/-!
# Pipeline loop

Model of the task scheduling of `src/internal_modules/roc_pipeline/pipeline_loop.cpp` as a transition system: each step is one access to shared data
(an atomic, a mutex, the task queue, the seqlock) or one call of user code (a task, the scheduler).

Threads: one for each call of `schedule` or `schedule_and_wait` (named after the task), any number of threads that process frames, and the thread of the
scheduler, which calls `process_tasks` after it was asked for (roc_node/sender.cpp:544-551: the task runs on the control thread).

Simplifications: the queue is a list (C18 is about its implementation) whose `try_pop_front_exclusive` may return NULL at any time; time is replaced by free choices
(whether tasks are allowed at a moment, how many tasks are executed within a frame); an exclusive store to a seqlock makes `try_load` fail at any time (C19 is about the seqlock);
statistics (except for the mutex taken for reporting them), semaphores and completers are left out.
-/

namespace Verif.PipelineLoop

/-- Threads: a call of `schedule` or `schedule_and_wait`, a thread that processes frames, the thread of the scheduler (part of the model of roc_pipeline/pipeline_loop.cpp:22-331). -/
inductive Tid
  | task (i : Nat)
  | frame (j : Nat)
  | proc
deriving DecidableEq

/-- `ProcState` (pipeline_loop.h:312). -/
inductive PSt
  | notScheduled
  | scheduled
  | running
deriving DecidableEq

/-- Where a cancellation continues: before a frame (pipeline_loop.cpp:205, 225) or at the end of an operation (pipeline_loop.cpp:314). -/
inductive Ret
  | lock
  | fin
deriving DecidableEq

/-- Program counters: what the thread does next. (Part of the model of roc_pipeline/pipeline_loop.cpp:22-331.) -/
inductive PC
  | idle
  | done
  -- schedule_and_maybe_process_task_
  | load1
  | allow
  | pushOnly
  | pushCheck
  | chkFrames
  | tryLock
  | exec
  | decr
  | rdFrames
  | unlockA (n : Nat)
  | chkA (n : Nat)
  -- schedule_async_task_processing_
  | s0
  | s1
  | s2
  | s3
  | s4
  | s5
  -- cancel_async_task_processing_
  | c0 (r : Ret)
  | c1 (r : Ret)
  | c2 (r : Ret)
  | c3 (r : Ret)
  -- process_subframes_and_tasks
  | fLock
  | fBody
  | fHand (i : Nat)
  | fDecr
  | fStat0
  | fStat1
  | fUnlock
  | fDec
  | fChk (zero : Bool)
  -- process_tasks
  | p1
  | p2
  | p3
  | p4
  | p5
  | p6
  | pHand (i : Nat)
  | pDecr
  | p7 (n : Nat)
  | p8 (n : Nat)
  | p9 (r : Bool)
  | p10 (r : Bool)
deriving DecidableEq

/-- Shared data (pipeline_loop.h:353-374) and ghost variables: `armed` is set while the scheduler has been asked for a call of `process_tasks` that has not begun;
`sched` and `executed` are the tasks scheduled and executed so far. -/
structure G where
  pend : Nat
  frames : Nat
  pst : PSt
  armed : Bool
  pm : Option Tid
  sm : Option Tid
  queue : List Nat
  executed : List Nat
  sched : List Nat
  pc : Tid → PC

/-- Constructor (pipeline_loop.cpp:22-42). -/
def init : G := ⟨0, 0, .notScheduled, false, none, none, [], [], [], fun _ => .idle⟩

/-- Free choices of a step: `try_load` succeeds; tasks are allowed; the queue gives an element if it has one; another task is executed within the frame. (Part of the model of roc_pipeline/pipeline_loop.cpp:22-331.) -/
structure Ch where
  load : Bool
  allow : Bool
  pop : Bool
  more : Bool

/-- Sets the program counter of a thread (part of the model of roc_pipeline/pipeline_loop.cpp:22-331). -/
def G.go (s : G) (t : Tid) (p : PC) : G := { s with pc := fun u => if u = t then p else s.pc u }

/-- After the end of an operation. (Part of the model of roc_pipeline/pipeline_loop.cpp:22-331.) -/
def fin : Tid → PC
  | .task _ => .done
  | _ => .idle

/-- `schedule_async_task_processing_` and `cancel_async_task_processing_` (pipeline_loop.cpp:280-331). -/
def stepS (s : G) (t : Tid) (ch : Ch) : PC → Option G
  | .s0 => some (s.go t (if ch.load then .s1 else fin t))                                         -- 281-284
  | .s1 => some (if s.sm = none then { s with sm := some t }.go t .s2 else s.go t (fin t))        -- 286-288
  | .s2 => some (if s.pst = .notScheduled then { s with armed := true }.go t .s3 else s.go t .s4) -- 290-306
  | .s3 => some ({ s with pst := .scheduled }.go t .s4)                                           -- 308
  | .s4 => some ({ s with sm := none }.go t .s5)                                                  -- 311
  | .s5 => some (s.go t (if s.frames ≠ 0 then .c0 .fin else fin t))                               -- 313-315
  | .c0 r => some (if s.sm = none then { s with sm := some t }.go t (.c1 r) else s.go t (match r with | .lock => .fLock | .fin => fin t)) -- 319-321
  | .c1 r => some (if s.pst = .scheduled then { s with armed := false }.go t (.c2 r) else s.go t (.c3 r)) -- 323-325
  | .c2 r => some ({ s with pst := .notScheduled }.go t (.c3 r))                                  -- 327
  | .c3 r => some ({ s with sm := none }.go t (match r with | .lock => .fLock | .fin => fin t))   -- 330
  | _ => none

/-- `schedule_and_maybe_process_task_` (pipeline_loop.cpp:93-140). -/
def stepT (s : G) (i : Nat) (ch : Ch) : PC → Option G
  | .idle => some ({ s with pend := s.pend + 1, sched := i :: s.sched }.go (.task i) (if s.pend + 1 ≠ 1 then .pushOnly else .load1)) -- 96
  | .load1 => some (s.go (.task i) (if ch.load then .allow else .pushOnly))                       -- 101-105
  | .allow => some (s.go (.task i) (if ch.allow then .tryLock else .pushCheck))                   -- 107
  | .pushOnly => some ({ s with queue := s.queue ++ [i] }.go (.task i) .done)                     -- 97, 103, 118
  | .pushCheck => some ({ s with queue := s.queue ++ [i] }.go (.task i) .chkFrames)               -- 108
  | .chkFrames => some (s.go (.task i) (if s.frames = 0 then .s0 else .done))                     -- 110-112
  | .tryLock => some (if s.pm = none then { s with pm := some (.task i) }.go (.task i) .exec else s.go (.task i) .pushOnly) -- 117-120
  | .exec => some ({ s with executed := i :: s.executed }.go (.task i) .decr)                     -- 122
  | .decr => some ({ s with pend := s.pend - 1 }.go (.task i) .rdFrames)                          -- 123
  | .rdFrames => some (s.go (.task i) (.unlockA s.frames))                                        -- 128
  | .unlockA n => some ({ s with pm := none }.go (.task i) (.chkA n))                             -- 133
  | .chkA n => some (s.go (.task i) (if n = 0 ∧ s.pend ≠ 0 then .s0 else .done))                  -- 135-137
  | _ => none

/-- `process_subframes_and_tasks` (pipeline_loop.cpp:195-278). -/
def stepF (s : G) (j : Nat) (ch : Ch) : PC → Option G
  | .idle => some ({ s with frames := s.frames + 1 }.go (.frame j) (.c0 .lock))                   -- 203, 221
  | .fLock => if s.pm = none then some ({ s with pm := some (.frame j) }.go (.frame j) .fBody) else none -- 207, 227
  | .fBody => match s.queue, ch.more with                                                         -- 238-265
    | i :: q, true => some ({ s with queue := q }.go (.frame j) (.fHand i))
    | _, _ => some (s.go (.frame j) .fStat0)
  | .fHand i => some ({ s with executed := i :: s.executed }.go (.frame j) .fDecr)                -- 250
  | .fDecr => some ({ s with pend := s.pend - 1 }.go (.frame j) .fBody)                           -- 251
  | .fStat0 => some (if ch.load ∧ s.sm = none then { s with sm := some (.frame j) }.go (.frame j) .fStat1 else s.go (.frame j) .fUnlock) -- 267, report_stats_ 462-470
  | .fStat1 => some ({ s with sm := none }.go (.frame j) .fUnlock)                                -- report_stats_
  | .fUnlock => some ({ s with pm := none }.go (.frame j) .fDec)                                  -- 211, 271
  | .fDec => some ({ s with frames := s.frames - 1 }.go (.frame j) (.fChk (s.frames - 1 == 0)))   -- 213, 273
  | .fChk z => some (s.go (.frame j) (if z = true ∧ s.pend ≠ 0 then .s0 else .idle))              -- 213-215, 273-275
  | _ => none

/-- `process_tasks` (pipeline_loop.cpp:142-193); the scheduler calls it after it was asked to. -/
def stepP (s : G) (ch : Ch) : PC → Option G
  | .idle => if s.armed then some ({ s with armed := false }.go .proc .p1) else none
  | .p1 => some (s.go .proc (if ch.load then .p2 else .p9 false))                                 -- 153-156
  | .p2 => some (if s.pm = none then { s with pm := some .proc }.go .proc .p3 else s.go .proc (.p9 false)) -- 158-160
  | .p3 => some ({ s with pst := .running }.go .proc .p4)                                         -- 162
  | .p4 => some (s.go .proc (if ch.allow then .p5 else .p7 0))                                    -- 167-169
  | .p5 => some (s.go .proc (if s.frames ≠ 0 then .p7 s.frames else .p6))                         -- 171-173
  | .p6 => match s.queue, ch.pop with                                                             -- 175-178
    | i :: q, true => some ({ s with queue := q }.go .proc (.pHand i))
    | _, _ => some (s.go .proc (.p7 0))
  | .pHand i => some ({ s with executed := i :: s.executed }.go .proc .pDecr)                     -- 180
  | .pDecr => some ({ s with pend := s.pend - 1 }.go .proc .p4)                                   -- 181
  | .p7 n => some ({ s with pm := none }.go .proc (.p8 n))                                        -- 190
  | .p8 n => some (s.go .proc (.p9 (n == 0 && s.pend != 0)))                                      -- 192
  | .p9 r => some ({ s with pst := .notScheduled }.go .proc (.p10 r))                             -- 145
  | .p10 r => some (s.go .proc (if r then .s0 else .idle))                                        -- 147-149
  | _ => none

/-- A step of a thread; `none` if it can't do one. (Part of the model of roc_pipeline/pipeline_loop.cpp:22-331.) -/
def step (s : G) (t : Tid) (ch : Ch) : Option G :=
  match stepS s t ch (s.pc t) with
  | some s' => some s'
  | none =>
    match t with
    | .task i => stepT s i ch (s.pc t)
    | .frame j => stepF s j ch (s.pc t)
    | .proc => stepP s ch (s.pc t)

/-- Any interleaving. (Part of the model of roc_pipeline/pipeline_loop.cpp:22-331.) -/
inductive Reach : G → Prop
  | init : Reach init
  | step {s s' : G} {t : Tid} {ch : Ch} : Reach s → step s t ch = some s' → Reach s'

/-- Run a given schedule; `none` if a step is impossible. (Part of the model of roc_pipeline/pipeline_loop.cpp:22-331.) -/
def runs (s : G) : List (Tid × Ch) → Option G
  | [] => some s
  | (t, ch) :: l => (step s t ch).bind fun s' => runs s' l

end Verif.PipelineLoop
