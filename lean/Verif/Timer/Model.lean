/-!
# Thread timer

Model of `src/internal_modules/roc_core/timer.cpp` as a transition system: any number of threads
calling `try_set_deadline`, one thread in `wait_deadline`, a monotonic clock. Memory is
sequentially consistent. The two seqlocks are modelled by what C19 shows of them: a store
makes the cell busy, then publishes; `wait_load` waits while the cell is busy; `try_load` fails
while it is busy (and may fail spuriously); `try_store` fails while another store is in progress.
The semaphore is a counter; a timed wait may also end once the clock has reached its deadline.
-/

namespace Verif.Timer

/-- A thread in `try_set_deadline` (timer.cpp:22-40). -/
inductive Setter where
  | idle
  /-- inside the store of `deadline_` (23) -/
  | storing (v : Int)
  /-- about to load `next_wakeup_` and to decide (29-33) -/
  | check (v : Int)
  /-- about to exchange `sem_post_flag_` (34) -/
  | cas
  /-- about to post the semaphore (35) -/
  | post
deriving DecidableEq, Repr

/-- The thread in `wait_deadline` (timer.cpp:42-63). -/
inductive Waiter where
  /-- not in `wait_deadline` -/
  | out
  /-- about to begin, inside of, the store of -1 to `next_wakeup_` (44) -/
  | reset | resetting
  /-- about to load the deadline (46) -/
  | load
  /-- has the deadline, about to decide (48-52) -/
  | check (d : Int)
  /-- about to begin, inside of, the store of the deadline to `next_wakeup_` (53) -/
  | planA (d : Int) | planB (d : Int)
  /-- in `timed_wait` (54) or, for `none`, in `wait` (56) -/
  | sleep (plan : Option Int)
  /-- about to reset `sem_post_flag_` (59) -/
  | woke
  /-- about to begin, inside of, the store of 0 to `next_wakeup_` (62) -/
  | exitA | exitB
deriving DecidableEq, Repr

/-- Fields of `Timer` (roc_core/timer.h) and the threads. (roc_core/timer.h:25-49) -/
structure State where
  now : Int
  sem : Nat
  flag : Bool
  dl : Int
  dlBusy : Option Nat
  nw : Int
  nwBusy : Bool
  setter : Nat → Setter
  waiter : Waiter

/-- Constructor (timer.cpp:15-20). -/
def State.init (now : Int) : State := ⟨now, 0, false, 0, none, 0, false, fun _ => .idle, .out⟩

/-- Program counter update. (Part of the model of roc_core/timer.cpp:15-63.) -/
def upd (f : Nat → Setter) (t : Nat) (v : Setter) : Nat → Setter := fun k => if k = t then v else f k

/-- Scheduler choices. (Part of the model of roc_core/timer.cpp:15-63.) -/
inductive Step where
  /-- time passes -/
  | tick (dt : Nat)
  /-- thread `t` calls `try_set_deadline(v)` -/
  | set (t : Nat) (v : Int)
  /-- thread `t` takes its next step; `spurious` makes `try_load` fail -/
  | run (t : Nat) (spurious : Bool)
  /-- the waiter calls `wait_deadline` -/
  | wait
  /-- the waiter takes its next step; `timeout` selects how a sleep ends -/
  | runW (timeout : Bool)
deriving DecidableEq, Repr

/-- One step of a thread in `try_set_deadline` (timer.cpp:22-40). -/
def State.runSetter (s : State) (t : Nat) (spurious : Bool) : State :=
  match s.setter t with
  | .idle => s
  | .storing v => { s with dl := v, dlBusy := none, setter := upd s.setter t (.check v) }
  | .check v =>
    let x := if s.nwBusy || spurious then -1 else s.nw
    if x < 0 ∨ (v ≥ 0 ∧ v < x) then { s with setter := upd s.setter t .cas }
    else { s with setter := upd s.setter t .idle }
  | .cas =>
    if s.flag = false then { s with flag := true, setter := upd s.setter t .post }
    else { s with setter := upd s.setter t .idle }
  | .post => { s with sem := s.sem + 1, setter := upd s.setter t .idle }

/-- One step of the waiter in `wait_deadline` (timer.cpp:42-63). -/
def State.runWaiter (s : State) (timeout : Bool) : State :=
  match s.waiter with
  | .out => s
  | .reset => { s with nwBusy := true, waiter := .resetting }
  | .resetting => { s with nw := -1, nwBusy := false, waiter := .load }
  | .load => if s.dlBusy = none then { s with waiter := .check s.dl } else s
  | .check d =>
    if d ≥ 0 ∧ d ≤ s.now then { s with waiter := .exitA }
    else if d > 0 then { s with waiter := .planA d }
    else { s with waiter := .sleep none }
  | .planA d => { s with nwBusy := true, waiter := .planB d }
  | .planB d => { s with nw := d, nwBusy := false, waiter := .sleep (some d) }
  | .sleep plan =>
    if timeout then
      match plan with
      | some d => if d ≤ s.now then { s with waiter := .woke } else s
      | none => s
    else if s.sem > 0 then { s with sem := s.sem - 1, waiter := .woke } else s
  | .woke => { s with flag := false, waiter := .reset }
  | .exitA => { s with nwBusy := true, waiter := .exitB }
  | .exitB => { s with nw := 0, nwBusy := false, waiter := .out }

/-- One step of the system. (Part of the model of roc_core/timer.cpp:15-63.) -/
def State.step (s : State) : Step → State
  | .tick dt => { s with now := s.now + dt }
  | .set t v =>
    match s.setter t with
    | .idle => if s.dlBusy = none then { s with dlBusy := some t, setter := upd s.setter t (.storing v) } else s
    | _ => s
  | .run t sp => s.runSetter t sp
  | .wait => match s.waiter with
    | .out => { s with waiter := .reset }
    | _ => s
  | .runW to => s.runWaiter to

/-- Reachable states; the monotonic clock is not negative. (roc_core/timer.h:25-49) -/
inductive Reach : State → Prop where
  | init (now : Int) : 0 ≤ now → Reach (State.init now)
  | step {s : State} (st : Step) : Reach s → Reach (s.step st)

end Verif.Timer
