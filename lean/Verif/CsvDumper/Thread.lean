import Verif.CsvDumper.Model
import Verif.RateLimiter.Model

/-!
# Threads of the CSV dumper

Model of `src/internal_modules/roc_core/csv_dumper.cpp:17-138` as a transition system of any number of
threads that call `write`, `would_write` and `stop`, and of the background thread. A step is one access
to shared data: `stop_`, the mutex, the rate limiters (which the mutex guards), the ring buffer, the
semaphore. The ring buffer is a list, and pushing and popping are one step each: this is what C14 proves
of `SpscRingBuffer` for one writer at a time, which `C115_exclusive` provides. Writing a line to the file
may fail at any time. Memory is sequentially consistent.

Simplified: the clock is one natural number (nanoseconds), `Ticker` measures it exactly; the object was
constructed with success (the constructor is modelled apart); the type of an entry is an ASCII
character, so that `isalnum` is defined for it.
-/

namespace Verif.CsvDumper

/-- Calls of the interface (`csv_dumper.h:79-88`). -/
inductive Op where
  | write (e : Entry)
  | would (t : Char)
  | stop
deriving DecidableEq, Repr

/-- What became of a call. -/
inductive Ret where
  | none
  /-- `write` returned at line 57, 61 or 66. -/
  | skipped
  /-- `write` put the entry into the buffer. -/
  | pushed
  /-- `write` found the buffer full. -/
  | full
  /-- The result of `would_write`. -/
  | would (b : Bool)
  | stopped
deriving DecidableEq, Repr

/-- Where a calling thread is. -/
inductive Pc where
  /-- Outside of a call; the last one returned this. -/
  | ret (r : Ret)
  /-- Before `try_lock` (`csv_dumper.cpp:42,60`). -/
  | lock (op : Op)
  /-- Before the limiter (`csv_dumper.cpp:46,64`). -/
  | limit (op : Op)
  /-- Before `push_back` (`csv_dumper.cpp:69`); `g` is a ghost, the time of the grant. -/
  | push (e : Entry) (g : Nat)
  /-- Before `unlock` (`csv_dumper.cpp:48,65,71`). -/
  | unlock (r : Ret) (post : Bool)
  /-- Before `post` (`csv_dumper.cpp:72,77`). -/
  | post (r : Ret)
deriving DecidableEq, Repr

/-- Where the background thread is. -/
inductive DPc where
  /-- Before the load of `stop_` (`csv_dumper.cpp:85`). -/
  | top
  /-- Before `is_empty` of the condition (`csv_dumper.cpp:85`). -/
  | topStop
  /-- Before `is_empty` of the body (`csv_dumper.cpp:86`). -/
  | body
  /-- In `wait` (`csv_dumper.cpp:87`). -/
  | wait
  /-- Before `pop_front` (`csv_dumper.cpp:91`). -/
  | drain
  /-- Before `dump_` (`csv_dumper.cpp:92`). -/
  | got (e : Entry)
  /-- After the loop (`csv_dumper.cpp:98-100`). -/
  | closed
deriving DecidableEq, Repr

/-- Fields of `CsvDumper` (`csv_dumper.h:99-110`) and the threads. `period` is `max_interval`, `cap` is
`max_queued`; a limiter holds the time its ticker was started. Ghosts: `accepted` (entries pushed, with
the time at which the limiter let them pass), `grants` (grants of the limiters), `taken` (entries popped), `file` (entries written),
`failed` (number of failed writes), `posted` (a call of `stop` has returned). -/
structure St where
  period : Int
  cap : Nat
  stop : Bool
  sem : Nat
  owner : Option Nat
  q : List Entry
  lims : Char → Option (Nat × RateLimiter.State)
  now : Nat
  w : Nat → Pc
  d : DPc
  panicked : Bool
  accepted : List (Entry × Nat)
  grants : List (Char × Nat)
  taken : List Entry
  file : List Entry
  failed : Nat
  posted : Bool

/-- After the constructor (`csv_dumper.cpp:17-25`) and the start of the thread. -/
def St.init (period : Int) (cap now : Nat) : St :=
  { period, cap, stop := false, sem := 0, owner := none, q := [], lims := fun _ => none, now,
    w := fun _ => .ret .none, d := .top, panicked := false, accepted := [], grants := [], taken := [],
    file := [], failed := 0, posted := false }

/-- Move of one thread. -/
def St.at (s : St) (i : Nat) (p : Pc) : St := { s with w := fun j => if j = i then p else s.w j }

/-- `limiter_` (`csv_dumper.cpp:103-113`) followed by `Ticker::elapsed` (`ticker.cpp:28-35`): the limiter
with the start of its ticker. Nothing: a panic, for a bad type or in the constructor of the limiter. -/
def St.limiter (s : St) (t : Char) : Option (Nat × RateLimiter.State) :=
  if t.isAlphanum = false then none
  else match s.lims t with
    | some l => some l
    | none => (RateLimiter.State.init s.period).map fun rl => (s.now, rl)

/-- Store a limiter. -/
def St.setLim (s : St) (t : Char) (l : Nat × RateLimiter.State) : St :=
  { s with lims := fun u => if u = t then some l else s.lims u }

/-- The result of a call that does not get to the limiter (`csv_dumper.cpp:39,43,57,61`). -/
def Op.refused : Op → Ret
  | .would _ => .would false
  | _ => .skipped

/-- Beginning of a call up to the load of `stop_` (`csv_dumper.cpp:35-40,53-58`), or the store to
`stop_` (`csv_dumper.cpp:76`). -/
def St.start (s : St) (i : Nat) (op : Op) : St :=
  match s.w i, op with
  | .ret _, .stop => { s with stop := true }.at i (.post .stopped)
  | .ret _, op => if s.stop then s.at i (.ret op.refused) else s.at i (.lock op)
  | _, _ => s

/-- The next step of a calling thread (`csv_dumper.cpp:42-50,60-73,77`). -/
def St.adv (s : St) (i : Nat) : St :=
  match s.w i with
  | .ret _ => s
  | .lock op =>
    match s.owner with
    | none => { s with owner := some i }.at i (.limit op)
    | some _ => s.at i (.ret op.refused)
  | .limit (.write e) =>
    match s.limiter e.type with
    | none => { s with panicked := true }
    | some (st, rl) =>
      match rl.allow (s.now - st) with
      | (rl', true) => { s with grants := s.grants ++ [(e.type, s.now)] }.setLim e.type (st, rl') |>.at i (.push e s.now)
      | (rl', false) => s.setLim e.type (st, rl') |>.at i (.unlock .skipped false)
  | .limit (.would t) =>
    match s.limiter t with
    | none => { s with panicked := true }
    | some (st, rl) => s.setLim t (st, rl) |>.at i (.unlock (.would (rl.wouldAllow (s.now - st))) false)
  | .limit .stop => s
  | .push e g =>
    if s.q.length < s.cap then
      { s with q := s.q ++ [e], accepted := s.accepted ++ [(e, g)] }.at i (.unlock .pushed true)
    else s.at i (.unlock .full true)
  | .unlock r p => { s with owner := none }.at i (if p then .post r else .ret r)
  | .post r => { s with sem := s.sem + 1, posted := s.posted || decide (r = Ret.stopped) }.at i (.ret r)

/-- The next step of the background thread (`csv_dumper.cpp:80-101`); `ok` says whether `dump_`
succeeds. -/
def St.dump (s : St) (ok : Bool) : St :=
  match s.d with
  | .top => if s.stop then { s with d := .topStop } else { s with d := .body }
  | .topStop => if s.q.isEmpty then { s with d := .closed } else { s with d := .body }
  | .body => if s.q.isEmpty then { s with d := .wait } else { s with d := .drain }
  | .wait => if s.sem = 0 then s else { s with sem := s.sem - 1, d := .drain }
  | .drain =>
    match s.q with
    | [] => { s with d := .top }
    | e :: q => { s with q := q, d := .got e, taken := s.taken ++ [e] }
  | .got e =>
    if ok then { s with d := .drain, file := s.file ++ [e] }
    else { s with d := .top, failed := s.failed + 1 }
  | .closed => s

/-- Choices of the scheduler. -/
inductive Step where
  | start (i : Nat) (op : Op)
  | adv (i : Nat)
  | dump (ok : Bool)
  | tick (n : Nat)
deriving DecidableEq, Repr

/-- One step. A panic ends the program (`csv_dumper.cpp:104`). -/
def St.step (s : St) (st : Step) : St :=
  if s.panicked then s
  else match st with
    | .start i op => s.start i op
    | .adv i => s.adv i
    | .dump ok => s.dump ok
    | .tick n => { s with now := s.now + n }

/-- A run. -/
def St.run (s : St) (l : List Step) : St := l.foldl St.step s

/-- Outcome of the constructor. -/
inductive Built where
  | panic
  | invalid
  /-- `is_valid()` holds; `ring` says whether the ring buffer has memory. -/
  | valid (ring : Bool)
deriving DecidableEq, Repr

/-- The constructor with `open_` (`csv_dumper.cpp:17-25,115-127`). `junk` says whether the memory of the
object holds a nonzero `file_` beforehand: the constructor does not initialise this member. -/
def construct (junk alloc openOk : Bool) : Built :=
  if junk then .panic
  else if openOk then .valid alloc
  else .invalid

/-- `write` of an object that is valid (`csv_dumper.cpp:53-73`) panics in `begin_write`
(`spsc_byte_buffer.cpp:55`) when the ring buffer has no memory. -/
def firstWritePanics : Built → Bool
  | .valid ring => !ring
  | _ => true

end Verif.CsvDumper
