/-
PulseAudio sink and source: `roc_sndio/target_pulseaudio/roc_sndio/pulseaudio_device.cpp`.

The server and libpulse are the environment: results of their calls are arbitrary. One
`Step` has everything the environment answers during one round of the loop in
`request_frame_`; a call whose steps run out has not returned yet. Recorded data is a queue
of fragments, as `pa_stream_peek` and `pa_stream_drop` give them.

Simplifications: samples are a type `S` with a value `z` for silence. Opening of context,
device info and stream is one result `Opens`. Generations number streams: memory of a
fragment belongs to a stream and is released with it (`pa_stream_unref`). The lock of the
main loop is counted, as it is recursive for one thread. Reports of latency and clocks are
left out: whether a timer has expired is part of `Obs`. `out`, `chunks`, `total` are records
of what was exchanged, the code does not have them.
-/

namespace Verif.PulseDevice

/-- `MinTimeout` (`pulseaudio_device.cpp:29`), nanoseconds. -/
def minTimeout : Int := 50000000

/-- `MaxTimeout` (`pulseaudio_device.cpp:30`). -/
def maxTimeout : Int := 2000000000

/-- `DefaultLatency` (`pulseaudio_device.cpp:27`). -/
def defaultLatency : Int := 60000000

/-- Timeout chosen by the constructor (`pulseaudio_device.cpp:56-68`). -/
def initTimeout (latency : Int) : Int :=
  let l := if latency = 0 then defaultLatency else latency
  let t := l * 2
  let t := if t < minTimeout then minTimeout else t
  if t > maxTimeout then maxTimeout else t

/-- One round of the loop in `wait_stream_` (`pulseaudio_device.cpp:745-793`): the size in
bytes reported by `pa_stream_writable_size` or `pa_stream_readable_size`, `none` is -1, and,
if it waits, whether the timer had expired afterwards. -/
structure Obs where
  avail : Option Nat
  expired : Bool
  deriving DecidableEq, Repr

/-- Results of `wait_stream_`; `pending`: still waiting. (pulseaudio_device.cpp:745-793) -/
inductive WaitRes where
  | broken
  | expired
  | avail (n : Nat)
  | pending
  deriving DecidableEq, Repr

/-- `PulseaudioDevice::wait_stream_` (`pulseaudio_device.cpp:745-793`): result and timeout. -/
def waitStream (t : Int) : Bool → List Obs → WaitRes × Int
  | _, [] => (.pending, t)
  | ex, o :: os =>
    match o.avail with
    | none => (.broken, t)
    | some n =>
      if n == 0 && ex then
        (.expired, if t < maxTimeout then (if t * 2 > maxTimeout then maxTimeout else t * 2)
                   else t)
      else if n != 0 then (.avail n, t)
      else waitStream t o.expired os

/-- A recorded fragment: samples, or a hole (`pulseaudio_device.cpp:700-725`). -/
inductive Frag (S : Type) where
  | data (l : List S)
  | hole (n : Nat)
  deriving DecidableEq, Repr

/-- Samples of a fragment; a hole is silence. (Part of the model of roc_sndio/pulseaudio_device.cpp:27-828.) -/
def Frag.samples {S : Type} (z : S) : Frag S → List S
  | .data l => l
  | .hole n => List.replicate n z

/-- Result of opening: the context could be created, connecting was started, and finally
the stream became ready (`pulseaudio_device.cpp:342-361, 376-412, 446-486, 795-828`). -/
structure Opens where
  created : Bool
  connected : Bool
  ready : Bool
  deriving DecidableEq, Repr

/-- Answers of the environment during one round of `request_frame_`. (pulseaudio_device.cpp:210-252) -/
structure Step (S : Type) where
  obs : List Obs
  arrive : List (Frag S)
  writeOk : Bool
  peekOk : Bool
  dropOk : Bool
  reopen : Opens
  deriving DecidableEq, Repr

/-- State of the device (`pulseaudio_device.h:125-160`). `ctx`: `context_` is not null;
`leaked`: contexts nobody points to; `gen`: number of the current stream; `fragPtr`:
`record_frag_data_`, the stream the memory belongs to and what is there; `queue`:
recorded fragments in the stream. -/
structure Dev (S : Type) where
  openDone : Bool
  opened : Bool
  ctx : Bool
  leaked : Nat
  gen : Nat
  lock : Nat
  timeout : Int
  fragPtr : Option (Nat × List S)
  fragSize : Nat
  fragFlag : Bool
  queue : List (Frag S)
  out : List S
  chunks : List (Nat × Nat)
  total : List S
  deriving DecidableEq, Repr

/-- What a call did: returned a value, waits, cannot ever continue since the thread of the
main loop never gets the lock, or accessed released memory. (Part of the model of roc_sndio/pulseaudio_device.cpp:27-828.) -/
inductive Ret where
  | done (b : Bool)
  | blocked
  | hang
  | released
  deriving DecidableEq, Repr

section
variable {S : Type}

/-- Device after the constructor and `start_mainloop_` (`pulseaudio_device.cpp:34-69, 261-276`). -/
def init (latency : Int) : Dev S :=
  ⟨false, false, false, 0, 0, 0, initTimeout latency, none, 0, false, [], [], [], []⟩

/-- `PulseaudioDevice::open_` (`pulseaudio_device.cpp:289-305`) with `open_context_`
(`342-361`). Waiting for callbacks needs that the lock is not held otherwise. -/
def openDev (d : Dev S) (o : Opens) : Dev S × Ret :=
  if d.openDone then (d, .done d.opened)
  else
    let leaked := if d.ctx then d.leaked + 1 else d.leaked
    if !o.created then ({ d with ctx := false, leaked := leaked }, .done d.opened)
    else if !o.connected then ({ d with ctx := true, leaked := leaked }, .done d.opened)
    else if d.lock ≠ 0 then ({ d with ctx := true, leaked := leaked, lock := d.lock + 1 }, .hang)
    else
      ({ d with ctx := true, leaked := leaked, openDone := true, opened := o.ready,
                gen := d.gen + 1, queue := [] }, .done o.ready)

/-- `PulseaudioDevice::close_` (`pulseaudio_device.cpp:307-325`). -/
def closeDev (d : Dev S) : Dev S :=
  if d.openDone then
    { d with ctx := false, queue := [], openDone := false, opened := false }
  else { d with openDone := false, opened := false }

/-- `pause` (`pulseaudio_device.cpp:126-130`). -/
def pause (d : Dev S) : Dev S := closeDev d

/-- `resume` (`pulseaudio_device.cpp:132-142`). -/
def resume (d : Dev S) (o : Opens) : Dev S × Ret := openDev d o

/-- `restart` (`pulseaudio_device.cpp:144-154`), also done by `request_frame_` after a
failure, which returns false in any case (`pulseaudio_device.cpp:235-248`). -/
def restart (d : Dev S) (o : Opens) : Dev S × Ret := openDev (closeDev d) o

/-- End of `request_frame_` if `request_stream_` failed (`pulseaudio_device.cpp:235-248`). -/
def failed (d : Dev S) (o : Opens) : Dev S × Ret :=
  match restart { d with lock := d.lock - 1 } o with
  | (d, .hang) => (d, .hang)
  | (d, _) => (d, .done false)

/-- `write` (`pulseaudio_device.cpp:198-202`): `request_frame_` (`210-252`) with
`write_stream_` (`664-688`). -/
def write (d : Dev S) (xs : List S) : List (Step S) → Dev S × Ret
  | [] =>
    if xs.isEmpty then (d, .done true)
    else if !d.opened then ({ d with lock := d.lock + 1 }, .done false)
    else (d, .blocked)
  | st :: sts =>
    if xs.isEmpty then (d, .done true)
    else if !d.opened then ({ d with lock := d.lock + 1 }, .done false)
    else
      match waitStream d.timeout false st.obs with
      | (.pending, t) => ({ d with timeout := t }, .blocked)
      | (.broken, t) => failed { d with timeout := t, lock := d.lock + 1 } st.reopen
      | (.expired, t) => failed { d with timeout := t, lock := d.lock + 1 } st.reopen
      | (.avail n, t) =>
        let k := if xs.length > n then n else xs.length
        if st.writeOk then
          write { d with timeout := t, out := d.out ++ xs.take k,
                         chunks := d.chunks ++ [(k, n)] } (xs.drop k) sts
        else failed { d with timeout := t, lock := d.lock + 1 } st.reopen

/-- Outcome of `read_stream_`. (pulseaudio_device.cpp:690-743) -/
inductive Got (S : Type) where
  | blocked (d : Dev S)
  | fail (d : Dev S)
  | released (d : Dev S)
  | got (d : Dev S) (l : List S)
  deriving Repr

/-- Takes over the result of `pa_stream_peek`: the first fragment, or nothing
(`pulseaudio_device.cpp:698-711`). -/
def peek (d : Dev S) : Dev S :=
  match d.queue with
  | [] => { d with fragPtr := none, fragSize := 0, fragFlag := false }
  | .data l :: _ =>
    { d with fragPtr := some (d.gen, l), fragSize := l.length, fragFlag := l.length != 0 }
  | .hole n :: _ => { d with fragPtr := none, fragSize := n, fragFlag := n != 0 }

/-- Start of `read_stream_`: gets the next fragment if the last one is used up
(`pulseaudio_device.cpp:691-712`). The result of `wait_stream_` is ignored. -/
def fetch (d : Dev S) (st : Step S) : Got S :=
  if d.fragSize = 0 then
    match waitStream d.timeout false st.obs with
    | (.pending, t) => .blocked { d with timeout := t }
    | (_, t) =>
      if !st.peekOk then .fail { d with timeout := t }
      else .got (peek { d with timeout := t }) []
  else .got d []

/-- Rest of `read_stream_`: copies samples and drops the fragment when it is used up
(`pulseaudio_device.cpp:714-742`). -/
def copy (z : S) (d : Dev S) (n : Nat) (st : Step S) : Got S :=
  let k := if n > d.fragSize then d.fragSize else n
  let next (d : Dev S) (l : List S) : Got S :=
    if d.fragSize == 0 && d.fragFlag then
      if st.dropOk then
        .got { d with fragPtr := none, fragFlag := false, queue := d.queue.tail } l
      else .fail { d with fragPtr := none, fragFlag := false }
    else .got d l
  match d.fragPtr with
  | some (g, mem) =>
    if k ≠ 0 ∧ g ≠ d.gen then .released d
    else next { d with fragPtr := some (g, mem.drop k), fragSize := d.fragSize - k }
      (mem.take k)
  | none => next { d with fragSize := d.fragSize - k } (List.replicate k z)

/-- `read_stream_` (`pulseaudio_device.cpp:690-743`); first the fragments that arrived
meanwhile are added to the stream. -/
def readStream (z : S) (d : Dev S) (n : Nat) (st : Step S) : Got S :=
  let d := { d with queue := d.queue ++ st.arrive,
                    total := d.total ++ (st.arrive.map (Frag.samples z)).flatten }
  match fetch d st with
  | .got d _ => copy z d n st
  | r => r

/-- `read` (`pulseaudio_device.cpp:204-208`): `request_frame_` (`210-252`) with
`read_stream_`, for a frame of `n` samples; also the samples stored to the frame. -/
def read (z : S) (d : Dev S) (n : Nat) : List (Step S) → Dev S × Ret × List S
  | [] =>
    if n = 0 then (d, .done true, [])
    else if !d.opened then ({ d with lock := d.lock + 1 }, .done false, [])
    else (d, .blocked, [])
  | st :: sts =>
    if n = 0 then (d, .done true, [])
    else if !d.opened then ({ d with lock := d.lock + 1 }, .done false, [])
    else
      match readStream z d n st with
      | .blocked d => (d, .blocked, [])
      | .released d => (d, .released, [])
      | .fail d =>
        let (d, r) := failed { d with lock := d.lock + 1 } st.reopen
        (d, r, [])
      | .got d l =>
        let (d, r, m) := read z d (n - l.length) sts
        (d, r, l ++ m)

end

end Verif.PulseDevice
