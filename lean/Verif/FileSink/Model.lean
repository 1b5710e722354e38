import Verif.SampleTime.Model
import Verif.Backends.Model

/-!
# Sinks that write with SoX and libsndfile

Code modelled:

* `roc_sndio/target_sox/roc_sndio/sox_sink.cpp` (`SoxSink`: constructor, open, write, close);
* `roc_sndio/target_sndfile/roc_sndio/sndfile_sink.cpp` (`SndfileSink`: sub-format, open, write).

The libraries are not modelled: what they answer is an argument of the functions below. `conv` is
the macro `SOX_FLOAT_32BIT_TO_SAMPLE` of SoX. Channel sets are represented by their numbers of
channels (the mask set by `set_count` has that many channels: C42). The choice of the major format of
libsndfile is `Backends.mapToSndfile` (C113).
-/

namespace Verif.FileSink

/-! ### SoX -/

/-- `Config` as far as sinks use it (`roc_sndio/config.h`): latency, frame length, rate (0 is "not
set"), number of channels (0 is "not set"), and whether the format is raw or not set. (roc_sndio/config.h:29-44) -/
structure Config where
  latency : Int
  frameLen : Int
  rate : Nat
  chans : Nat
  raw : Bool
deriving DecidableEq, Repr

/-- What `sox_open_write` answers: rate and number of channels of the output, and whether it is a
device (`sox_sink.cpp:203-225`). -/
structure Output where
  rate : Nat
  chans : Nat
  device : Bool
deriving DecidableEq, Repr

/-- Fields of `SoxSink` (`sox_sink.h:96-105`). `file` is not a field: it is everything that SoX took
from `sox_write` so far. `calls` are the lengths given to `sox_write`. -/
structure Sox (β : Type) where
  valid : Bool
  sigRate : Nat
  sigChans : Nat
  rate : Nat
  chans : Nat
  frameLen : Int
  opened : Bool
  isFile : Bool
  bufCap : Nat   -- `buffer_size_`
  bufLen : Nat   -- `buffer_.size()`
  file : List β
  calls : List Nat
deriving Repr

/-- Outcome of a call (`roc_panic`, `roc_core/panic.h`): `abort` is `roc_panic`, `hang` is a loop that never ends. (Part of the model of roc_sndio/sox_sink.cpp:17-256, sndfile_sink.cpp:21-285.) -/
inductive Ret (γ : Type)
  | done (x : γ)
  | abort
  | hang
deriving DecidableEq, Repr

/-- Constructor (`sox_sink.cpp:17-61`): defaults for channels and rate (`sample_spec.cpp:156-173`),
then checks. `file` is `type == DriverType_File`. -/
def Sox.new {β : Type} (c : Config) (file : Bool) : Sox β :=
  let chans := if c.chans = 0 then 2 else c.chans
  let rate := if c.rate = 0 ∧ file then 44100 else c.rate
  let ok := c.latency = 0 ∧ c.raw ∧ c.frameLen ≠ 0
  ⟨ok, rate, chans, rate, chans, c.frameLen, false, false, 0, 0, [], []⟩

/-- `setup_buffer_` (`sox_sink.cpp:189-201`). A negative length aborts (`sample_spec.cpp:242-249`).
`alloc` tells whether memory could be allocated. -/
def Sox.setupBuffer {β : Type} (s : Sox β) (alloc : Nat → Bool) : Ret (Sox β × Bool) :=
  match SampleTime.nsToSamplesOverall s.rate s.chans s.frameLen with
  | none => .abort
  | some n =>
    let n := n.toNat
    let s := { s with bufCap := n }
    if n = 0 then .done (s, false)
    else if !alloc n then .done (s, false)
    else .done ({ s with bufLen := n }, true)

/-- `open_` (`sox_sink.cpp:203-248`). `set_count` aborts for 1024 channels or more
(`channel_set.cpp:204-208`). -/
def Sox.openOutput {β : Type} (s : Sox β) : Option Output → Ret (Sox β × Bool)
  | none => .done (s, false)
  | some o =>
    let s := { s with opened := true, isFile := !o.device }
    if s.sigRate ≠ 0 ∧ s.sigRate ≠ o.rate then .done (s, false)
    else if s.sigChans ≠ 0 ∧ s.sigChans ≠ o.chans then .done (s, false)
    else if o.chans ≥ 1024 then .abort
    else .done ({ s with rate := o.rate, chans := o.chans }, true)

/-- `open` (`sox_sink.cpp:71-89`). -/
def Sox.open {β : Type} (s : Sox β) (o : Option Output) (alloc : Nat → Bool) : Ret (Sox β × Bool) :=
  if !s.valid then .abort
  else if s.bufLen ≠ 0 ∨ s.opened then .abort
  else match s.openOutput o with
    | .abort => .abort
    | .hang => .hang
    | .done (s, false) => .done (s, false)
    | .done (s, true) => s.setupBuffer alloc

/-- The inner loop of `write` (`sox_sink.cpp:174-178`): samples are converted into the buffer while
there is space. -/
def fill {α β : Type} (conv : α → β) (cap : Nat) : List β → List α → List β × List α
  | buf, [] => (buf, [])
  | buf, x :: xs => if buf.length < cap then fill conv cap (buf ++ [conv x]) xs else (buf, x :: xs)

/-- `write_` (`sox_sink.cpp:250-256`): what `sox_write` does not take is lost. `take i n` is the answer
of the `i`-th call of `sox_write`. -/
def Sox.put {β : Type} (s : Sox β) (take : Nat → Nat → Nat) (xs : List β) : Sox β :=
  if xs.length > 0 then
    { s with
      file := s.file ++ xs.take (take s.calls.length xs.length)
      calls := s.calls ++ [xs.length] }
  else s

/-- The outer loop of `write` (`sox_sink.cpp:173-184`) with at most the given number of rounds. -/
def Sox.loop {α β : Type} (conv : α → β) (take : Nat → Nat → Nat) :
    Nat → Sox β → List β → List α → Option (Sox β × List β)
  | _, s, buf, [] => some (s, buf)
  | 0, _, _, _ :: _ => none
  | n + 1, s, buf, x :: xs =>
    let (b, r) := fill conv s.bufCap buf (x :: xs)
    if b.length = s.bufCap then Sox.loop conv take n (s.put take b) [] r
    else Sox.loop conv take n s b r

/-- `write` (`sox_sink.cpp:159-187`) of a frame in raw format, with a limit on the rounds of the outer
loop: without enough rounds the outcome is `hang`. -/
def Sox.write {α β : Type} (conv : α → β) (take : Nat → Nat → Nat) (rounds : Nat) (s : Sox β)
    (frame : List α) : Ret (Sox β) :=
  if !s.valid then .abort
  else match Sox.loop conv take rounds s [] frame with
    | none => .hang
    | some (s, buf) => .done (s.put take buf)

/-- Frames are written one after another, as by the pump (`roc_sndio/pump.cpp`). (Part of the model of roc_sndio/sox_sink.cpp:17-256, sndfile_sink.cpp:21-285.) -/
def Sox.writes {α β : Type} (conv : α → β) (take : Nat → Nat → Nat) (rounds : Nat) :
    Sox β → List (List α) → Ret (Sox β)
  | s, [] => .done s
  | s, f :: fs =>
    match s.write conv take rounds f with
    | .done s => Sox.writes conv take rounds s fs
    | .abort => .abort
    | .hang => .hang

/-! ### libsndfile -/

/-- Sub-formats, with the numbers of `sndfile.h` (`sndfile_sink.cpp:24-28, 155`). -/
def pcm32 : Nat := 4
/-- See `pcm32`. (Part of the model of roc_sndio/sox_sink.cpp:17-256, sndfile_sink.cpp:21-285.) -/
def pcm24 : Nat := 3
/-- See `pcm32`. (Part of the model of roc_sndio/sox_sink.cpp:17-256, sndfile_sink.cpp:21-285.) -/
def pcm16 : Nat := 2
/-- See `pcm32`. (Part of the model of roc_sndio/sox_sink.cpp:17-256, sndfile_sink.cpp:21-285.) -/
def dpcm16 : Nat := 0x51

/-- Fields of `SndfileSink` (`sndfile_sink.h:94-97`); `file` is what libsndfile took. -/
structure Snd (α : Type) where
  valid : Bool
  format : Nat
  chans : Nat
  rate : Nat
  opened : Bool
  file : List α
deriving DecidableEq, Repr

/-- Constructor (`sndfile_sink.cpp:137-160`). The format of the configuration is not looked at. -/
def Snd.new {α : Type} (c : Config) : Snd α :=
  if c.latency ≠ 0 then ⟨false, 0, 0, 0, false, []⟩
  else ⟨true, pcm32, if c.chans = 0 then 2 else c.chans, if c.rate = 0 then 44100 else c.rate, false, []⟩

/-- `map_to_sub_format` (`sndfile_sink.cpp:21-40`): the last format tried stays in the structure. -/
def subFormat (check : Nat → Bool) (major : Nat) : List Nat → Nat → Nat × Bool
  | [], cur => (cur, false)
  | f :: fs, _ => if check (major ||| f) then (major ||| f, true) else subFormat check major fs (major ||| f)

/-- The end of `map_to_sndfile` (`sndfile_sink.cpp:118-133`). `check` is `sf_format_check`. -/
def mapFormat (check : Nat → Bool) (cur : Nat) : Option Nat → Nat × Bool
  | none => (cur, false)
  | some major =>
    if check (major ||| cur) then (major ||| cur, true)
    else subFormat check major [pcm24, pcm16, dpcm16] (major ||| cur)

/-- Answers of libsndfile to `open_`: `sf_open` (with the rate of the file) and
`SFC_SET_UPDATE_HEADER_AUTO` (`sndfile_sink.cpp:266-279`). -/
structure SndEnv where
  majors : List Backends.Major
  check : Nat → Bool
  opens : Nat → Option Nat
  header : Bool

/-- `open` (`sndfile_sink.cpp:170-188`) with `open_` (`sndfile_sink.cpp:258-285`). -/
def Snd.open {α : Type} (s : Snd α) (e : SndEnv) (driver : Option (List Pct.Byte))
    (path : Option (List Pct.Byte)) : Ret (Snd α × Bool) :=
  if !s.valid then .abort
  else if s.opened then .abort
  else match path with
    | none => .abort
    | some path =>
      match mapFormat e.check s.format (Backends.mapToSndfile e.majors driver path) with
      | (f, false) => .done ({ s with format := f }, false)
      | (f, true) =>
        match e.opens f with
        | none => .done ({ s with format := f }, false)
        | some rate =>
          if !e.header then .done ({ s with format := f, opened := true }, false)
          else .done ({ s with format := f, opened := true, rate := rate }, true)

/-- `write` (`sndfile_sink.cpp:240-256`). `raw` tells whether the frame is in raw format
(`frame.cpp:51-65`), `take` is the answer of `sf_write_float`, `err` that of `sf_error`. -/
def Snd.write {α : Type} (s : Snd α) (raw : Bool) (take : Nat → Nat) (err : Bool) (frame : List α) :
    Ret (Snd α) :=
  if !s.opened then .abort
  else if !raw then .abort
  else if take frame.length ≠ frame.length ∨ err then .abort
  else .done { s with file := s.file ++ frame }

end Verif.FileSink
