/-
Model of the sources that read samples from a file or from a sox device:

* `src/internal_modules/roc_sndio/wav_source.cpp`
* `src/internal_modules/roc_sndio/target_sox/roc_sndio/sox_source.cpp`
* `src/internal_modules/roc_sndio/target_sndfile/roc_sndio/sndfile_source.cpp`

The decoding libraries (dr_wav, sox, libsndfile) are not modelled: an opened input is the list
of samples it will deliver, and every call of the library carries its outcome (how many samples
a read returned, whether an open or a seek succeeded) as an argument of the operation, so the
theorems hold for all outcomes.  Sample values are an arbitrary type `α`: the conversion from
sox samples to floats (`sox_source.cpp:279-281`) is taken as already applied.
-/

namespace Verif.FileSource

/-- Aborts of the sources: `roc_panic` calls and a division by zero
(`wav_source.cpp:76, 94, 124, 138, 164`; `sox_source.cpp:82, 130, 201-239, 253, 302-306, 355`;
`sndfile_source.cpp:51, 121, 147, 156, 169, 185`). -/
inductive Panic
  | notOpened
  | alreadyOpened
  | divZero
  | badAlign
  deriving DecidableEq, Repr

/-- What the library reports about an input it has opened, and the samples it will deliver
(`sox_source.cpp:358-406`, `sndfile_source.cpp:188-207`, `wav_source.cpp:167-180`).
`seekable` is `SF_INFO::seekable`; `isFile` is the absence of `SOX_FILE_DEVICE`. -/
structure Input (α : Type) where
  data : List α
  chans : Nat
  rate : Nat
  isFile : Bool
  seekable : Bool
  deriving DecidableEq, Repr

/-- The number of units a library read returns when `req` are wanted and `avail` are left: none
at the end or when none are wanted, else at least one and at most `want`, capped by both
(`drwav_read_pcm_frames_f32` at `wav_source.cpp:137-139`, `sox_read` at
`sox_source.cpp:272`).  Short reads are allowed. -/
def pull (avail req want : Nat) : Nat :=
  if avail = 0 ∨ req = 0 then 0 else min (min req avail) (max 1 want)

theorem pull_le_req (a r w : Nat) : pull a r w ≤ r := by
  unfold pull; split <;> omega

theorem pull_le_avail (a r w : Nat) : pull a r w ≤ a := by
  unfold pull; split <;> omega

theorem pull_pos {a r w : Nat} (ha : a ≠ 0) (hr : r ≠ 0) : 0 < pull a r w := by
  unfold pull; split <;> omega

theorem pull_zero {a r w : Nat} : pull a r w = 0 ↔ a = 0 ∨ r = 0 := by
  unfold pull; split <;> omega

/-- What the calls of a source return. (Part of the model of roc_sndio/sox_source.cpp:17-422, wav_source.cpp:16-181, sndfile_source.cpp:45-208.) -/
inductive Res (α : Type)
  | frame (r : Option (List α))
  | done
  | flag (b : Bool)
  deriving DecidableEq, Repr

/-- Calls of a source, with the outcomes of the library calls made by them. `cut i` is the
number of units the `i`-th library read of a `read` would like to return; `seek` tells whether
a seek succeeds; `opened` is the outcome of opening the input (again)
(`isource.h:23-35`, `idevice.h:24-70`).  `query` stands for `sample_spec()`. -/
inductive Op (α : Type)
  | read (n : Nat) (cut : Nat → Nat)
  | pause
  | resume (opened : Option (Input α))
  | restart (seek : Bool) (opened : Option (Input α))
  | query

/-- The tail of `read()`, shared by the WAV and the sox source: nothing read is `false`, a short
frame is filled up with zeros (`wav_source.cpp:151-159`, `sox_source.cpp:287-295`). -/
def finish {α : Type} (zero : α) (n : Nat) (got : List α) : Option (List α) :=
  if n - got.length = n then none
  else some (got ++ List.replicate (n - got.length) zero)

/-! ### WAV source -/

/-- State of `WavSource` (`wav_source.h:93-97`); `pos` counts PCM frames. -/
structure Wav (α : Type) where
  file : List α
  ch : Nat
  pos : Nat
  opened : Bool
  eof : Bool
  deriving DecidableEq, Repr

/-- The loop of `WavSource::read` (`wav_source.cpp:134-149`): samples read, the new position,
whether the end was hit. -/
def wavLoop {α : Type} (file : List α) (ch : Nat) (cut : Nat → Nat) (i pos left : Nat) :
    List α × Nat × Bool :=
  if left = 0 then ([], pos, false)
  else
    let k := pull (file.length / ch - pos) (left / ch) (cut i)
    if _h : k * ch = 0 then ([], pos, true)
    else
      let r := wavLoop file ch cut (i + 1) (pos + k) (left - k * ch)
      ((file.drop (pos * ch)).take (k * ch) ++ r.1, r.2)
termination_by left
decreasing_by exact Nat.sub_lt (Nat.pos_of_ne_zero ‹_›) (Nat.pos_of_ne_zero _h)

/-- `WavSource::read` (`wav_source.cpp:122-160`).  A file without channels divides by zero. -/
def Wav.read {α : Type} (zero : α) (s : Wav α) (n : Nat) (cut : Nat → Nat) :
    Except Panic (Option (List α) × Wav α) :=
  if s.opened = false then .error .notOpened
  else if s.eof = true then .ok (none, s)
  else if n ≠ 0 ∧ s.ch = 0 then .error .divZero
  else
    let r := wavLoop s.file s.ch cut 0 s.pos n
    .ok (finish zero n r.1, { s with pos := r.2.1, eof := r.2.2 })

/-- `WavSource::restart` (`wav_source.cpp:75-90`). -/
def Wav.restart {α : Type} (s : Wav α) (seek : Bool) : Except Panic (Bool × Wav α) :=
  if s.opened = false then .error .notOpened
  else if seek = false then .ok (false, s)
  else .ok (true, { s with pos := 0, eof := false })

/-- `WavSource::open` (`wav_source.cpp:41-49, 162-181`). -/
def Wav.opn {α : Type} (s : Wav α) (opened : Option (Input α)) : Except Panic (Bool × Wav α) :=
  if s.opened = true then .error .alreadyOpened
  else match opened with
    | none => .ok (false, s)
    | some i => .ok (true, { s with file := i.data, ch := i.chans, pos := 0, opened := true })

/-- The source before `open` (`wav_source.cpp:16-31`). -/
def Wav.init (α : Type) : Wav α :=
  { file := [], ch := 0, pos := 0, opened := false, eof := false }

/-- One call of a WAV source; `pause` and `resume` do nothing (`wav_source.cpp:67-73`). -/
def Wav.step {α : Type} (zero : α) (s : Wav α) : Op α → Except Panic (Res α × Wav α)
  | .read n cut => match s.read zero n cut with
      | .error e => .error e
      | .ok (r, s') => .ok (.frame r, s')
  | .pause => .ok (.done, s)
  | .resume _ => .ok (.flag true, s)
  | .restart k _ => match s.restart k with
      | .error e => .error e
      | .ok (b, s') => .ok (.flag b, s')
  | .query => if s.opened = false then .error .notOpened else .ok (.done, s)

/-! ### Sox source -/

/-- State of `SoxSource` (`sox_source.h:102-117`).  `input` is `input_` with the position in it;
`reqRate`, `reqChans` are `in_signal_`, `rate`, `chans` the fields of `sample_spec_` that the
source sets; `buf` is `buffer_size_`. -/
structure Sox (α : Type) where
  input : Option (Input α)
  pos : Nat
  isFile : Bool
  eof : Bool
  paused : Bool
  reqRate : Nat
  reqChans : Nat
  rate : Nat
  chans : Nat
  buf : Nat
  deriving DecidableEq, Repr

/-- The source after its constructor, with the sample rate and the channel number asked for;
zero means that the value of the input is taken (`sox_source.cpp:17-66`). -/
def Sox.init (α : Type) (rate chans : Nat) : Sox α :=
  { input := none, pos := 0, isFile := false, eof := false, paused := false,
    reqRate := rate, reqChans := chans, rate := rate, chans := chans, buf := 0 }

/-- `SoxSource::open_` (`sox_source.cpp:353-407`).  When the rate or the channels of the input
are not those asked for the function fails but leaves the input open. -/
def Sox.open_ {α : Type} (s : Sox α) (opened : Option (Input α)) :
    Except Panic (Bool × Sox α) :=
  if s.input.isSome then .error .alreadyOpened
  else match opened with
    | none => .ok (false, s)
    | some i =>
      let s := { s with input := some i, pos := 0, isFile := i.isFile }
      if s.reqRate ≠ 0 ∧ s.reqRate ≠ i.rate then .ok (false, s)
      else if s.reqChans ≠ 0 ∧ s.reqChans ≠ i.chans then .ok (false, s)
      else .ok (true, { s with rate := i.rate, chans := i.chans })

/-- `SoxSource::open` (`sox_source.cpp:76-98, 339-351`); `buf` is the size of the buffer
computed from the sample specification. -/
def Sox.opn {α : Type} (s : Sox α) (opened : Option (Input α)) (buf : Nat) :
    Except Panic (Bool × Sox α) :=
  if s.buf ≠ 0 ∨ s.input.isSome then .error .alreadyOpened
  else match s.open_ opened with
    | .error e => .error e
    | .ok (false, s) => .ok (false, s)
    | .ok (true, s) => if buf = 0 then .ok (false, s) else .ok (true, { s with buf := buf })

/-- `SoxSource::close_` (`sox_source.cpp:409-422`); closing is taken to succeed. -/
def Sox.close_ {α : Type} (s : Sox α) : Sox α := { s with input := none }

/-- `SoxSource::pause` (`sox_source.cpp:122-141`). -/
def Sox.pause {α : Type} (s : Sox α) : Except Panic (Sox α) :=
  if s.paused = true then .ok s
  else if s.input.isNone then .error .notOpened
  else
    let s := if s.isFile = false then s.close_ else s
    .ok { s with paused := true }

/-- `SoxSource::resume` (`sox_source.cpp:143-163`). -/
def Sox.resume {α : Type} (s : Sox α) (opened : Option (Input α)) :
    Except Panic (Bool × Sox α) :=
  if s.paused = false then .ok (true, s)
  else if s.input.isNone then
    match s.open_ opened with
    | .error e => .error e
    | .ok (false, s) => .ok (false, s)
    | .ok (true, s) => .ok (true, { s with paused := false })
  else .ok (true, { s with paused := false })

/-- `SoxSource::restart` (`sox_source.cpp:165-199`), with `seek_`
(`sox_source.cpp:298-319`). -/
def Sox.restart {α : Type} (s : Sox α) (seek : Bool) (opened : Option (Input α)) :
    Except Panic (Bool × Sox α) :=
  if s.isFile = true ∧ s.eof = false then
    if s.input.isNone then .error .notOpened
    else if seek = false then .ok (false, s)
    else .ok (true, { s with pos := 0, paused := false, eof := false })
  else
    let s := if s.isFile = true then { s with rate := 0, chans := 0 } else s
    match s.close_.open_ opened with
    | .error e => .error e
    | .ok (false, s) => .ok (false, s)
    | .ok (true, s) => .ok (true, { s with paused := false, eof := false })

/-- The loop of `SoxSource::read` (`sox_source.cpp:266-285`): samples read, the new position,
whether the end was hit. -/
def soxLoop {α : Type} (data : List α) (buf : Nat) (cut : Nat → Nat) (i pos left : Nat) :
    List α × Nat × Bool :=
  if left = 0 then ([], pos, false)
  else
    let n := if left > buf then buf else left
    let k := pull (data.length - pos) n (cut i)
    if _h : k = 0 then ([], pos, true)
    else
      let r := soxLoop data buf cut (i + 1) (pos + k) (left - k)
      ((data.drop pos).take k ++ r.1, r.2)
termination_by left
decreasing_by exact Nat.sub_lt (Nat.pos_of_ne_zero ‹_›) (Nat.pos_of_ne_zero _h)

/-- `SoxSource::read` (`sox_source.cpp:245-296`). -/
def Sox.read {α : Type} (zero : α) (s : Sox α) (n : Nat) (cut : Nat → Nat) :
    Except Panic (Option (List α) × Sox α) :=
  if s.paused = true ∨ s.eof = true then .ok (none, s)
  else match s.input with
    | none => .error .notOpened
    | some i =>
      let r := soxLoop i.data s.buf cut 0 s.pos n
      .ok (finish zero n r.1, { s with pos := r.2.1, eof := r.2.2 })

/-- One call of a sox source.  `query` stands for `sample_spec()`, `latency()`,
`has_latency()` and `has_clock()`, which abort without an open input
(`sox_source.cpp:201-239`). -/
def Sox.step {α : Type} (zero : α) (s : Sox α) : Op α → Except Panic (Res α × Sox α)
  | .read n cut => match s.read zero n cut with
      | .error e => .error e
      | .ok (r, s') => .ok (.frame r, s')
  | .pause => match s.pause with
      | .error e => .error e
      | .ok s' => .ok (.done, s')
  | .resume o => match s.resume o with
      | .error e => .error e
      | .ok (b, s') => .ok (.flag b, s')
  | .restart k o => match s.restart k o with
      | .error e => .error e
      | .ok (b, s') => .ok (.flag b, s')
  | .query => if s.input.isNone then .error .notOpened else .ok (.done, s)

/-! ### Sndfile source -/

/-- State of `SndfileSource` (`sndfile_source.h:99-104`); `pos` counts samples. -/
structure Snd (α : Type) where
  file : Option (Input α)
  pos : Nat
  deriving DecidableEq, Repr

/-- `SndfileSource::open_` (`sndfile_source.cpp:183-208`). -/
def Snd.open_ {α : Type} (s : Snd α) (opened : Option (Input α)) :
    Except Panic (Bool × Snd α) :=
  if s.file.isSome then .error .alreadyOpened
  else match opened with
    | none => .ok (false, s)
    | some i => .ok (true, { file := some i, pos := 0 })

/-- `SndfileSource::restart` (`sndfile_source.cpp:95-117`). -/
def Snd.restart {α : Type} (s : Snd α) (seek : Bool) (opened : Option (Input α)) :
    Except Panic (Bool × Snd α) :=
  match s.file with
  | none => s.open_ opened
  | some i =>
    if i.seekable = true then
      if seek = false then .ok (false, s) else .ok (true, { s with pos := 0 })
    else Snd.open_ { s with file := none } opened

/-- `SndfileSource::read` (`sndfile_source.cpp:143-165`).  `sf_read_float` wants a whole number
of frames, else it sets an error and the source aborts; it reads all that is asked for, up to
the end of the file. -/
def Snd.read {α : Type} (zero : α) (s : Snd α) (n : Nat) :
    Except Panic (Option (List α) × Snd α) :=
  match s.file with
  | none => .error .notOpened
  | some i =>
    if n % i.chans ≠ 0 then .error .badAlign
    else
      let got := (i.data.drop s.pos).take n
      .ok (if got.length = 0 then none
            else some (got ++ List.replicate (n - got.length) zero),
          { s with pos := s.pos + got.length })

/-- One call of a sndfile source; `pause` and `resume` do nothing
(`sndfile_source.cpp:86-93, 119-125`). -/
def Snd.step {α : Type} (zero : α) (s : Snd α) : Op α → Except Panic (Res α × Snd α)
  | .read n _ => match s.read zero n with
      | .error e => .error e
      | .ok (r, s') => .ok (.frame r, s')
  | .pause => .ok (.done, s)
  | .resume _ => .ok (.flag true, s)
  | .restart k o => match s.restart k o with
      | .error e => .error e
      | .ok (b, s') => .ok (.flag b, s')
  | .query => if s.file.isNone then .error .notOpened else .ok (.done, s)

/-- A sequence of calls of a source: the results in order. (Part of the model of roc_sndio/sox_source.cpp:17-422, wav_source.cpp:16-181, sndfile_source.cpp:45-208.) -/
def run {α σ : Type} (step : σ → Op α → Except Panic (Res α × σ)) :
    σ → List (Op α) → Except Panic (List (Res α) × σ)
  | s, [] => .ok ([], s)
  | s, o :: os => match step s o with
      | .error e => .error e
      | .ok (r, s') => match run step s' os with
          | .error e => .error e
          | .ok (rs, s'') => .ok (r :: rs, s'')

end Verif.FileSource
