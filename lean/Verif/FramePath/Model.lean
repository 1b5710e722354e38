import Verif.SampleTime.Model

/-!
# Frames between the API and the pipeline: model

Models `roc_sender_write` (public_api/src/sender.cpp:178-217), `roc_receiver_read` (public_api/src/receiver.cpp:179-222),
`SenderLoop::write` (roc_pipeline/sender_loop.cpp:217-245), `ReceiverLoop::read` (receiver_loop.cpp:227-249) and what
`PipelineLoop` does with a frame (pipeline_loop.cpp:195-278, 346-387). Scheduling of tasks is the subject of
`Verif.PipelineLoop`; here tasks only change the state of the pipeline between two sub-frames.

Not modelled: overflow of 64-bit nanoseconds, failure of the constructors, a clock that is negative. A sample is `width` bytes; for
the API it is a 32-bit float.
-/

namespace Verif.FramePath

/-- Ways to go wrong: `roc_panic`, access outside of the buffer of the frame, no end of the loop. (Part of the model of roc_pipeline/pipeline_loop.cpp:22-387.) -/
inductive Err where
  | abort
  | outside
  | endless
  deriving DecidableEq

/-- `audio::Frame` (roc_audio/frame.h): content of the buffer, flags (a set of bits), duration and capture timestamp (zero:
none). (roc_audio/frame.h:25-110) -/
structure Frame (α : Type) where
  bytes : List α
  flags : Nat
  dur : Nat
  cts : Int
  deriving DecidableEq

/-- A new frame (frame.cpp:17-37). -/
def Frame.new {α : Type} (b : List α) : Frame α := ⟨b, 0, 0, 0⟩

/-- Configuration: number of channels and bytes per sample of the sample specification, `stream_timestamp_2_ns`
(sample_spec.cpp:278-284), `max_samples_between_tasks_` (pipeline_loop.cpp:30-31), precise task scheduling, timing
(`ticker_`), automatic duration and timestamp (sender_loop.cpp:98-102). -/
structure Conf where
  chans : Nat
  width : Nat
  ns : Nat → Int
  maxSub : Nat
  precise : Bool
  timing : Bool
  autoDur : Bool
  autoCts : Bool

/-- `stream_timestamp_2_bytes` (sample_spec.cpp:326-339). -/
def Conf.bytes (c : Conf) (d : Nat) : Nat := d * c.width * c.chans

/-- `bytes_2_stream_timestamp` (sample_spec.cpp:311-324): the result has 32 bits. -/
def Conf.ticks (c : Conf) (n : Nat) : Nat := n / c.width / c.chans % 2 ^ 32

/-- The pipeline below: `process_subframe_imp` (sender_loop.cpp:255-262, receiver_loop.cpp:259-264), which gets a frame and
leaves it changed, and the tasks that run after a sub-frame (pipeline_loop.cpp:248-260). -/
structure Pipe (σ α : Type) where
  imp : σ → Frame α → σ × Frame α × Bool
  tasks : σ → σ

/-- State and frame after the processing, its result, and the sub-frames as they were given to the pipeline and as it left
them. (Part of the model of roc_pipeline/pipeline_loop.cpp:22-387.) -/
structure Out (σ α : Type) where
  st : σ
  frame : Frame α
  ok : Bool
  given : List (Frame α)
  left : List (Frame α)
  deriving DecidableEq

/-- `process_next_subframe_` (pipeline_loop.cpp:346-387): state, frame, position after it, result, the sub-frame before and
after. -/
def next {σ α : Type} (c : Conf) (p : Pipe σ α) (s : σ) (f : Frame α) (pos fd : Nat) :
    Except Err (σ × Frame α × Nat × Bool × Frame α × Frame α) :=
  let sd := if c.maxSub ≠ 0 then min (fd - pos) c.maxSub else fd
  if f.bytes.length < c.bytes pos + c.bytes sd then .error .outside
  else if sd = 0 then .error .abort -- frame.cpp:87-90
  else if f.cts ≠ 0 ∧ f.cts + c.ns pos < 0 then .error .abort -- frame.cpp:103-106
  else
    let g : Frame α := ⟨(f.bytes.drop (c.bytes pos)).take (c.bytes sd), f.flags, sd, if f.cts ≠ 0 then f.cts + c.ns pos else 0⟩
    let r := p.imp s g
    .ok (r.1,
      { bytes := f.bytes.take (c.bytes pos) ++ r.2.1.bytes ++ f.bytes.drop (c.bytes pos + c.bytes sd)
        flags := f.flags ||| r.2.1.flags
        dur := pos + sd
        cts := if pos = 0 then r.2.1.cts else f.cts },
      pos + sd, r.2.2, g, r.2.1)

/-- The loop of `process_subframes_and_tasks_precise_` (pipeline_loop.cpp:238-265). The first argument bounds the number of
iterations. -/
def loop {σ α : Type} (c : Conf) (p : Pipe σ α) : Nat → σ → Frame α → Nat → Nat → Except Err (Out σ α)
  | 0, _, _, _, _ => .error .endless
  | n + 1, s, f, pos, fd =>
    match next c p s f pos fd with
    | .error e => .error e
    | .ok (s, f, pos, ok, g, l) =>
      if !ok ∨ pos = fd then .ok ⟨p.tasks s, f, ok, [g], [l]⟩
      else match loop c p n (p.tasks s) f pos fd with
        | .error e => .error e
        | .ok o => .ok { o with given := g :: o.given, left := l :: o.left }

/-- `process_subframes_and_tasks` (pipeline_loop.cpp:195-278). -/
def process {σ α : Type} (c : Conf) (p : Pipe σ α) (s : σ) (f : Frame α) : Except Err (Out σ α) :=
  if c.precise then
    let fd := if f.dur ≠ 0 then f.dur else c.ticks f.bytes.length
    loop c p (fd + 1) s f 0 fd
  else
    let r := p.imp s f
    .ok ⟨r.1, r.2.1, r.2.2, [f], [r.2.1]⟩

/-- `SenderLoop::write` or `ReceiverLoop::read` once: `wait` is the number of ticks for which the ticker was waited for,
`ticks` is `ticker_ts_` afterwards. (Part of the model of roc_pipeline/pipeline_loop.cpp:22-387.) -/
structure Done (σ α : Type) where
  out : Out σ α
  wait : Option Nat
  ticks : Nat
  deriving DecidableEq

/-- `SenderLoop::write` (sender_loop.cpp:217-245) at the time `now`. -/
def write {σ α : Type} (c : Conf) (p : Pipe σ α) (now : Int) (ticks : Nat) (s : σ) (f : Frame α) : Except Err (Done σ α) :=
  if c.autoDur ∧ f.dur ≠ 0 then .error .abort
  else if c.autoDur ∧ c.ticks f.bytes.length = 0 then .error .abort
  else
    let f := if c.autoDur then { f with dur := c.ticks f.bytes.length } else f
    if c.autoCts ∧ f.cts ≠ 0 then .error .abort
    else if c.autoCts ∧ now < 0 then .error .abort
    else
      let f := if c.autoCts then { f with cts := now } else f
      if c.timing ∧ f.dur = 0 then .error .abort
      else match process c p s f with
        | .error e => .error e
        | .ok o => .ok ⟨o, if c.timing then some ticks else none, if c.timing then ticks + f.dur else ticks⟩

/-- `ReceiverLoop::read` (receiver_loop.cpp:227-249) without `reclock`. -/
def read {σ α : Type} (c : Conf) (p : Pipe σ α) (ticks : Nat) (s : σ) (f : Frame α) : Except Err (Done σ α) :=
  match process c p s f with
  | .error e => .error e
  | .ok o =>
    if o.ok = false then .ok ⟨o, if c.timing then some ticks else none, ticks⟩
    else if o.frame.dur = 0 then .error .abort
    else .ok ⟨o, if c.timing then some ticks else none, ticks + o.frame.dur⟩

/-- Result of a function of the API: -1, zero without any effect, or what was done. (Part of the model of roc_pipeline/pipeline_loop.cpp:22-387.) -/
inductive Api (β : Type) where
  | invalid
  | nothing
  | done (x : β)
  deriving DecidableEq

/-- `roc_sender_write` (sender.cpp:178-217): `frame` is `none` for NULL, else `samples` (`none` for NULL) and
`samples_size`. -/
def apiWrite {σ α : Type} (c : Conf) (p : Pipe σ α) (now : Int) (ticks : Nat) (s : σ) (frame : Option (Option (List α) × Nat)) :
    Except Err (Api (Done σ α)) :=
  match frame with
  | none => .ok .invalid
  | some (samples, size) =>
    if size = 0 then .ok .nothing
    else if size % (c.chans * 4) ≠ 0 then .ok .invalid
    else match samples with
      | none => .ok .invalid
      | some b => (write c p now ticks s (Frame.new (b.take (size / 4 * 4)))).map .done

/-- `roc_receiver_read` (receiver.cpp:179-222). The result is zero exactly if the frame was read. -/
def apiRead {σ α : Type} (c : Conf) (p : Pipe σ α) (ticks : Nat) (s : σ) (frame : Option (Option (List α) × Nat)) :
    Except Err (Api (Done σ α)) :=
  match frame with
  | none => .ok .invalid
  | some (samples, size) =>
    if size = 0 then .ok .nothing
    else if size % (c.chans * 4) ≠ 0 then .ok .invalid
    else match samples with
      | none => .ok .invalid
      | some b => (read c p ticks s (Frame.new (b.take (size / 4 * 4)))).map .done

end Verif.FramePath
