import Mathlib.Data.Rat.Floor

/-!
# Mixer

Model of `src/internal_modules/roc_audio/mixer.cpp`. A sample is a number or NaN (`none`). The addition of numbers is a parameter, so that the
rounding of floating point can be put there; infinities are not modelled. The capture timestamp is computed with exact numbers instead of `double`.
-/

namespace Verif.Mixer

/-- `sample_t` (roc_audio/sample.h:22): a number or NaN. -/
abbrev S := Option Rat

/-- What a reader has put into a frame (frame.h:24-110). -/
structure Resp where
  samples : List S
  flags : Nat
  cts : Int
deriving DecidableEq

/-- Ways to abort: `roc_panic` (roc_core/panic.h:50). -/
inductive Fault
  | panic
deriving DecidableEq

/-- Readers (iframe_reader.h:22-35): `rd s n` is `read` with a buffer of `n` samples in the state `s`; `none` if it returns false. -/
abbrev Rd (σ : Type) := σ → Nat → Option Resp × σ

/-- Members (mixer.h:76-80): the readers, the size of the temporary buffer, the number of channels, `enable_timestamps_`. -/
structure Mx (σ : Type) where
  readers : List σ
  maxRead : Nat
  chans : Nat
  ts : Bool

/-- `std::min(x, Sample_Max)` then `std::max(x, Sample_Min)` (mixer.cpp:131-132; sample.cpp:13-14): comparisons with NaN are false. -/
def clip : S → S
  | none => none
  | some x => some (let y := if 1 < x then 1 else x; if y < -1 then -1 else y)

/-- One output sample and one input sample (mixer.cpp:124-130). -/
def mixOne (add : Rat → Rat → Rat) (o t : S) : S := clip (o.bind fun x => t.map fun y => add x y)

/-- Variables of `read_` (mixer.cpp:104-112). -/
structure Acc where
  out : List S
  flags : Nat
  base : Int
  sum : Int
  count : Nat

/-- The body of the loop when the reader has returned a frame (mixer.cpp:124-147). -/
def Acc.frame (add : Rat → Rat → Rat) (ts : Bool) (a : Acc) (r : Resp) : Acc where
  out := List.zipWith (mixOne add) a.out r.samples
  flags := a.flags ||| r.flags
  base := if ts = true ∧ r.cts ≠ 0 ∧ a.base = 0 then r.cts else a.base
  sum := if ts = true ∧ r.cts ≠ 0 then a.sum + (r.cts - (if a.base = 0 then r.cts else a.base)) else a.sum
  count := if ts = true ∧ r.cts ≠ 0 then a.count + 1 else a.count

/-- The loop over readers (mixer.cpp:114-148). -/
def loop {σ : Type} (add : Rat → Rat → Rat) (rd : Rd σ) (ts : Bool) (n : Nat) : List σ → Acc → List σ × Acc
  | [], a => ([], a)
  | s :: ss, a =>
    let r := rd s n
    let rest := loop add rd ts n ss (match r.1 with | none => a | some x => a.frame add ts x)
    (r.2 :: rest.1, rest.2)

/-- Conversion of a number to an integer: toward zero. (Part of the model of roc_audio/mixer.cpp:55-159.) -/
def trunc (q : Rat) : Int := if 0 ≤ q then ⌊q⌋ else ⌈q⌉

/-- `read_` (mixer.cpp:103-159): readers, samples, flags, capture timestamp. -/
def read_ {σ : Type} (add : Rat → Rat → Rat) (rd : Rd σ) (m : Mx σ) (n : Nat) (flags : Nat) (cts : Int) : List σ × List S × Nat × Int :=
  let r := loop add rd m.ts n m.readers ⟨List.replicate n (some 0), flags, 0, 0, 0⟩
  (r.1, r.2.out, r.2.flags,
    if r.2.count ≠ 0 then trunc ((r.2.base : Rat) * ((r.2.count : Rat) / (m.readers.length : Rat)) + (r.2.sum : Rat) / (m.readers.length : Rat)) else cts)

/-- The loop of `read` (mixer.cpp:72-88). Each pass reads at least one sample (the temporary buffer is not empty), so `n` passes suffice. -/
def chunkLoop {σ : Type} (add : Rat → Rat → Rat) (rd : Rd σ) : Nat → Mx σ → Nat → Nat → Int → Mx σ × List S × Nat × Int
  | 0, m, _, fl, cts => (m, [], fl, cts)
  | fuel + 1, m, n, fl, cts =>
    if n = 0 then (m, [], fl, cts)
    else
      let k := if n > m.maxRead then m.maxRead else n
      let r := read_ add rd m k fl cts
      let q := chunkLoop add rd fuel { m with readers := r.1 } (n - k) r.2.2.1 r.2.2.2
      (q.1, r.2.1 ++ q.2.1, q.2.2)

/-- A frame: samples, flags, duration, capture timestamp (frame.h:105-109). -/
structure Frame where
  samples : List S
  flags : Nat
  dur : Nat
  cts : Int
deriving DecidableEq

/-- `set_duration` panics for zero, `set_capture_timestamp` for negative values (frame.cpp:87-93, 103-109). -/
def Frame.mk? (samples : List S) (flags dur : Nat) (cts : Int) : Except Fault Frame :=
  if dur = 0 ∨ cts < 0 then .error .panic else .ok ⟨samples, flags, dur, cts⟩

/-- `read` (mixer.cpp:55-95). `f` is the frame given by the caller. A single reader sets the duration itself
(frame.h: readers fill the frame); here it is what the number of samples gives. -/
def read {σ : Type} (add : Rat → Rat → Rat) (rd : Rd σ) (m : Mx σ) (f : Frame) : Except Fault (Mx σ × Frame) :=
  match m.readers with
  | [s] =>
    let r := rd s f.samples.length
    match r.1 with
    | none => (Frame.mk? f.samples f.flags (f.samples.length / m.chans) (if m.ts then f.cts else 0)).map fun g => ({ m with readers := [r.2] }, g)
    | some x => (Frame.mk? x.samples x.flags (f.samples.length / m.chans) (if m.ts then x.cts else 0)).map fun g => ({ m with readers := [r.2] }, g)
  | _ =>
    let r := chunkLoop add rd f.samples.length m f.samples.length 0 0
    (Frame.mk? r.2.1 r.2.2.1 (f.samples.length / m.chans) r.2.2.2).map fun g => (r.1, g)

/-- Reads of frames one after another; the frames come with empty flags and timestamps. (Part of the model of roc_audio/mixer.cpp:55-159.) -/
def reads {σ : Type} (add : Rat → Rat → Rat) (rd : Rd σ) : Mx σ → List (List S) → Except Fault (Mx σ × List Frame)
  | m, [] => .ok (m, [])
  | m, b :: bs => (read add rd m ⟨b, 0, 0, 0⟩).bind fun r => (reads add rd r.1 bs).map fun q => (q.1, r.2 :: q.2)

end Verif.Mixer
