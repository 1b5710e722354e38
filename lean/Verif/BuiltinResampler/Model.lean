import Verif.PcmFormat.FloatModel

/-!
# Built-in resampler: model

Models `roc_audio/builtin_resampler.cpp` and `ResamplerReader::read`, `push_input_` of
`roc_audio/resampler_reader.cpp`.

`fixedpoint_t` is 32 bits with 20 bits after the point; its values are natural numbers below 2³²,
and all its operations wrap around. Values of type `float` are rational numbers with 24 bits
(`PcmFormat.rnd`); the range of exponents is not bounded, so underflow and overflow of `float` are
not modelled (a scaling that overflows is rejected either way; one that underflows to zero is
rejected by the code, and taken for a tiny positive number here).

`resample_` adds up products of input samples and values of a table; the model tells which samples
and which entries of the table are used, in order (`Tap`). The sum itself, which is in floating
point, and the contents of the table are not modelled.
-/

namespace Verif.BuiltinResampler

open Verif.PcmFormat

/-- What can go wrong: `roc_panic`; an access outside of a frame or of the table, or a conversion of a
number that does not fit (undefined behaviour); a loop that does not end. (Part of the model of roc_audio/builtin_resampler.cpp:23-513.) -/
inductive Err where
  | panic
  | undef
  | hang
  deriving DecidableEq, Repr

/-- `fixedpoint_t` has 32 bits: `builtin_resampler.cpp:23`. -/
def m32 : Nat := 4294967296

/-- `qt_one`: `builtin_resampler.cpp:30, 33`. -/
def one : Nat := 1048576

/-- Sum of two fixed-point numbers. (roc_audio/builtin_resampler.h:75) -/
def add32 (a b : Nat) : Nat := (a + b) % m32

/-- Difference of two fixed-point numbers. (roc_audio/builtin_resampler.h:75) -/
def sub32 (a b : Nat) : Nat := (a + m32 - b) % m32

/-- `fixedpoint_to_size`: `builtin_resampler.cpp:45-47`. -/
def toSize (x : Nat) : Nat := x / one

/-- `qfloor`: `builtin_resampler.cpp:59-62`; the mask clears the 20 lower bits. -/
def qfloor (x : Nat) : Nat := x / one * one

/-- `qceil`: `builtin_resampler.cpp:50-56`. -/
def qceil (x : Nat) : Nat := if x % one = 0 then x / one * one else add32 (x / one * one) one

/-- `float_to_fixedpoint`: `builtin_resampler.cpp:36-38`, for a non-negative number. A number that
does not fit is undefined behaviour. -/
def toFix (t : ℚ) : Except Err Nat :=
  if rnd 24 (t * one) < m32 then .ok ⌊rnd 24 (t * one)⌋.toNat else .error .undef

/-- What the constructor sets for good: `window_size_`, `window_interp_bits_`, `frame_size_ch_`, and
the number of channels. (roc_audio/builtin_resampler.h:39-139) -/
structure Cfg where
  win : Nat
  bits : Nat
  frame : Nat
  nch : Nat
  deriving DecidableEq, Repr

/-- `get_window_size`: `builtin_resampler.cpp:94-107`; `get_window_interp`, 79-92, as a power of two.
Profiles are numbered from low to high. -/
def profile : Nat → Nat × Nat
  | 0 => (16, 6)
  | 1 => (32, 7)
  | _ => (64, 9)

/-- `get_frame_size`: `builtin_resampler.cpp:109-116`. -/
def frameSize (win inRate outRate : Nat) : Nat :=
  ⌈rnd 24 (win * rnd 24 (rnd 24 (rnd 24 (inRate : ℚ) / rnd 24 (outRate : ℚ)) * (3 / 2)))⌉.toNat

/-- The constructor with `check_config_` and `alloc_frames_`: `builtin_resampler.cpp:120-169,
300-365`, for valid sample specs with equal channel sets and enough memory. `buf` is the capacity of
a buffer in samples; asking for more panics in `Slice::reslice` (`slice.h:132-136`). The result
`none` is a resampler that is not valid. -/
def create (prof nch inRate outRate buf : Nat) : Except Err (Option Cfg) :=
  let f := frameSize (profile prof).1 inRate outRate
  if f * nch > 4096 * nch then .ok none
  else if f * nch > buf then .error .panic
  else .ok (some ⟨(profile prof).1, (profile prof).2, f, nch⟩)

/-- `qt_frame_size_`: `builtin_resampler.cpp:143`. -/
def Cfg.q (c : Cfg) : Nat := c.frame * one % m32

/-- `cutoff_freq_`: `builtin_resampler.cpp:146`. -/
def cutoff : ℚ := rnd 24 (9 / 10)

/-- What `set_scaling` sets: `qt_half_window_size_`, `qt_sinc_step_`, `qt_dt_`. (roc_audio/builtin_resampler.h:39-139) -/
structure Scal where
  half : Nat
  step : Nat
  dt : Nat
  deriving DecidableEq, Repr

/-- `new_scaling` of `set_scaling`: `builtin_resampler.cpp:186`. -/
def newScaling (inRate outRate : Nat) (mult : ℚ) : ℚ :=
  rnd 24 (rnd 24 (rnd 24 (inRate : ℚ) / rnd 24 (outRate : ℚ)) * mult)

/-- The rest of `set_scaling` for a positive `new_scaling`: `builtin_resampler.cpp:194-238`. The
result `none` is `false`. -/
def setScalingTo (c : Cfg) (sc : ℚ) : Except Err (Option Scal) :=
  if rnd 24 (c.win * sc) > rnd 24 ((c.frame - 1 : Nat) : ℚ) then .ok none
  else if sc > 1 then
    (toFix (rnd 24 (rnd 24 (c.win / cutoff) * sc))).bind fun half =>
      if toSize (qceil (sub32 c.q half)) > c.frame ∨ toSize (qfloor half) + 1 > c.frame then .ok none
      else (toFix (rnd 24 (cutoff / sc))).bind fun step =>
        (toFix sc).bind fun dt => .ok (some ⟨half, step, dt⟩)
  else
    (toFix cutoff).bind fun step =>
      (toFix (rnd 24 (c.win / cutoff))).bind fun half =>
        (toFix sc).bind fun dt => .ok (some ⟨half, step, dt⟩)

/-- `set_scaling`: `builtin_resampler.cpp:178-239`. All comparisons with a NaN are false, and its
conversion to fixed-point is undefined behaviour. An infinity is either not positive or too
large. -/
def setScaling (c : Cfg) (inRate outRate : Nat) : Flt → Except Err (Option Scal)
  | .nan => if inRate = 0 ∨ outRate = 0 then .ok none else .error .undef
  | .inf _ => .ok none
  | .num mult =>
    if inRate = 0 ∨ outRate = 0 then .ok none
    else if newScaling inRate outRate mult ≤ 0 then .ok none
    else setScalingTo c (newScaling inRate outRate mult)

/-- One product in the sum of `resample_`: which frame (0 is previous, 1 is current, 2 is next), the
index in it, the position in the table, and the fraction used for interpolation (of 2²⁰). (Part of the model of roc_audio/builtin_resampler.cpp:23-513.) -/
structure Tap where
  slot : Nat
  idx : Nat
  arg : Nat
  fract : Nat
  deriving DecidableEq, Repr

/-- `sinc_` with its access to the table: `builtin_resampler.cpp:399-408`, and the access to a frame;
the table has `window_size * window_interp + 2` entries (line 368). -/
def tap (c : Cfg) (slot idx arg fract : Nat) : Except Err Tap :=
  if idx < c.frame * c.nch ∧ arg / 2 ^ (20 - c.bits) + 1 < c.win * 2 ^ c.bits + 2 then
    .ok ⟨slot, idx, arg, fract⟩
  else .error .undef

/-- `fractional(x << window_interp_bits_)`: `builtin_resampler.cpp:65-67, 467, 498`. -/
def fractOf (c : Cfg) (x : Nat) : Nat := x * 2 ^ c.bits % m32 % one

/-- The loop over the previous frame: `builtin_resampler.cpp:473-476`. The result has the value of
`qt_sinc_cur` after it. -/
def prevLoop (c : Cfg) (sc : Scal) (fract stop : Nat) : Nat → Nat → Nat → Except Err (List Tap × Nat)
  | fuel, i, cur =>
    if ¬ i < stop then .ok ([], cur)
    else match fuel with
      | 0 => .error .hang
      | fuel + 1 =>
        (tap c 0 i cur fract).bind fun t =>
          (prevLoop c sc fract stop fuel (i + c.nch) (sub32 cur sc.step)).map fun r => (t :: r.1, r.2)

/-- The loop over the left part of the current frame, after its first tap:
`builtin_resampler.cpp:482-486`. The result has the values of `i` and `qt_sinc_cur` after it. -/
def leftLoop (c : Cfg) (sc : Scal) (fract : Nat) :
    Nat → Nat → Nat → Except Err (List Tap × Nat × Nat)
  | fuel, i, cur =>
    if ¬ cur ≥ sc.step then .ok ([], i, cur)
    else match fuel with
      | 0 => .error .hang
      | fuel + 1 =>
        (tap c 1 (i + c.nch) (sub32 cur sc.step) fract).bind fun t =>
          (leftLoop c sc fract fuel (i + c.nch) (sub32 cur sc.step)).map fun r =>
            (t :: r.1, r.2.1, r.2.2)

/-- The loops over the right part of the current frame and over the next frame:
`builtin_resampler.cpp:501-510`. Here the loop ends before `stop`. -/
def rightLoop (c : Cfg) (sc : Scal) (slot fract stop : Nat) :
    Nat → Nat → Nat → Except Err (List Tap × Nat)
  | fuel, i, cur =>
    if ¬ i < stop then .ok ([], cur)
    else match fuel with
      | 0 => .error .hang
      | fuel + 1 =>
        (tap c slot i cur fract).bind fun t =>
          (rightLoop c sc slot fract stop fuel (i + c.nch) (add32 cur sc.step)).map fun r =>
            (t :: r.1, r.2)

/-- `ind_begin_prev`: `builtin_resampler.cpp:426-428`. -/
def beginPrev (c : Cfg) (sc : Scal) (s : Nat) : Nat :=
  if s ≥ sc.half then c.frame else toSize (qceil (add32 s (sub32 c.q sc.half)))

/-- `ind_begin_cur`: `builtin_resampler.cpp:434-436`. -/
def beginCur (sc : Scal) (s : Nat) : Nat :=
  if s ≥ sc.half then toSize (qceil (sub32 s sc.half)) else 0

/-- `ind_end_cur`: `builtin_resampler.cpp:440-442`. -/
def endCur (c : Cfg) (sc : Scal) (s : Nat) : Nat :=
  if add32 s sc.half > c.q then c.frame - 1 else toSize (qfloor (add32 s sc.half))

/-- `ind_end_next`: `builtin_resampler.cpp:446-449`. -/
def endNext (c : Cfg) (sc : Scal) (s : Nat) : Nat :=
  if add32 s sc.half > c.q then toSize (qfloor (sub32 (add32 s sc.half) c.q)) + 1 else 0

/-- `qt_sinc_cur` in the beginning: `builtin_resampler.cpp:455-458`. -/
def sincCur (c : Cfg) (sc : Scal) (s : Nat) : Nat :=
  sub32 (add32 c.q s) (qceil (sub32 (add32 c.q s) sc.half)) * sc.step / one % m32

/-- `resample_` for channel `ch` when `qt_sample_` is `s`: `builtin_resampler.cpp:410-513`. In the
loops over `i` the number of repetitions is limited by the size of a frame per channel, in the
other one by `qt_sinc_cur`. -/
def resample (c : Cfg) (sc : Scal) (s ch : Nat) : Except Err (List Tap) :=
  if sc.step = 0 then .error .panic
  else if beginPrev c sc s > c.frame then .error .panic
  else if beginCur sc s > c.frame then .error .panic
  else if endCur c sc s > c.frame then .error .panic
  else if endNext c sc s > c.frame then .error .panic
  else
    let cur0 := sincCur c sc s
    let f0 := fractOf c cur0
    (prevLoop c sc f0 (c.frame * c.nch + ch) (c.frame + 1) (beginPrev c sc s * c.nch + ch) cur0).bind
      fun a =>
    (tap c 1 (beginCur sc s * c.nch + ch) a.2 f0).bind fun b =>
    (leftLoop c sc f0 (a.2 + 1) (beginCur sc s * c.nch + ch) a.2).bind fun d =>
    if d.2.1 + c.nch > c.frame * c.nch + ch then .error .panic
    else
      let cur1 := sub32 sc.step d.2.2
      let f1 := fractOf c cur1
      (rightLoop c sc 1 f1 (endCur c sc s * c.nch + ch + 1) (c.frame + 1) (d.2.1 + c.nch) cur1).bind
        fun e =>
      (rightLoop c sc 2 f1 (endNext c sc s * c.nch + ch) (c.frame + 1) ch e.2).map fun g =>
        a.1 ++ b :: d.1 ++ e.1 ++ g.1

/-- `qt_epsilon_`: `builtin_resampler.cpp:142`. -/
def eps : Nat := ⌊rnd 24 (rnd 24 (1 / 20000000) * one)⌋.toNat

/-- State that changes while the resampler works: order of the three buffers in `frames_`,
`prev_frame_`, `curr_frame_` and `next_frame_` as numbers of buffers, contents of the
buffers (`α` is a block of input), `n_ready_frames_` and `qt_sample_`. (roc_audio/builtin_resampler.h:39-139) -/
structure St (α : Type) where
  order : Nat × Nat × Nat
  ptr : Nat × Nat × Nat
  content : Nat → Option α
  ready : Nat
  s : Nat

variable {α : Type}

/-- After the constructor: `builtin_resampler.cpp:128-131, 144`. The pointers are null, which is never
used before they are set. -/
def St.init : St α := ⟨(0, 1, 2), (0, 1, 2), fun _ => none, 0, 0⟩

/-- `begin_push_input`: `builtin_resampler.cpp:241-252`; the result is the buffer to be filled. -/
def St.begin (st : St α) : Nat × St α :=
  match st.ready with
  | 0 => (st.order.1, st)
  | 1 => (st.order.2.1, st)
  | 2 => (st.order.2.2, st)
  | _ => (st.order.1, { st with order := (st.order.2.1, st.order.2.2, st.order.1) })

/-- The caller fills the buffer. (Part of the model of roc_audio/builtin_resampler.cpp:23-513.) -/
def St.fill (st : St α) (buf : Nat) (x : α) : St α :=
  { st with content := fun k => if k = buf then some x else st.content k }

/-- `end_push_input`: `builtin_resampler.cpp:254-266`. -/
def St.finish (c : Cfg) (st : St α) : St α :=
  { st with
    ptr := st.order
    ready := if st.ready < 3 then st.ready + 1 else st.ready
    s := if st.s ≥ c.q then sub32 st.s c.q else st.s }

/-- What an output sample is computed from: contents of the three frames, and `qt_sample_`. (Part of the model of roc_audio/builtin_resampler.cpp:23-513.) -/
structure Obs (α : Type) where
  prev : Option α
  cur : Option α
  next : Option α
  s : Nat

/-- Rounding of `qt_sample_` in `pop_output`: `builtin_resampler.cpp:280-285`. -/
def snap (s : Nat) : Nat :=
  if s % one < eps then s / one * one
  else if one - s % one < eps then add32 (s / one * one) one
  else s

/-- The loop of `pop_output`: `builtin_resampler.cpp:275-291`, for `n` samples per channel. The result
is what each output sample is computed from. -/
def popLoop (c : Cfg) (dt : Nat) : Nat → St α → List (Obs α) × St α
  | 0, st => ([], st)
  | n + 1, st =>
    if st.s ≥ c.q then ([], st)
    else
      let s := snap st.s
      let r := popLoop c dt n { st with s := add32 s dt }
      (⟨st.content st.ptr.1, st.content st.ptr.2.1, st.content st.ptr.2.2, s⟩ :: r.1, r.2)

/-- `pop_output`: `builtin_resampler.cpp:268-294`. -/
def pop (c : Cfg) (dt n : Nat) (st : St α) : List (Obs α) × St α :=
  if st.ready < 3 then ([], st) else popLoop c dt n st

/-- `ResamplerReader::push_input_`: `resampler_reader.cpp:97-117`. `src` is the answer of the reader
below to the next request: whether it succeeds, and what it has put into the buffer. -/
def pushInput (c : Cfg) (src : Bool × α) (st : St α) : Bool × St α :=
  let b := st.begin
  let st' := b.2.fill b.1 src.2
  if src.1 then (true, st'.finish c) else (false, st')

/-- The loop of `ResamplerReader::read`: `resampler_reader.cpp:74-94`. `src` tells the answers of the
reader below, `k` how many requests were made. The result is `false` or the output. -/
def readLoop (c : Cfg) (dt : Nat) (src : Nat → Bool × α) :
    Nat → Nat → Nat → St α → Except Err (Option (List (Obs α)) × Nat × St α)
  | fuel, n, k, st =>
    if n = 0 then .ok (some [], k, st)
    else match fuel with
      | 0 => .error .hang
      | fuel + 1 =>
        let p := pop c dt n st
        if p.1.length < n then
          let q := pushInput c (src k) p.2
          if q.1 then
            (readLoop c dt src fuel (n - p.1.length) (k + 1) q.2).map fun r =>
              (r.1.map fun l => p.1 ++ l, r.2)
          else .ok (none, k + 1, q.2)
        else .ok (some p.1, k, p.2)

/-- `n_left_to_process`: `builtin_resampler.cpp:296-298`, before the multiplication by the number of
channels; a fixed-point number. -/
def nLeft (c : Cfg) (st : St α) : Nat := sub32 (2 * c.q % m32) st.s

/-- What a user of `ResamplerReader` does: `set_scaling` that is accepted and sets `qt_dt_`, and `read`
of a frame of `n` samples per channel. (Part of the model of roc_audio/builtin_resampler.cpp:23-513.) -/
inductive Op where
  | set (dt : Nat)
  | read (n : Nat)

/-- A history of calls, with a reader below that always succeeds and gives the blocks `blk 0`, `blk 1`
and so on. The result is all output, the number of blocks taken, and the state. (Part of the model of roc_audio/builtin_resampler.cpp:23-513.) -/
def run (c : Cfg) (blk : Nat → α) (fuel : Nat) :
    List Op → Nat → Nat → St α → Except Err (List (Obs α) × Nat × St α)
  | [], _, k, st => .ok ([], k, st)
  | .set dt :: ops, _, k, st => run c blk fuel ops dt k st
  | .read n :: ops, dt, k, st =>
    (readLoop c dt (fun i => (true, blk i)) fuel n k st).bind fun r =>
      match r.1 with
      | none => .ok ([], r.2.1, r.2.2)
      | some l => (run c blk fuel ops dt r.2.1 r.2.2).map fun q => (l ++ q.1, q.2)

end Verif.BuiltinResampler
