import Verif.BuiltinResampler.Model

/-!
# Resampler writer: model

Models `ResamplerWriter::write` and `push_input_` of `roc_audio/resampler_writer.cpp` on top of the
model of the built-in resampler. An element of the input (`β`) is one sample of every channel. Capture
timestamps are in `Verif.ResamplerTime`.
-/

namespace Verif.ResamplerWriter

open Verif.BuiltinResampler

variable {β : Type}

/-- State of the resampler and of the writer: `input_buf_` (number of the buffer), `input_buf_pos_`
(per channel), and the samples in `output_buf_`, which are `output_buf_pos_` in number (per
channel). (Part of the model of roc_audio/resampler_writer.cpp:17-181.) -/
structure W (β : Type) where
  st : St (List β)
  buf : Nat
  inPos : Nat
  acc : List (Obs (List β))

/-- After the constructor: `resampler_writer.cpp:17-61`. -/
def W.init : W β := ⟨St.init, 0, 0, []⟩

/-- `memcpy` to a part of a buffer: `resampler_writer.cpp:129-130`. Elements of the buffer that were never
written are left out. -/
def copyAt (old : Option (List β)) (pos : Nat) (xs : List β) : List β :=
  (old.getD []).take pos ++ xs ++ (old.getD []).drop (pos + xs.length)

/-- `push_input_`: `resampler_writer.cpp:123-142`. `xs` is the rest of the input frame; the result has the
number of elements copied. -/
def pushInput (c : Cfg) (xs : List β) (w : W β) : Nat × W β :=
  let b := if w.inPos = 0 then w.st.begin else (w.buf, w.st)
  let n := min xs.length (c.frame - w.inPos)
  let st := b.2.fill b.1 (copyAt (b.2.content b.1) w.inPos (xs.take n))
  if w.inPos + n = c.frame then (n, { w with st := st.finish c, buf := b.1, inPos := 0 })
  else (n, { w with st := st, buf := b.1, inPos := w.inPos + n })

/-- `pop_output` as it is called by `write`, for a buffer with `room` samples left:
`resampler_writer.cpp:90-93`, `builtin_resampler.cpp:275, 287-291`. The loop writes all channels at
once while there is any room, so the number of repetitions is rounded up; to write more than fits is
undefined behaviour. -/
def popRoom (c : Cfg) (dt room : Nat) (st : St (List β)) :
    Except Err (List (Obs (List β)) × St (List β)) :=
  let r := pop c dt ((room + (c.nch - 1)) / c.nch) st
  if r.1.length * c.nch > room then .error .undef else .ok r

/-- A frame passed on: its samples, and what its timestamp is computed from (see
`Verif.ResamplerTime`): `in_pos` (per channel), `input_buf_pos_` (per channel) and the value behind
`n_left_to_process`: `resampler_writer.cpp:99-107, 113-116, 153-166`. -/
structure Out (β : Type) where
  samples : List (Obs (List β))
  inPos : Nat
  bufPos : Nat
  left : Nat

/-- The loop of `write`: `resampler_writer.cpp:89-111`. `size` is the size of `output_buf_` in samples, `pos`
is `in_pos` (per channel). The result is the frames written and the state. -/
def writeLoop (c : Cfg) (dt size : Nat) :
    Nat → Nat → List β → W β → Except Err (List (Out β) × W β)
  | fuel, pos, xs, w =>
    if xs = [] then .ok ([], w)
    else match fuel with
      | 0 => .error .hang
      | fuel + 1 =>
        (popRoom c dt (size - w.acc.length * c.nch) w.st).bind fun r =>
          let w1 := { w with st := r.2 }
          let p := if r.1.length * c.nch < size - w.acc.length * c.nch then pushInput c xs w1 else (0, w1)
          let acc := w.acc ++ r.1
          if acc.length * c.nch = size then
            (writeLoop c dt size fuel (pos + p.1) (xs.drop p.1) { p.2 with acc := [] }).map fun q =>
              (⟨acc, pos + p.1, p.2.inPos, nLeft c p.2.st⟩ :: q.1, q.2)
          else writeLoop c dt size fuel (pos + p.1) (xs.drop p.1) { p.2 with acc := acc }

/-- `write`: `resampler_writer.cpp:80-120`, for a frame with the samples `xs`. -/
def write (c : Cfg) (dt size fuel : Nat) (xs : List β) (w : W β) : Except Err (List (Out β) × W β) :=
  (writeLoop c dt size fuel 0 xs w).map fun q =>
    if q.2.acc.length ≠ 0 then
      (q.1 ++ [⟨q.2.acc, xs.length, q.2.inPos, nLeft c q.2.st⟩], { q.2 with acc := [] })
    else q

/-- What a user does: `set_scaling` that is accepted and sets `qt_dt_`, and `write` of a frame. (Part of the model of roc_audio/resampler_writer.cpp:17-181.) -/
inductive Op (β : Type) where
  | set (dt : Nat)
  | write (xs : List β)

/-- A history of calls; the result is the frames written. (Part of the model of roc_audio/resampler_writer.cpp:17-181.) -/
def run (c : Cfg) (size fuel : Nat) :
    List (Op β) → Nat → W β → Except Err (List (Out β) × W β)
  | [], _, w => .ok ([], w)
  | .set dt :: ops, _, w => run c size fuel ops dt w
  | .write xs :: ops, dt, w =>
    (write c dt size fuel xs w).bind fun r =>
      (run c size fuel ops dt r.2).map fun q => (r.1 ++ q.1, q.2)

end Verif.ResamplerWriter
