import Verif.PcmFormat.FloatModel

/-!
# Decimation resampler: model

Models `roc_audio/decimation_resampler.cpp`: `set_scaling`, `end_push_input`, `pop_output`.

Samples are of an arbitrary type `S`, as they are only copied. Values of type `float` are rational
numbers with 24 bits (`PcmFormat.rnd`); the range of exponents is not bounded. The inner resampler
is not modelled here: what its `pop_output` puts to our buffer at every call is a parameter (the
list of chunks). The part of `in_buf_` past `in_size_` is not represented. The counters and the
limiter used for reports (lines 199, 205, 228, 230) are not represented.
-/

namespace Verif.Decimation

open Verif.PcmFormat

/-- `InputFrameSize`: `decimation_resampler.cpp:24`. -/
def frameSize : Nat := 16

/-- What can go wrong: `roc_panic`, or a loop that does not end. (Part of the model of roc_audio/decimation_resampler.cpp:24-233.) -/
inductive Err where
  | panic
  | hang
  deriving DecidableEq, Repr

/-- Fields of the resampler: `decimation_resampler.h`, initialized at
`decimation_resampler.cpp:34-47`. The first `in_size_` samples of `in_buf_` are `inBuf`. -/
structure St (S : Type) where
  useInner : Bool
  mult : ℚ
  inBuf : List S
  inPos : Nat
  acc : ℚ
  last : List S
  deriving DecidableEq

/-- The constructor: `decimation_resampler.cpp:34-47, 83-92`; the buffer of the last samples is
filled with zeros. -/
def init {S : Type} (n : Nat) (zero : S) (useInner : Bool) : St S :=
  { useInner := useInner, mult := 1, inBuf := [], inPos := 0, acc := 0, last := List.replicate n zero }

/-- Condition of `set_scaling` on the multiplier: `decimation_resampler.cpp:110-113`. The size of
`in_buf_` is `InputFrameSize * num_ch_` (line 83). -/
def multOk (n : Nat) (m : ℚ) : Bool :=
  decide (¬ (m ≤ 0 ∨ |rnd 24 (rnd 24 ((frameSize * n : Nat) / m) - (frameSize * n : Nat))| > n))

/-- `set_scaling`: `decimation_resampler.cpp:104-137`. `innerOk` is the answer of `set_scaling` of the
inner resampler. -/
def setScaling {S : Type} (n : Nat) (st : St S) (inRate outRate : Nat) (m : ℚ) (innerOk : Bool) :
    Bool × St S :=
  if inRate = 0 ∨ outRate = 0 ∨ multOk n m = false then (false, st)
  else
    let st := { st with useInner := decide (inRate ≠ outRate) }
    if st.useInner && !innerOk then (false, st)
    else (true, { st with mult := m })

/-- The part of `end_push_input` and of `pop_output` that starts a new portion of input:
`decimation_resampler.cpp:161-163, 181-183`. -/
def take {S : Type} (st : St S) (data : List S) : St S :=
  { st with inBuf := data, inPos := 0, acc := rnd 24 (st.acc + rnd 24 ((data.length : ℚ) / st.mult)) }

/-- `end_push_input`: `decimation_resampler.cpp:151-164`; `data` is what was written to the buffer
returned by `begin_push_input`. If there is an inner resampler, it gets the data. -/
def push {S : Type} (st : St S) (data : List S) : St S :=
  if st.useInner then st else take st data

/-- `in_size_ - in_pos_`. (Part of the model of roc_audio/decimation_resampler.cpp:24-233.) -/
def rem {S : Type} (st : St S) : Nat := st.inBuf.length - st.inPos

/-- Insert or skip samples: `decimation_resampler.cpp:192-206`. `out` is what is written to the output
buffer so far. -/
def adjust {S : Type} (n : Nat) (st : St S) (out : List S) : St S × List S :=
  if (⌊st.acc⌋ : ℚ) ≥ rnd 24 (rnd 24 (rem st) + n) then
    ({ st with acc := rnd 24 (st.acc - n) }, out ++ st.last)
  else if (⌈st.acc⌉ : ℚ) ≤ rnd 24 (rnd 24 (rem st) - n) then
    ({ st with inPos := st.inPos + n }, out)
  else (st, out)

/-- Copy samples: `decimation_resampler.cpp:208-224`. -/
def copy {S : Type} (n : Nat) (st : St S) (out : List S) (outSize : Nat) :
    Except Err (St S × List S) :=
  let c := min (rem st) (outSize - out.length)
  if c ≠ 0 then
    if c % n ≠ 0 then .error .panic
    else
      let out := out ++ (st.inBuf.drop st.inPos).take c
      .ok ({ st with inPos := st.inPos + c, acc := rnd 24 (st.acc - c),
                     last := out.drop (out.length - n) }, out)
  else .ok (st, out)

/-- The loop of `pop_output`: `decimation_resampler.cpp:171-225`. Returns the fields, the output,
and the chunks of the inner resampler that were not asked for. A call of the inner resampler that
has nothing to give is a chunk of no samples, also when the list is over. -/
def popLoop {S : Type} (n : Nat) (outSize : Nat) : Nat → St S → List S → List (List S) →
    Except Err (St S × List S × List (List S))
  | 0, _, _, _ => .error .hang
  | fuel + 1, st, out, chunks =>
    if out.length < outSize then
      if ¬ (st.inBuf.length % n = 0 ∧ st.inPos % n = 0 ∧ st.inPos ≤ st.inBuf.length) then .error .panic
      else if ¬ (outSize % n = 0 ∧ out.length % n = 0 ∧ out.length ≤ outSize) then .error .panic
      else
        let st' := if st.inPos = st.inBuf.length ∧ st.useInner then take st (chunks.headD []) else st
        let chunks' := if st.inPos = st.inBuf.length ∧ st.useInner then chunks.tail else chunks
        if st'.inPos = st'.inBuf.length then .ok (st', out, chunks')
        else
          let a := adjust n st' out
          (copy n a.1 a.2 outSize).bind fun r => popLoop n outSize fuel r.1 r.2 chunks'
    else .ok (st, out, chunks)

/-- `pop_output`: `decimation_resampler.cpp:166-233`. The loop is given as many iterations as there
are samples around, plus one; that this is enough is proved. -/
def pop {S : Type} (n : Nat) (st : St S) (outSize : Nat) (chunks : List (List S)) :
    Except Err (St S × List S × List (List S)) :=
  popLoop n outSize (outSize + rem st + chunks.flatten.length + 1) st [] chunks

end Verif.Decimation
