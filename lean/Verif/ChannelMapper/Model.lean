import Verif.ChannelSet.Model

/-!
# Channel mapper

Model of `src/internal_modules/roc_audio/channel_mapper.cpp`. Samples are an arbitrary type `α`;
mapping that involves a multitrack set only copies samples or writes zero. The multiplications
of the surround-to-surround mapping are an abstract accumulator, its clipping an abstract function
(floating point is not modelled). `none` is `roc_panic` or an access outside of a buffer.
-/

namespace Verif.ChannelMapper

open Verif.ChannelSet

/-- The moving pointers of the mapping loops: offset of `in_samples` in the input buffer, offset of
`out_samples` in the output buffer, and the output buffer. (Part of the model of roc_audio/channel_mapper.cpp:16-192.) -/
structure Cur (α : Type) where
  ip : Nat
  op : Nat
  out : List α

variable {α : Type}

/-- `*out_samples++ = v`; outside of the buffer is an invalid access. (Part of the model of roc_audio/channel_mapper.cpp:16-192.) -/
def Cur.put (c : Cur α) (v : α) : Option (Cur α) :=
  if c.op < c.out.length then some { c with op := c.op + 1, out := c.out.set c.op v } else none

/-- Body of the channel loop of `map_multitrack_multitrack_` (channel_mapper.cpp:139-148). -/
def mmStep (zero : α) (cin cout : CSet) (inp : List α) (c : Cur α) (ch : Nat) : Option (Cur α) :=
  (cin.hasChannel ch).bind fun hi => (cout.hasChannel ch).bind fun ho =>
    if hi then
      if ho then
        (inp[c.ip]?).bind fun v => (c.put v).map fun c => { c with ip := c.ip + 1 }
      else some { c with ip := c.ip + 1 }
    else if ho then c.put zero
    else some c

/-- `map_multitrack_multitrack_` (channel_mapper.cpp:133-151). -/
def mapMM (zero : α) (cin cout inout : CSet) (inp : List α) (n : Nat) (c : Cur α) : Option (Cur α) :=
  (List.range n).foldlM (fun c _ =>
    inout.firstChannel.bind fun first => inout.lastChannel.bind fun last =>
      (List.range' first (last + 1 - first)).foldlM (mmStep zero cin cout inp) c) c

/-- Body of the loop of `map_multitrack_surround_` (channel_mapper.cpp:112-121); the second
component is `in_ch`. -/
def msStep (zero : α) (nIn : Nat) (inp : List α) (c : Cur α × Nat) (_ : Nat) : Option (Cur α × Nat) :=
  if c.2 < nIn then
    (inp[c.1.ip]?).bind fun v => (c.1.put v).map fun c' => ({ c' with ip := c'.ip + 1 }, c.2 + 1)
  else (c.1.put zero).map fun c' => (c', c.2)

/-- `map_multitrack_surround_` (channel_mapper.cpp:104-128). -/
def mapMS (zero : α) (cin cout : CSet) (inp : List α) (n : Nat) (c : Cur α) : Option (Cur α) :=
  (List.range n).foldlM (fun c _ =>
    ((List.range cout.numChannels).foldlM (msStep zero cin.numChannels inp) (c, 0)).map fun r =>
      if r.2 < cin.numChannels then { r.1 with ip := r.1.ip + (cin.numChannels - r.2) } else r.1) c

/-- Floating point part of `map_surround_surround_`: `acc o i s x` is `s + x * coeff(o, i)`,
`clip` is the pair of `min`/`max` (channel_mapper.cpp:88, 91-92). -/
structure Arith (α : Type) where
  zero : α
  acc : Nat → Nat → α → α → α
  clip : α → α

/-- `map_surround_surround_` (channel_mapper.cpp:80-99). `coeff` indexes a 17x17 matrix
(roc_audio/channel_mapper_matrix.h:55-57), outside of it is an invalid access. -/
def mapSS (ar : Arith α) (cin cout : CSet) (inp : List α) (n : Nat) (c : Cur α) : Option (Cur α) :=
  (List.range n).foldlM (fun c _ =>
    ((List.range cout.numChannels).foldlM (fun c o =>
      ((List.range cin.numChannels).foldlM (fun s i =>
        if o < 17 ∧ i < 17 then (inp[c.ip + i]?).map fun x => ar.acc o i s x else none) ar.zero).bind
        fun s => c.put (ar.clip s)) c).map
      fun c => { c with ip := c.ip + cin.numChannels }) c

/-- Constructor and `map` (channel_mapper.cpp:16-75, 153-192): validation of the sets, selection of
the mapping function, validation of the buffer sizes, mapping. `inp.length` and `out.length` are
`n_in_samples` and `n_out_samples`. -/
def map (ar : Arith α) (cin cout : CSet) (inp out : List α) : Option (List α) :=
  if ¬ cin.isValid ∨ ¬ cout.isValid then none
  else
    let inout := cin.or cout
    if inp.length % cin.numChannels ≠ 0 then none
    else if out.length % cout.numChannels ≠ 0 then none
    else if inp.length / cin.numChannels ≠ out.length / cout.numChannels then none
    else
      let n := inp.length / cin.numChannels
      let c : Cur α := ⟨0, 0, out⟩
      (match cin.layout, cout.layout with
        | .surround, .surround => mapSS ar cin cout inp n c
        | .surround, .multitrack => mapMS ar.zero cin cout inp n c
        | .multitrack, .surround => mapMS ar.zero cin cout inp n c
        | .multitrack, .multitrack => mapMM ar.zero cin cout inout inp n c
        | _, _ => none).map Cur.out

end Verif.ChannelMapper
