import Verif.ChannelMapper.Model
import Verif.ChannelSet.Spec

/-! # What mapping between channel sets means -/

namespace Verif.ChannelMapper

open Verif.ChannelSet

/-- Position of channel `ch` inside one multi-channel sample: the number of smaller channels. -/
def rank (A : Finset Nat) (ch : Nat) : Nat := (A.filter (· < ch)).card

/-- The channels of a set in increasing order. -/
def chanList (A : Finset Nat) : List Nat := (List.range 1024).filter (· ∈ A)

variable {α : Type}

/-- Output of a multitrack to multitrack mapping: sample by sample, the output channels in
increasing order, each holding the input sample of the same channel, or zero. -/
def specMM (zero : α) (A B : Finset Nat) (inp : List α) (n : Nat) : List α :=
  (List.range n).flatMap fun ns => (chanList B).map fun ch =>
    if ch ∈ A then (inp[ns * A.card + rank A ch]?).getD zero else zero

/-- Output of a mapping between a multitrack and a surround set: the first channels in order. -/
def specMS (zero : α) (nIn nOut : Nat) (inp : List α) (n : Nat) : List α :=
  (List.range n).flatMap fun ns => (List.range nOut).map fun j =>
    if j < nIn then (inp[ns * nIn + j]?).getD zero else zero

/-- Output of a mapping between surround sets: one clipped accumulation per output channel. -/
def specSS (ar : Arith α) (nIn nOut : Nat) (inp : List α) (n : Nat) : List α :=
  (List.range n).flatMap fun ns => (List.range nOut).map fun o =>
    ar.clip ((List.range nIn).foldl (fun s i => ar.acc o i s ((inp[ns * nIn + i]?).getD ar.zero)) ar.zero)

end Verif.ChannelMapper
