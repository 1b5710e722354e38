import Verif.BuiltinResampler.Model

/-!
# Built-in resampler: specification

Positions are numbers with 20 bits after the point, in samples per channel from the beginning of
the previous frame; sample `k` of the three frames is at `k * one`.
-/

namespace Verif.BuiltinResampler.Spec

/-- First sample of the window of half-width `half` around the position `p`. -/
def first (half p : Nat) : Nat := (p - half + (one - 1)) / one

/-- Last sample of that window. -/
def last (half p : Nat) : Nat := (p + half) / one

/-- Position in the table for sample `k`: the distance from `p` multiplied by the step; the product is
rounded down on the left and up on the right. -/
def argAt (step p k : Nat) : Nat :=
  if k * one ≤ p then (p - k * one) * step / one else ((k * one - p) * step + (one - 1)) / one

/-- All samples of the window, from left to right, each with its position in the table; the
fraction for interpolation is that of the first sample on the left, and that of the first sample
on the right. -/
def window (c : Cfg) (sc : Scal) (p ch : Nat) : List Tap :=
  (List.range' (first sc.half p) (last sc.half p + 1 - first sc.half p)).map fun k =>
    ⟨k / c.frame, k % c.frame * c.nch + ch, argAt sc.step p k,
      fractOf c (argAt sc.step p (if k * one ≤ p then first sc.half p else p / one + 1))⟩

/-- The table has an entry for the whole window, and one more. -/
def Fits (c : Cfg) (sc : Scal) : Prop :=
  (sc.half * sc.step + (one - 1)) / one < c.win * one + 2 ^ (20 - c.bits)

/-- What the output sample at position `p` of an endless input, made of blocks of length `q`, is
computed from. -/
def observe {α : Type} (blk : Nat → α) (q p : Nat) : Obs α :=
  ⟨some (blk (p / q)), some (blk (p / q + 1)), some (blk (p / q + 2)), p % q⟩

/-- The step after each output sample of a history: the value set last. -/
def steps : List Op → Nat → List Nat
  | [], _ => []
  | .set dt :: ops, _ => steps ops dt
  | .read n :: ops, dt => List.replicate n dt ++ steps ops dt

/-- Position of output sample number `j`: the sum of all steps before it. -/
def position (ds : List Nat) (j : Nat) : Nat := (ds.take j).sum

/-- Number of blocks needed for `n` output samples: those up to the one after the block of the last
sample, and one more. -/
def needed (ds : List Nat) (q n : Nat) : Nat :=
  if n = 0 then 0 else position ds (n - 1) / q + 3

end Verif.BuiltinResampler.Spec
