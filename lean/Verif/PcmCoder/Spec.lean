import Verif.PcmCoder.Model
import Verif.PcmFormat.Spec

/-!
# PCM encoder and decoder: specification

Written without the model of the coders: what a raw sample becomes in a frame, what a frame
stands for, and how a frame is consumed.
-/

namespace Verif.PcmCoder.Spec

open Verif.PcmFormat

/-- The level of `w` bits for a raw sample: clipped to [-1, 1), scaled, and cut towards zero. -/
def quantize (w : Nat) : Flt → Int
  | .nan => 0
  | .inf neg => if neg then -2 ^ (w - 1) else 2 ^ (w - 1) - 1
  | .num q =>
    if q < -1 then -2 ^ (w - 1)
    else if 1 ≤ q then 2 ^ (w - 1) - 1
    else if 0 ≤ q then ⌊q * 2 ^ (w - 1)⌋ else ⌈q * 2 ^ (w - 1)⌉

/-- The level of sample `j` in a frame. -/
def levelAt (f : Fmt) (b : List Nat) (j : Nat) : Int :=
  PcmFormat.Spec.level f.code.signed f.code.width
    (PcmFormat.Spec.container f.big (f.code.packed / 8) b (j * (f.code.packed / 8)))

/-- The raw sample for a level: a number from -1 to 1, with 24 significant bits. A level of more
than 53 bits is first rounded to those. -/
def rawOf (w : Nat) (l : Int) : ℚ := rnd 24 (rnd 53 (l : ℚ)) / 2 ^ (w - 1)

/-- The samples of a frame with the numbers from `s` to `s + n`. -/
def samples (f : Fmt) (b : List Nat) (s n : Nat) : List ℚ :=
  (List.range n).map fun j => rawOf f.code.width (levelAt f b (s + j))

/-- A sample that a `float` can hold and that is not a NaN. -/
def IsSample : Flt → Prop
  | .nan => False
  | .inf _ => True
  | .num q => rnd 24 q = q

/-- Are the calls in the right order: `begin`, then any number of `write`, then `end`, and so
on. The argument tells if there is a frame. -/
def paired : Bool → List EncOp → Bool
  | _, [] => true
  | false, .begin _ :: ops => paired true ops
  | true, .write _ :: ops => paired true ops
  | true, .finish :: ops => paired false ops
  | _, _ => false

/-- The same for the decoder. -/
def pairedDec : Bool → List DecOp → Bool
  | _, [] => true
  | false, .begin _ _ :: ops => pairedDec true ops
  | true, .read _ :: ops => pairedDec true ops
  | true, .shift _ :: ops => pairedDec true ops
  | true, .finish :: ops => pairedDec false ops
  | _, _ => false

/-- What `write` should return for each of the buffers, if there is room for `cap` values and
`used` values were passed before. -/
def counts (nch cap : Nat) : Nat → List (List Flt) → List Nat
  | _, [] => []
  | used, l :: ls => min l.length (cap - used) / nch :: counts nch cap (used + l.length) ls

/-- A request for samples from a frame: to read them or to skip them. -/
structure Req where
  skip : Bool
  n : Nat

/-- What requests should return, if `s` of `total` samples of the frame were consumed:
numbers and samples of each, and the number consumed. -/
def serve (f : Fmt) (nch total : Nat) (b : List Nat) : Nat → List Req → List (Nat × List ℚ) × Nat
  | s, [] => ([], s)
  | s, r :: rs =>
    let k := min r.n (total - s)
    let q := serve f nch total b (s + k) rs
    ((k, if r.skip then [] else samples f b (s * nch) (k * nch)) :: q.1, q.2)

end Verif.PcmCoder.Spec
