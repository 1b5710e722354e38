import Verif.ResamplerWriter.Model
import Verif.BuiltinResampler.Spec

/-!
# Resampler writer: specification
-/

namespace Verif.ResamplerWriter.Spec

open Verif.BuiltinResampler

variable {β : Type}

/-- Block number `t` of a stream. -/
def block (xs : List β) (f t : Nat) : List β := (xs.drop (t * f)).take f

/-- Number of output samples from position `p` that can be computed from `k` blocks. -/
def count (q dt p k : Nat) : Nat := ((k - 2) * q - p + (dt - 1)) / dt

/-- Positions of all output samples of a history; `n` elements were written before, and `p` is the
position of the next output sample. After `n` elements are written, `(n - 1) / f` blocks
are used: a block that was just completed is used by the next call. -/
def positions (f q : Nat) : List (Op β) → Nat → Nat → Nat → List Nat
  | [], _, _, _ => []
  | .set dt :: ops, _, n, p => positions f q ops dt n p
  | .write xs :: ops, dt, n, p =>
    let m := if xs = [] then 0 else count q dt p ((n + xs.length - 1) / f)
    (List.range m).map (fun j => p + j * dt) ++ positions f q ops dt (n + xs.length) (p + m * dt)

/-- All input of a history. -/
def input : List (Op β) → List β
  | [] => []
  | .set _ :: ops => input ops
  | .write xs :: ops => xs ++ input ops

end Verif.ResamplerWriter.Spec
