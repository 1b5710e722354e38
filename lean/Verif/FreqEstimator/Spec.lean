import Verif.FreqEstimator.Model

/-!
# Frequency estimator: what is computed

Without buffers, indices and counters: as functions of the list of all measurements, the first one first.
-/

namespace Verif.FreqEstimator

/-- The list without every `p`-th element. -/
def kept (p : Nat) (ms : List ℚ) : List ℚ :=
  ((List.range ms.length).filter (fun i => (i + 1) % p ≠ 0)).map (fun i => ms.getD i 0)

/-- The filter applied to a signal, given with the newest value first; what is missing is taken as `t`. -/
def fir (h : Nat → ℚ) (gain t : ℚ) (xs : List ℚ) : ℚ :=
  (∑ j ∈ Finset.range len, h j * xs.getD j t) / gain

/-- One decimating filter: after every tenth value, the filter is applied to this value and the preceding ones, of
which every `p`-th is left out. -/
def decim (h : Nat → ℚ) (gain t : ℚ) (p : Nat) (ms : List ℚ) : List ℚ :=
  (List.range (ms.length / 10)).map fun k =>
    fir h gain t (ms.getD (10 * k + 9) 0 :: (kept p (ms.take (10 * k + 9))).reverse)

/-- The controller: one plus `P` times the last error plus `I` times the sum of all errors. -/
def pi (P I t : ℚ) (ys : List ℚ) : ℚ :=
  match (ys.map (· - t)).getLast? with
  | none => 1
  | some e => 1 + P * e + I * (ys.map (· - t)).sum

end Verif.FreqEstimator
