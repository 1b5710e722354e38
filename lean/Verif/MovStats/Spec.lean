import Verif.MovStats.Model

/-! Specification: statistics of the last `min n win` samples. -/

namespace Verif.MovStats

/-- The last `win` samples. -/
def window (win : Nat) (xs : List Int) : List Int := xs.drop (xs.length - win)

/-- `m` is the greatest element of `l`. -/
def IsMax (l : List Int) (m : Int) : Prop := m ∈ l ∧ ∀ x ∈ l, x ≤ m

/-- `m` is the least element of `l`. -/
def IsMin (l : List Int) (m : Int) : Prop := m ∈ l ∧ ∀ x ∈ l, m ≤ x

end Verif.MovStats
