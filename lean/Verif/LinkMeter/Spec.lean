import Verif.LinkMeter.Model

/-! Specification: arrivals given by true (unwrapped) positions. -/

namespace Verif.LinkMeter

/-- Largest position received. -/
def highest (x0 : Int) (xs : List Int) : Int := xs.foldl max x0

/-- Smallest position received. -/
def lowest (x0 : Int) (xs : List Int) : Int := xs.foldl min x0

/-- Every position is less than half of the range away from the newest position so far. -/
def InWindow : Int → List Int → Prop
  | _, [] => True
  | m, x :: xs => (-(2 ^ 15) < x - m ∧ x - m < 2 ^ 15) ∧ InWindow (max m x) xs

instance : ∀ m xs, Decidable (InWindow m xs)
  | _, [] => isTrue trivial
  | m, x :: xs => @instDecidableAnd _ _ _ (instDecidableInWindow (max m x) xs)

/-- The metrics after receiving packets at the given true positions. -/
def receive (x0 : Int) (xs : List Int) : State :=
  (x0 :: xs).foldl (fun s x => s.update (BitVec.ofInt 16 x)) State.init

end Verif.LinkMeter
