import Verif.PacketCounter.Model

/-! Specification: reports given by true (unwrapped) extended sequence numbers. -/

namespace Verif.PacketCounter

/-- Largest reported end. -/
def highest (e0 : Int) (es : List Int) : Int := es.foldl max e0

/-- Every reported end is less than half of the range away from the newest one. -/
def InWindow : Int → List Int → Prop
  | _, [] => True
  | m, x :: xs => (-(2 ^ 31) < x - m ∧ x - m < 2 ^ 31) ∧ InWindow (max m x) xs

instance : ∀ m xs, Decidable (InWindow m xs)
  | _, [] => isTrue trivial
  | m, x :: xs => @instDecidableAnd _ _ _ (instDecidableInWindow (max m x) xs)

/-- Counter state after a series of reports with the same beginning `b`, where the ends are
at the true positions `e0 :: es`. -/
def report (s : State) (b : Int) (es : List Int) : State :=
  es.foldl (fun s e => s.update (BitVec.ofInt 32 b) (BitVec.ofInt 32 e)) s

end Verif.PacketCounter
