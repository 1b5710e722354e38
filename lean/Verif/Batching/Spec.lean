import Verif.Batching.Model

/-! # Mapping of frames in batches: specification -/

namespace Verif.Batching.Spec

/-- A frame reader that delivers a stream: a request for more samples is answered like two requests
one after another, with the flags of both and the capture timestamp of the first one; it
fails if one of the two fails. -/
def Regular {α : Type} (s : Source α) : Prop :=
  ∀ p a b, 0 < a → 0 < b → s.info p (a + b) = (s.info p a).bind fun x =>
    (s.info (p + a) b).map fun y => (x.1 ||| y.1, x.2)

/-- Answers that a frame reader for raw samples may give: the frame is raw, and the capture timestamp
is not negative. -/
def Sane {α : Type} (s : Source α) : Prop :=
  ∀ p n x, s.info p n = some x → x.1 % 2 = 0 ∧ 0 ≤ x.2

end Verif.Batching.Spec
