/-!
# Rate limiter

Model of `src/internal_modules/roc_core/rate_limiter.cpp`. Times are ticks (nanoseconds since the
ticker started, roc_core/ticker.cpp), natural numbers; 64-bit overflow needs 584 years and is not
modelled.
-/

namespace Verif.RateLimiter

/-- Fields of `RateLimiter` (roc_core/rate_limiter.h:36-38). -/
structure State where
  period : Nat
  pos : Nat
deriving DecidableEq, Repr

/-- Constructor (roc_core/rate_limiter.cpp:14-21); `none` is the panic. -/
def State.init (period : Int) : Option State :=
  if period ≤ 0 then none else some ⟨period.toNat, 0⟩

/-- `would_allow` (roc_core/rate_limiter.cpp:23-25). -/
def State.wouldAllow (s : State) (elapsed : Nat) : Bool := elapsed ≥ s.pos

/-- `allow` (roc_core/rate_limiter.cpp:27-35). -/
def State.allow (s : State) (elapsed : Nat) : State × Bool :=
  if elapsed ≥ s.pos then ({ s with pos := (elapsed / s.period + 1) * s.period }, true)
  else (s, false)

/-- The times at which requests are granted, for requests at the given times. (Part of the model of roc_core/rate_limiter.h:22-39.) -/
def grants (s : State) : List Nat → List Nat
  | [] => []
  | t :: ts =>
    match s.allow t with
    | (s', true) => t :: grants s' ts
    | (s', false) => grants s' ts

end Verif.RateLimiter
