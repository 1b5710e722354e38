import Verif.Backends.Model

/-!
# Drivers: what the user expects
-/

namespace Verif.Backends

open Verif.Pct (Byte ch)
open Verif.IoUri (str)

/-- Number of the bit that says that a driver supports a direction. -/
def Dir.bit : Dir → Nat
  | .source => 1
  | .sink => 2

/-- The driver is for this kind of device and supports the direction. -/
def Usable (dir : Dir) (kind : Kind) (d : Driver) : Prop :=
  d.kind = kind ∧ d.flags.testBit dir.bit = true

instance (dir : Dir) (kind : Kind) (d : Driver) : Decidable (Usable dir kind d) :=
  inferInstanceAs (Decidable (_ ∧ _))

/-- The driver is a default one. -/
def IsDefault (d : Driver) : Prop := d.flags.testBit 0 = true

instance (d : Driver) : Decidable (IsDefault d) := inferInstanceAs (Decidable (_ = _))

/-- The first success of `f` in the list. -/
def First {α δ : Type} (f : α → Option δ) (l : List α) (x : δ) : Prop :=
  ∃ pre a post, l = pre ++ a :: post ∧ f a = some x ∧ ∀ b ∈ pre, f b = none

/-- Names of the drivers of a kind, in the order of registration. -/
def names (kind : Kind) (drivers : List Driver) : List (List Byte) :=
  (drivers.filter fun d => decide (d.kind = kind)).map Driver.name

/-- First occurrences. -/
def firsts : List (List Byte) → List (List Byte)
  | [] => []
  | s :: ss => s :: (firsts ss).filter (fun t => decide (t ≠ s))

/-- `t` may be taken for `q` by the search of the list of strings: `q` is a proper beginning of `t`, and
both take the same number of 4-byte words. -/
def Confused (t q : List Byte) : Prop := q <+: t ∧ q ≠ t ∧ (q.length + 4) / 4 = (t.length + 4) / 4

/-- The map of drivers is well-formed: at most 512 drivers, names of at most 19 characters
(`driver.h:24`, `driver.h:51-62`). -/
def MapOk (drivers : List Driver) : Prop :=
  drivers.length ≤ 512 ∧ ∀ d ∈ drivers, d.name.length ≤ 19 ∧ (0 : Byte) ∉ d.name

end Verif.Backends
