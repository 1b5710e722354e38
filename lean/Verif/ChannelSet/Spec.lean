import Verif.ChannelSet.Model
import Mathlib.Data.Finset.Max
import Mathlib.Order.Interval.Finset.Nat
import Mathlib.Data.Finset.SymmDiff

/-! # Channel sets as mathematical sets of channel numbers below 1024 -/

namespace Verif.ChannelSet

/-- The set of channels an object reports through `has_channel`. -/
def CSet.chans (s : CSet) : Finset Nat :=
  (Finset.range 1024).filter fun n => s.hasChannel n = some true

/-- The channels of a 32-bit mask. -/
def maskChans (m : BitVec 32) : Finset Nat := (Finset.range 32).filter fun n => m.getLsbD n = true

/-- Channels enabled by `set_count`: the standard surround layouts up to seven channels
(roc_audio/channel_defs.h), the first `n` channels otherwise. FL=0 FC=2 FR=4 SL=5 SR=6 BL=7
BC=8 BR=9. -/
def countChans : Nat → Finset Nat
  | 0 => ∅
  | 1 => {2}
  | 2 => {0, 4}
  | 3 => {0, 2, 4}
  | 4 => {0, 4, 7, 9}
  | 5 => {0, 2, 4, 7, 9}
  | 6 => {0, 2, 4, 7, 8, 9}
  | 7 => {0, 2, 4, 5, 6, 7, 9}
  | n => Finset.range n

/-- Mathematical effect of a modifying call; `none` when its arguments are not allowed. -/
def specApply (A : Finset Nat) : Op → Option (Finset Nat)
  | .setMask m => some (maskChans m)
  | .setRange a b => if a ≤ b ∧ b < 1024 then some (Finset.Icc a b) else none
  | .setCount n => if n < 1024 then some (countChans n) else none
  | .toggle n e => if n < 1024 then some (if e then insert n A else A.erase n) else none
  | .toggleRange a b e =>
    if a ≤ b ∧ b < 1024 then some (if e then A ∪ Finset.Icc a b else A \ Finset.Icc a b) else none
  | .and o => some (A ∩ o.chans)
  | .or o => some (A ∪ o.chans)
  | .xor o => some (symmDiff A o.chans)
  | .clear => some ∅

end Verif.ChannelSet
