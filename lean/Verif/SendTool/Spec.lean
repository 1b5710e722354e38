import Verif.SendTool.Model
import Verif.EncoderApi.Spec
import Verif.SenderSlots.Spec

/-!
# What `roc-send` promises about its endpoints

From the manual (docs/sphinx/manuals/roc_send.rst:70-76, 119-124): a source endpoint without FEC, or a pair of source and repair endpoints
with compatible protocols; all slots have the same set of endpoints and use the same protocols for them.
-/

namespace Verif.SendTool

open ApiConfig (Iface Proto Fec)
open EncoderApi (fits)

/-- The options are as documented, with FEC scheme `f` (roc_send.rst:70-76, 119-124; main.cpp:131-153). -/
structure Valid (supp : Fec → Bool) (a : Args) (f : Fec) : Prop where
  ne : a.sources ≠ []
  src : ∀ u ∈ a.sources, ∃ p m, u = some (p, m) ∧ fits .audioSource p = some f
  rep : ∀ u ∈ a.repairs, ∃ p m, u = some (p, m) ∧ fits .audioRepair p = some f
  ctl : ∀ u ∈ a.controls, ∃ m, u = some (.rtcp, m)
  nrep : a.repairs.length = if f = .none then 0 else a.sources.length
  nctl : a.controls.length = 0 ∨ a.controls.length = a.sources.length
  supp : f = .none ∨ supp f = true
  nbsrc : ∀ x, a.nbsrc = some x → f ≠ .none ∧ 0 < x
  nbrpr : ∀ x, a.nbrpr = some x → f ≠ .none ∧ 0 < x

/-- Nothing fails in the environment. -/
def Rich (env : Iface → Nat → CallEnv) : Prop := ∀ i k, env i k = ⟨true, true, true, true, .rich, true⟩

end Verif.SendTool
