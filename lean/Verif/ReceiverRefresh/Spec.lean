import Verif.ReceiverRefresh.Model

/-!
# Slots and sessions of a receiver: what is expected
-/

namespace Verif.ReceiverRefresh

/-- States that a receiver can get into. -/
def Reachable (t : St) : Prop := ∃ os : List Op, St.init.run os = some t

/-- The operations that the code performs: positive times, control packets only for slots with a control endpoint, handles of slots that exist or not. -/
def Op.Sound (t : St) : Op → Prop
  | .refresh _ now => 0 < now
  | .control k now _ => ∀ s, t.slot k = some s → 0 < now ∧ s.rtcp = true
  | _ => True

/-- Names of all sessions of a receiver. -/
def St.ids (t : St) : List Nat := t.slots.flatMap fun s => s.sessions.map (·.id)

/-- `d` is the earliest of the deadlines `l`, where zero means that there is none. -/
def Earliest (d : Int) (l : List Int) : Prop := (d = 0 ∧ ∀ x ∈ l, x = 0) ∨ (d ≠ 0 ∧ d ∈ l ∧ ∀ x ∈ l, x ≠ 0 → d ≤ x)

end Verif.ReceiverRefresh
