import Verif.NodeSlots.Model

/-!
# What the receiver and sender nodes owe to the other threads

Everything here speaks of the requests (`Act`) and of the world they make, not of the node.
-/

namespace Verif.NodeSlots

/-- No live resource holds a reference to one that is gone: a live port writes to a live pipeline
slot, a live pipeline slot writes to live ports.  (The other threads follow these references
whenever a packet arrives or is to be sent.) -/
def World.safe (w : World) : Prop :=
  (∀ p s, w.ports p = true → w.recv p = some s → w.slots s = true)
    ∧ (∀ s p, w.slots s = true → w.send s p = true → w.ports p = true)

/-- The request makes sense: what is created is new, what is deleted or used is live. -/
def World.legal (w : World) : Act → Prop
  | .createSlot s => w.slots s = false
  | .deleteSlot s => w.slots s = true
  | .addPort p => w.ports p = false
  | .removePort p => w.ports p = true
  | .send s p => w.slots s = true ∧ w.ports p = true
  | .recv p s => w.ports p = true ∧ w.slots s = true

/-- Every request of the list makes sense at its time. -/
def World.legalAll (w : World) : List Act → Prop
  | [] => True
  | a :: as => w.legal a ∧ (w.act a).legalAll as

/-- The world is safe before, between and after the requests. -/
def World.safeAll (w : World) : List Act → Prop
  | [] => w.safe
  | a :: as => w.safe ∧ (w.act a).safeAll as

/-- No resource is live. -/
def World.clean (w : World) : Prop := (∀ s, w.slots s = false) ∧ (∀ p, w.ports p = false)

/-- The application attaches (binds, connects) each interface of a slot at most once between two
`unlink` of this slot; `seen` lists what is attached already.  The public API asks for this:
"Each slot's interface can be bound or connected only once." (receiver.h:253) -/
def once (seen : List (Nat × Iface)) : List Op → Bool
  | [] => true
  | .attach k i _ :: os => !(seen.contains (k, i)) && once ((k, i) :: seen) os
  | .unlink k :: os => once (seen.filter fun x => x.1 != k) os
  | _ :: os => once seen os

/-- The application does not use the control interface. -/
def noControl : List Op → Bool
  | [] => true
  | .attach _ i _ :: os => decide (i ≠ .control) && noControl os
  | _ :: os => noControl os

end Verif.NodeSlots
