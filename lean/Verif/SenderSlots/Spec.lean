import Verif.SenderSlots.Model
import Verif.EncoderApi.Spec

/-! # What the slots of a sender promise -/

namespace Verif.SenderSlots

open ApiConfig (Iface Proto Fec)
open EncoderApi (fits)

/-- The protocol is allowed for the interface: RTCP for control, otherwise a protocol of the FEC scheme of the
configuration, which has to be compiled in. -/
def Allowed (c : Conf) (i : Iface) (p : Proto) : Prop :=
  (i = .audioControl ∧ p = .rtcp) ∨ (fits i p = some c.scheme ∧ (c.scheme = .none ∨ c.supp c.scheme = true))

/-- The slot exists. -/
def alive (ls : List Log) (id : Nat) : Prop := .created id ∈ ls ∧ .deleted id ∉ ls

/-- An endpoint was returned for this interface of the slot, with protocol and whether the address was a multicast
address. -/
def added (ls : List Log) (id : Nat) (i : Iface) : Option (Proto × Bool) :=
  ls.findSome? fun
    | .added id' i' p mc => if id' = id ∧ i' = i then some (p, mc) else none
    | _ => none

/-- All endpoints the FEC scheme needs were returned. -/
def complete (c : Conf) (ls : List Log) (id : Nat) : Prop :=
  (added ls id .audioSource).isSome = true ∧ (c.scheme = .none ∨ (added ls id .audioRepair).isSome = true)

/-- The frames that were given to a slot. -/
def got (id : Nat) : List Log → List Frame
  | [] => []
  | .wrote f outs :: ls => (outs.filter (· = id)).map (fun _ => f) ++ got id ls
  | _ :: ls => got id ls

/-- The frames that are meant for a slot: those that are written while it is complete; `s`, `r`: it has a source endpoint,
a repair endpoint. -/
def due (c : Conf) (id : Nat) : Bool → Bool → List Log → List Frame
  | _, _, [] => []
  | s, r, .added id' i _ _ :: ls =>
    if id' = id then due c id (s || decide (i = .audioSource)) (r || decide (i = .audioRepair)) ls else due c id s r ls
  | s, r, .deleted id' :: ls => if id' = id then [] else due c id s r ls
  | s, r, .wrote f _ :: ls =>
    if s = true ∧ (c.scheme = .none ∨ r = true) then f :: due c id s r ls else due c id s r ls
  | s, r, _ :: ls => due c id s r ls

/-- Everything can be constructed. -/
def Env.rich : Env := ⟨true, .ok, true⟩

/-- In all calls for the slot everything could be constructed. -/
def noFailure (es : List Ev) (id : Nat) : Prop := ∀ i p mc e, Ev.add id i p mc e ∈ es → e = .rich

end Verif.SenderSlots
