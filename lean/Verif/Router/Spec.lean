import Verif.Router.Model

/-! # Specification of packet routing: a function of the history of calls only -/

namespace Verif.Router

/-- Every type bit demanded by the route is present in the packet. -/
def Carries (pf rf : BitVec 32) : Prop := ∀ i : Nat, rf.getLsbD i = true → pf.getLsbD i = true

/-- The routes registered by a history of calls, oldest first. -/
def registered : List Op → List (BitVec 32)
  | [] => []
  | .add f :: ops => f :: registered ops
  | .write _ :: ops => registered ops

/-- Route number `i` is the first one whose type the packet has. -/
def FirstMatch (tbl : List (BitVec 32)) (pf : BitVec 32) (i : Nat) : Prop :=
  (∃ f, tbl[i]? = some f ∧ Carries pf f) ∧ ∀ j f, j < i → tbl[j]? = some f → ¬ Carries pf f

/-- The packets that went to route `i`. -/
def deliveredTo (log : List (Pkt × Option Nat)) (i : Nat) : List Pkt :=
  log.filterMap (fun e => if e.2 = some i then some e.1 else none)

/-- The packet belongs to the source the route has seen so far, or the route has seen nothing. -/
def SameSource (log : List (Pkt × Option Nat)) (i : Nat) (p : Pkt) : Prop :=
  ∀ q ∈ deliveredTo log i, q.source = p.source

end Verif.Router
