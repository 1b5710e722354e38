import Verif.Reporter.Model

/-!
# RTCP reporter: specification

A history is a list of calls. Nothing here depends on the index kept by the reporter.
-/

namespace Verif.Reporter

/-- A packet is received, or reports are generated. -/
inductive Call where
  | packet (now : Int) (p : Part) (addr : Nat) (evs : List Ev)
  | report (now : Int) (p : Part) (ids : List Nat)

/-- Time given to a call. -/
def Call.now : Call → Int
  | .packet n _ _ _ => n
  | .report n _ _ => n

/-- Streams of the participant at the time of a call. -/
def Call.part : Call → Part
  | .packet _ p _ _ => p
  | .report _ p _ => p

/-- Calls to the reporter in a packet. -/
def Call.evs : Call → List Ev
  | .packet _ _ _ e => e
  | .report _ _ _ => []

/-- Participant that sent (a part of) a packet. -/
def Ev.source : Ev → Nat
  | .cname s _ => s
  | .sr s _ => s
  | .reception s _ => s
  | .dlrr s _ => s
  | .rrtr s _ => s
  | .metrics s _ => s
  | .bye s => s

/-- Sources that occur in a history: originators of packets and received streams. -/
def mentioned (cs : List Call) : List Nat := cs.flatMap (fun c => c.evs.map Ev.source ++ c.part.recvs.map (·.1))

/-- If the participant is asked for another source, it eventually chooses one that is not in the list. -/
def Call.Picks (M : List Nat) : Call → Prop
  | .packet _ _ _ _ => True
  | .report _ _ ids => ∃ i ∈ ids, i ∉ M

/-- Perform a call. -/
def St.call (s : St) : Call → Out (St × List Rep)
  | .packet now p addr evs =>
    match s.process now p addr evs with
    | .ok s' => .ok (s', [])
    | .abort => .abort
    | .ub => .ub
    | .hang => .hang
  | .report now p ids => s.generate now p ids

/-- Perform a history; the result has the reports that were sent by every call. -/
def St.run (s : St) : List Call → Out (St × List (List Rep))
  | [] => .ok (s, [])
  | c :: cs =>
    match s.call c with
    | .ok (s', r) =>
      match s'.run cs with
      | .ok (s'', rs) => .ok (s'', r :: rs)
      | .abort => .abort
      | .ub => .ub
      | .hang => .hang
    | .abort => .abort
    | .ub => .ub
    | .hang => .hang

/-- Reports that were sent, if nothing failed. -/
def reports : Out (St × List (List Rep)) → Option (List (List Rep))
  | .ok (_, l) => some l
  | _ => none

/-- Time is positive and the clock goes forward: a call may repeat the time of the previous call once, after that the time has to be larger.
`t` is the last time, or one more if it was repeated. -/
def Spaced : Int → List Call → Prop
  | _, [] => True
  | t, c :: cs => 0 < c.now ∧ t ≤ c.now ∧ Spaced (if c.now = t then t + 1 else c.now) cs

/-- The list of received sources does not change in a way that keeps its length: between consecutive calls it either stays
the same or changes its length. -/
def Steady : List (Nat × Nat) → List Call → Prop
  | _, [] => True
  | l, c :: cs => (c.part.recvs.map (·.1) = l.map (·.1) ∨ c.part.recvs.length ≠ l.length) ∧ Steady c.part.recvs cs

/-- Reports of call `i` are about streams that the participant receives at this moment, with the data it returned. -/
def Faithful (c : Call) (r : List Rep) : Prop := ∀ d ∈ r, ∀ x ∈ d.recv, x ∈ c.part.recvs

/-- A sender report has a non-zero timestamp. -/
def Ev.Stamped : Ev → Prop
  | .sr _ ts => ts = true
  | _ => True

end Verif.Reporter
