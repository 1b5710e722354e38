import Verif.Router.Lemmas

/-! # C43: packets are routed by type and locked to one source -/

namespace Verif.Router

/-- **C43** (routing decision). After every history of registered routes and written packets, the
next packet is passed to route `i` exactly when `i` is the first registered route whose type
it has, and every packet that went to `i` before is of the same source. -/
theorem C43_routing (ops : List Op) (p : Pkt) (i : Nat) :
    (write (run [] ops).1 p).1 = some i ↔
      FirstMatch (registered ops) p.flags i ∧ SameSource (run [] ops).2 i p := by
  have h := run_inv ops [] [] ⟨by simp, by simp [deliveredTo]⟩
  simp only [List.nil_append, List.map_nil] at h
  rw [← h.2]
  exact (write_spec _ _ p h.1).1 i

/-- **C43** (one source per route). No history delivers packets of two sources to one route. -/
theorem C43_single_source (ops : List Op) (i : Nat) (p q : Pkt)
    (hp : p ∈ deliveredTo (run [] ops).2 i) (hq : q ∈ deliveredTo (run [] ops).2 i) :
    p.source = q.source := by
  have h := (run_inv ops [] [] ⟨by simp, by simp [deliveredTo]⟩).1
  simp only [List.nil_append] at h
  by_cases hi : i < (run [] ops).1.length
  · have hr := h.1 i _ (List.getElem?_eq_getElem hi)
    cases hs : (run [] ops).1[i].isStarted with
    | false => rw [(hr.1 hs).2] at hp; simp at hp
    | true => rw [(hr.2 hs).2 p hp, (hr.2 hs).2 q hq]
  · rw [h.2 i (by omega)] at hp; simp at hp

/-- **C43** (no side effects). A rejected packet leaves every route as it was, from any table. -/
theorem C43_rejected_no_effect (rs : List Route) (p : Pkt) (h : (write rs p).1 = none) :
    (write rs p).2 = rs := by
  unfold write at *
  cases hf : findRoute rs p.flags with
  | none => rfl
  | some i =>
    have hlt := findRoute_lt hf
    simp only [hf, List.getElem?_eq_getElem hlt] at h ⊢
    have hr : (allowRoute rs[i] p).1 = false := by
      cases hc : (allowRoute rs[i] p).1 with
      | false => rfl
      | true => rw [hc] at h; simp at h
    have hsame : (allowRoute rs[i] p).2 = rs[i] := by
      revert hr
      unfold allowRoute
      repeat' split
      all_goals simp
    rw [hr, hsame]
    simp

/-- **C43** (detected source). The queried source is that of any packet that went to the route. -/
theorem C43_source_query (ops : List Op) (flags : BitVec 32) (i : Nat) (p : Pkt)
    (hi : FirstMatch (registered ops) flags i) (hp : p ∈ deliveredTo (run [] ops).2 i) :
    sourceId (run [] ops).1 flags = p.source := by
  have h := run_inv ops [] [] ⟨by simp, by simp [deliveredTo]⟩
  simp only [List.nil_append, List.map_nil] at h
  rw [← h.2] at hi
  have hf := findRoute_some.mpr hi
  have hlt := findRoute_lt hf
  unfold sourceId
  simp only [hf, List.getElem?_eq_getElem hlt]
  have hr := h.1.1 i _ (List.getElem?_eq_getElem hlt)
  cases hs : (run [] ops).1[i].isStarted with
  | false => rw [(hr.1 hs).2] at hp; simp at hp
  | true => rw [(hr.2 hs).2 p hp]

/-- Two routes (audio = 1, repair = 2); sources 7 and 8 compete; one packet has no source, one has
no matching type. -/
def demo : List Op :=
  [.add 1, .add 2, .write ⟨1, some 7⟩, .write ⟨1, some 8⟩, .write ⟨3, some 7⟩, .write ⟨2, some 8⟩,
   .write ⟨1, none⟩, .write ⟨4, some 7⟩]

example : (run [] demo).2.map (·.2) = [some 0, none, some 0, some 1, none, none] := by decide
example : (write (run [] demo).1 ⟨5, some 7⟩).1 = some 0 := by decide
example : sourceId (run [] demo).1 2 = some 8 := by decide
example := C43_rejected_no_effect (run [] demo).1 ⟨1, some 8⟩ (by decide)
example := C43_single_source demo 0 ⟨1, some 7⟩ ⟨3, some 7⟩ (by decide) (by decide)
example : FirstMatch (registered demo) 2 1 :=
  findRoute_some.mp (show findRoute ((registered demo).map (⟨·, 0, false, false⟩)) 2 = some 1 by decide)

end Verif.Router
