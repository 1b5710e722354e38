import Verif.Sequencer.Model

/-! # C09: consecutive numbering -/

namespace Verif.Sequencer

theorem run_eq (cs : List Call) : ∀ s : State, ∃ out, run s cs = some out ∧
    out.length = cs.length ∧
    ∀ (n : Nat) (c : Call) (r : Rtp), cs[n]? = some c → out[n]? = some r →
      r.seqnum.toNat = (s.seqnum.toNat + n) % 2 ^ 16 ∧
      r.ts.toNat = (s.ts.toNat + ((cs.take n).map (·.duration.toNat)).sum) % 2 ^ 32 ∧
      r.payloadType = s.payloadType ∧ r.source = c.ssrc ∧
      r.duration = c.duration ∧ r.captureTs = c.captureTs := by
  induction cs with
  | nil => intro s; exact ⟨[], rfl, rfl, by simp⟩
  | cons c cs ih =>
    intro s
    obtain ⟨out, h1, h2, h3⟩ := ih { s with seqnum := s.seqnum + 1, ts := s.ts + c.duration }
    refine ⟨_ :: out, by simp only [run, State.next, if_true, Option.bind_eq_bind, Option.bind_some, h1]; rfl, by simp [h2], ?_⟩
    intro n c' r hc hr
    cases n with
    | zero =>
      simp only [List.getElem?_cons_zero, Option.some.injEq] at hc hr
      subst hc; subst hr
      have := s.seqnum.isLt
      have := s.ts.isLt
      refine ⟨?_, ?_, rfl, rfl, rfl, rfl⟩ <;> simp <;> omega
    | succ n =>
      simp only [List.getElem?_cons_succ] at hc hr
      obtain ⟨a, b, d, e⟩ := h3 n c' r hc hr
      refine ⟨?_, ?_, d, e⟩
      · rw [a, BitVec.toNat_add]; simp; omega
      · rw [b, BitVec.toNat_add]; simp only [List.take_succ_cons, List.map_cons, List.sum_cons]
        omega

/-- **C09**. For every sequence of calls the `n`-th packet gets sequence number
`first + n` modulo 2^16, timestamp `first + sum of the durations of the previous packets`
modulo 2^32, the configured payload type, its own duration and capture time, and the SSRC
the identity has at that moment; nothing aborts. -/
theorem C09_numbering (payloadType sn0 ts0 : Nat) (cs : List Call) :
    ∃ out, run (State.init payloadType sn0 ts0) cs = some out ∧ out.length = cs.length ∧
      ∀ (n : Nat) (c : Call) (r : Rtp), cs[n]? = some c → out[n]? = some r →
        r.seqnum.toNat = (sn0 + n) % 2 ^ 16 ∧
        r.ts.toNat = (ts0 + ((cs.take n).map (·.duration.toNat)).sum) % 2 ^ 32 ∧
        r.payloadType = payloadType ∧ r.source = c.ssrc ∧
        r.duration = c.duration ∧ r.captureTs = c.captureTs := by
  obtain ⟨out, h1, h2, h3⟩ := run_eq cs (State.init payloadType sn0 ts0)
  refine ⟨out, h1, h2, fun n c r hc hr => ?_⟩
  obtain ⟨a, b, d⟩ := h3 n c r hc hr
  refine ⟨?_, ?_, d⟩
  · rw [a]; simp [State.init]
  · rw [b]; simp [State.init]

/-- While the identity keeps its SSRC, all packets carry the same source. -/
theorem C09_same_source (payloadType sn0 ts0 : Nat) (cs : List Call) (ssrc : BitVec 32)
    (h : ∀ c ∈ cs, c.ssrc = ssrc) (out : List Rtp)
    (hrun : run (State.init payloadType sn0 ts0) cs = some out) :
    ∀ r ∈ out, r.source = ssrc ∧ r.payloadType = payloadType := by
  obtain ⟨out', h1, h2, h3⟩ := C09_numbering payloadType sn0 ts0 cs
  rw [hrun] at h1
  obtain rfl := Option.some.inj h1
  intro r hr
  obtain ⟨n, hn⟩ := List.getElem?_of_mem hr
  have hlt : n < cs.length := by
    rw [← h2]; exact (List.getElem?_eq_some_iff.mp hn).1
  obtain ⟨_, _, a, b, _⟩ := h3 n cs[n] r (List.getElem?_eq_getElem hlt) hn
  exact ⟨b.trans (h _ (List.getElem_mem hlt)), a⟩

/-- Two packets across both wraps. -/
example : run (State.init 10 65535 4294967290) [⟨7, 0, 100⟩, ⟨7, 5, 50⟩] =
    some [⟨7, 10, 65535#16, 4294967290#32, 100, 0⟩, ⟨7, 10, 0#16, 94#32, 50, 5⟩] := by decide

example := C09_same_source 10 65535 4294967290 [⟨7, 0, 100⟩, ⟨7, 5, 50⟩] 7 (by simp)
  [⟨7, 10, 65535#16, 4294967290#32, 100, 0⟩, ⟨7, 10, 0#16, 94#32, 50, 5⟩] (by decide)

end Verif.Sequencer
