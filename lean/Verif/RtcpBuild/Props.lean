import Verif.RtcpBuild.ReadAll

/-! Property C26. -/

namespace Verif.RtcpBuild

open Verif.Bytes Verif.RtcpFields Verif.RtcpParse

/-- Full statement. -/
def RoundTrip : Prop :=
  ∀ (cfg : Config) (cap : Nat) (c : Compound), Legal cfg c → c.size ≤ cap →
    ∃ s, build cfg cap c.calls = some s ∧ s.ok = true ∧ readAll s.done = some c.pkts ∧ s.done.length = c.size ∧ s.done.length % 4 = 0

/-- A compound packet that fits is built without panic and is read back by the traversers to the same packets, in the
same order; its size is the sum of the sizes of the parts and a multiple of four. What is missing: padding after an
SR or RR packet that is not the first packet (see `C26_fails`). -/
theorem C26_round_trip_partial (cfg : Config) (cap : Nat) (c : Compound) (h : Legal cfg c) (hfit : c.size ≤ cap)
    (hpad : c.pad = 0 ∨ (∀ p, c.pkts.getLast? = some p → p.isReport = false) ∨ c.pkts.length = 1) :
    ∃ s, build cfg cap c.calls = some s ∧ s.ok = true ∧ readAll s.done = some c.pkts ∧ s.done.length = c.size ∧ s.done.length % 4 = 0 := by
  obtain ⟨s, h1, h2, h3⟩ := build_facts cfg cap c h
  rw [decide_eq_false (by omega)] at h2
  have hd := h3 h2
  have hlen : s.done.length = c.size := by
    rw [hd, encAll_length _ _ h.nonempty h.pkts]; rfl
  have hok : ∀ p ∈ c.pkts, PadOk p 0 := fun p hp => ⟨h.pkts p hp, rfl, by omega, h.size p hp⟩
  have hlast : ∀ p, c.pkts.getLast? = some p → PadOk p c.pad := by
    intro p hp
    have := h.padSize p hp
    exact ⟨h.pkts p (List.mem_of_getLast? hp), h.pad.1, h.pad.2, this⟩
  have hsum : c.pkts.length * 4 ≤ (c.pkts.map Pkt.size).sum := by
    have hp := h.pkts
    generalize c.pkts = ps at hp
    induction ps with
    | nil => simp
    | cons p ps ih =>
      have h1 := ih (fun x hx => hp x (List.mem_cons_of_mem _ hx))
      have h2 := encBody_length p (hp p List.mem_cons_self)
      rw [List.map_cons, List.sum_cons, List.length_cons]; omega
  have hmod : s.done.length % 4 = 0 := by
    have : (c.pkts.map Pkt.size).sum % 4 = 0 := sum_mod _ (by
      intro x hx
      obtain ⟨p, hp, rfl⟩ := List.mem_map.1 hx
      exact size_mod p (h.pkts p hp))
    have h4 := h.pad.1
    rw [hlen]; unfold Compound.size; omega
  refine ⟨s, h1, by unfold Bld.ok; rw [h2]; rfl, ?_, hlen, hmod⟩
  obtain ⟨vs, e1, e2⟩ := compound_read s.done c.pad c.pkts iterInit (s.done.length / 4 + 1) [] h.nonempty hd rfl rfl rfl hok hlast
    (by tauto) (by rw [hlen]; unfold Compound.size; omega)
  unfold readAll
  rw [e1]
  exact e2

/-- A compound packet that does not fit makes the builder report failure; it does not panic. -/
theorem C26_too_long (cfg : Config) (cap : Nat) (c : Compound) (h : Legal cfg c) (hfit : cap < c.size) :
    ∃ s, build cfg cap c.calls = some s ∧ s.ok = false := by
  obtain ⟨s, h1, h2, _⟩ := build_facts cfg cap c h
  refine ⟨s, h1, ?_⟩
  unfold Bld.ok
  rw [h2, decide_eq_true hfit]; rfl

/-- Two receiver reports, with padding. -/
def twoReports : Compound := ⟨[.rr [0, 0, 0, 1] [], .rr [0, 0, 0, 2] []], 4⟩

theorem twoReports_legal : Legal ⟨true, false, false⟩ twoReports := by
  refine ⟨by simp [twoReports], ?_, ?_, ?_, ?_, ?_, ?_, ?_, by decide, ?_⟩
  · intro p hp
    simp only [twoReports, List.mem_cons, List.not_mem_nil, or_false] at hp
    rcases hp with rfl | rfl <;> exact ⟨rfl, by decide, by simp⟩
  · intro p hp
    simp only [twoReports, List.mem_cons, List.not_mem_nil, or_false] at hp
    rcases hp with rfl | rfl <;> decide
  · intro _; exact ⟨_, _, rfl, rfl⟩
  · intro h; exact absurd h (by decide)
  · intro h; exact absurd h (by decide)
  · intro _ p hp
    simp only [twoReports, List.mem_cons, List.not_mem_nil, or_false] at hp
    rcases hp with rfl | rfl <;> rfl
  · intro _ p hp
    simp only [twoReports, List.mem_cons, List.not_mem_nil, or_false] at hp
    rcases hp with rfl | rfl <;> rfl
  · intro p hp
    simp only [twoReports, List.getLast?_cons_cons, List.getLast?_singleton, Option.some.injEq] at hp
    subst hp
    decide

/-- The full statement is false: when the second receiver report is padded, the traverser gives the first one twice
(`remove_padding_`, traverser.cpp:145, cuts the slice from the start of the buffer). -/
theorem C26_fails : ¬ RoundTrip := by
  intro h
  obtain ⟨s, h1, _, h3, _⟩ := h ⟨true, false, false⟩ 100 twoReports twoReports_legal (by decide)
  have : (build ⟨true, false, false⟩ 100 twoReports.calls).bind (fun s => readAll s.done) =
      some [.rr [0, 0, 0, 1] [], .rr [0, 0, 0, 1] []] := by decide +kernel
  rw [h1] at this
  have h4 : readAll s.done = some [.rr [0, 0, 0, 1] [], .rr [0, 0, 0, 1] []] := this
  rw [h3] at h4
  exact absurd h4 (by decide)

/-- A compound packet with all kinds of packets and padding. -/
def sample : Compound :=
  ⟨[.sr (List.replicate 24 7) [List.replicate 24 1, List.replicate 24 2], .sdes [⟨5, [(1, [65, 66]), (2, [67])]⟩, ⟨6, [(1, [68])]⟩],
    .xr [0, 0, 0, 9] [⟨.rrtr, 0, [List.replicate 8 3]⟩, ⟨.dlrr, 0, [List.replicate 12 4, List.replicate 12 5]⟩],
    .bye [5, 6] (some [70, 71])], 8⟩

/-- The hypotheses are met by a compound packet with all kinds of packets. -/
example : Legal ⟨true, true, true⟩ sample ∧ sample.size = 172 ∧ (∀ p, sample.pkts.getLast? = some p → p.isReport = false) := by
  refine ⟨⟨by simp [sample], ?_, ?_, ?_, ?_, ?_, ?_, ?_, by decide, ?_⟩, by decide, ?_⟩
  · intro p hp
    simp only [sample, List.mem_cons, List.not_mem_nil, or_false] at hp
    rcases hp with rfl | rfl | rfl | rfl
    · exact ⟨rfl, by decide, by decide⟩
    · refine ⟨by decide, ?_⟩
      intro c hc
      simp only [List.mem_cons, List.not_mem_nil, or_false] at hc
      rcases hc with rfl | rfl
      · exact ⟨by decide, by simp [TextOk], by simp, by decide⟩
      · exact ⟨by decide, by simp [TextOk], by simp, by decide⟩
    · refine ⟨rfl, ?_⟩
      intro b hb
      simp only [List.mem_cons, List.not_mem_nil, or_false] at hb
      rcases hb with rfl | rfl
      · exact ⟨by simp, fun _ => ⟨_, rfl, rfl⟩⟩
      · exact ⟨fun _ => by decide, by simp⟩
    · exact ⟨by decide, by decide, by decide, by intro x hx; injection hx with hx; subst hx; simp [TextOk]⟩
  · intro p hp
    simp only [sample, List.mem_cons, List.not_mem_nil, or_false] at hp
    rcases hp with rfl | rfl | rfl | rfl <;> decide
  · intro _; exact ⟨_, _, rfl, rfl⟩
  · intro h; exact absurd h (by decide)
  · intro _; exact ⟨.sdes _, List.mem_cons_of_mem _ List.mem_cons_self, rfl⟩
  · intro h; exact absurd h (by decide)
  · intro h; exact absurd h (by decide)
  · intro p hp
    simp only [sample, List.getLast?_cons_cons, List.getLast?_singleton, Option.some.injEq] at hp
    subst hp
    decide
  · intro p hp
    simp only [sample, List.getLast?_cons_cons, List.getLast?_singleton, Option.some.injEq] at hp
    subst hp
    rfl

end Verif.RtcpBuild
