import Verif.RtcpParse.Inner

/-! Property C25. -/

namespace Verif.RtcpParse

open Verif.Bytes Verif.RtcpFields

/-- **C25** (compound packet). For every byte string, iteration ends after at most one call for each four bytes
and one more, never reads outside of the buffer, visits packets of the compound packet in order and gives out
only memory inside of the buffer. If no error is reported, every packet of known type was visited. -/
theorem C25_compound (b : Bytes) : ∃ vs err, iterInit.run b (b.length / 4 + 1) = some (vs, err) ∧ Sound b vs ∧
    (err = false → Complete b vs) := by
  obtain ⟨vs, e, h1, h2, h3, h4⟩ := run_facts b (b.length / 4 + 1) iterInit rfl (Nat.zero_le _)
    (by simp only [Iter.from, iterInit]; omega)
  refine ⟨vs, e, h1, ⟨?_, h3⟩, fun he => ?_⟩
  · intro v hv
    obtain ⟨h, g1, g2, g3⟩ := h2 v hv
    exact ⟨h, g1, g2, g3.len, g3.type, g3.inside⟩
  · obtain ⟨g1, g2, g3⟩ := h4 he
    exact ⟨g2, g3⟩

/-- **C25** (memory of the visited packet, partial). What is given out is inside of the packet that is visited,
provided that it is not a padded report that follows another packet. -/
theorem C25_region_partial (b : Bytes) (vs : List Visit) (err : Bool) (n : Nat) (hn : b.length < n * 4)
    (hr : iterInit.run b n = some (vs, err)) (v : Visit) (hv : v ∈ vs) (h : Header) (hh : header? b v.pos = some h)
    (hok : h.padding = false ∨ v.pos = 0 ∨ (v.kind ≠ .sr ∧ v.kind ≠ .rr)) :
    Slice.Inside (v.exposed b) v.pos v.len := by
  obtain ⟨vs', e, h1, h2, _, _⟩ := run_facts b n iterInit rfl (Nat.zero_le _) (by simp only [Iter.from, iterInit]; omega)
  rw [hr] at h1
  injection h1 with h1
  rw [Prod.mk.injEq] at h1
  obtain ⟨h', g1, _, g3⟩ := h2 v (by rw [← h1.1]; exact hv)
  have heq : h' = h := by
    have := g1.header.symm.trans hh
    injection this
  rw [heq] at g3
  obtain ⟨k1, k2⟩ := g3.exposed
  have k3 := g3.sliceLen
  have k4 := g3.len
  have hoff : v.slice.off = v.pos := by
    rcases g3.off with ho | ⟨ho, hp, hk⟩
    · exact ho
    · rcases hok with h0 | h0 | ⟨h0, h0'⟩
      · rw [h0] at hp; exact absurd hp (by decide)
      · rw [ho, h0]
      · rcases hk with hk | hk
        · exact absurd hk h0
        · exact absurd hk h0'
  constructor <;> omega

/-- Two receiver reports, of sources 1 and 2, the second with padding. -/
def paddedReport : Bytes := [0x80, 201, 0, 1, 0, 0, 0, 1, 0xA0, 201, 0, 2, 0, 0, 0, 2, 0, 0, 0, 4]

/-- **C25** fails for a padded report that is not the first packet: the iterator gives out the first packet
again, here the source 1 instead of 2. -/
theorem C25_region_fails : ∃ v w, iterInit.run paddedReport 6 = some ([v, w], false) ∧ w.pos = 8 ∧ w.len = 12 ∧
    ¬ Slice.Inside (w.exposed paddedReport) w.pos w.len ∧ fld paddedReport (w.exposed paddedReport).off 8 = fld paddedReport 0 8 ∧
    fld paddedReport ((w.exposed paddedReport).off + 4) 4 = 1 ∧ fld paddedReport (w.pos + 4) 4 = 2 := by
  refine ⟨⟨.rr, 0, 8, ⟨0, 8⟩⟩, ⟨.rr, 8, 12, ⟨0, 8⟩⟩, ?_, ?_⟩
  · decide +kernel
  · unfold Slice.Inside
    decide +kernel

/-- **C25** (SDES). For every byte string, parsing rejects it or gives chunks and items that are inside of the packet
without its padding, do not overlap and are in order. Iteration ends. Without error there are as many chunks as
the header says. -/
theorem C25_sdes (b : Bytes) : parseInner b 202 4 = some none ∨ ∃ inner count, parseInner b 202 4 = some (some (inner, count)) ∧
    Trimmed b inner ∧ count ≤ 31 ∧ ∃ evs err, sdesInit.run inner count (inner.length / 2 + 1) = some (evs, err) ∧
      Regions inner 4 (evs.map (·.2)) ∧ evs.countP (·.1.isChunk) ≤ count ∧ (err = false → evs.countP (·.1.isChunk) = count) := by
  rcases parseInner_facts b 202 4 (Or.inl rfl) with h | ⟨inner, c, h, ht, hl, hc⟩
  · exact Or.inl h
  · right
    refine ⟨inner, c, h, ht, hc, ?_⟩
    obtain ⟨evs, err, r1, r2, r3, r4, r5⟩ := sdesRun_facts inner c (inner.length / 2 + 1) sdesInit
      ⟨rfl, hl, Nat.zero_le _⟩ (by decide) hl (by simp only [SdesIt.from, sdesInit]; omega)
    exact ⟨evs, err, r1, ⟨r2, r3⟩, r4, fun he => (r5 he).2⟩

/-- **C25** (BYE). -/
theorem C25_bye (b : Bytes) : parseInner b 203 4 = some none ∨ ∃ inner count, parseInner b 203 4 = some (some (inner, count)) ∧
    Trimmed b inner ∧ count ≤ 31 ∧ ∃ evs err, byeInit.run inner count inner.length = some (evs, err) ∧
      Regions inner 4 (evs.map (·.2)) ∧ evs.countP (·.1.isSsrc) ≤ count ∧ (err = false → evs.countP (·.1.isSsrc) = count) := by
  rcases parseInner_facts b 203 4 (Or.inl rfl) with h | ⟨inner, c, h, ht, hl, hc⟩
  · exact Or.inl h
  · right
    refine ⟨inner, c, h, ht, hc, ?_⟩
    obtain ⟨evs, err, r1, r2, r3, r4, r5⟩ := byeRun_facts inner c inner.length byeInit
      ⟨rfl, hl, Nat.zero_le _⟩ (by decide) hl (by simp only [ByeIt.from, byeInit]; omega)
    exact ⟨evs, err, r1, ⟨r2, r3⟩, r4, fun he => (r5 he).2⟩

/-- **C25** (XR). The structure of a block, with its subblocks, is inside of the block. Without error all blocks of known
type were visited. -/
theorem C25_xr (b : Bytes) : parseInner b 207 8 = some none ∨ ∃ inner count, parseInner b 207 8 = some (some (inner, count)) ∧
    Trimmed b inner ∧ 8 ≤ inner.length ∧ ∃ vs err, xrInit.run inner (inner.length / 4 + 1) = some (vs, err) ∧
      Regions inner 8 (vs.map (fun v => ⟨v.pos, v.len⟩)) ∧ (∀ v ∈ vs, v.size ≤ v.len ∧ XWalk inner 8 v.pos ∧
        ∃ t, BlockAt inner v.pos t v.len ∧ xrKind t = some v.kind) ∧
      (err = false → XWalk inner 8 inner.length ∧
        ∀ p t l, XWalk inner 8 p → BlockAt inner p t l → xrKind t ≠ none → ∃ v ∈ vs, v.pos = p) := by
  rcases parseInner_facts b 207 8 (Or.inr rfl) with h | ⟨inner, c, h, ht, hl, hc⟩
  · exact Or.inl h
  · right
    refine ⟨inner, c, h, ht, hl, ?_⟩
    obtain ⟨vs, err, r1, r2, r3, r4⟩ := xrRun_facts inner (inner.length / 4 + 1) xrInit rfl hl
      (by simp only [XrIt.from, xrInit]; omega)
    refine ⟨vs, err, r1, ⟨?_, ?_⟩, ?_, fun he => ?_⟩
    · intro r hr
      obtain ⟨v, hv, rfl⟩ := List.mem_map.1 hr
      obtain ⟨t, g1, g2, g3⟩ := r2 v hv
      exact ⟨g2.le, g1.fits⟩
    · rw [List.pairwise_map]; exact r3
    · intro v hv
      obtain ⟨t, g1, g2, g3, g4⟩ := r2 v hv
      exact ⟨g4, g2, t, g1, g3⟩
    · exact ⟨(r4 he).2.1, (r4 he).2.2⟩

/-- An SDES packet with one chunk and a CNAME, with padding. -/
def sampleSdes : Bytes := [0xA1, 202, 0, 4, 0, 0, 0, 9, 1, 2, 0x61, 0x62, 0, 0, 0, 0, 0, 0, 0, 4]

example : parseInner sampleSdes 202 4 = some (some (sampleSdes.take 16, 1)) ∧
    sdesInit.run (sampleSdes.take 16) 1 9 = some ([(.chunk 9, ⟨4, 4⟩), (.item 1 [0x61, 0x62], ⟨8, 4⟩)], false) := by
  decide +kernel
example : byeInit.run [0x81, 203, 0, 2, 0, 0, 0, 5, 2, 0x61, 0x62, 0] 1 12 =
    some ([(.ssrc 5, ⟨4, 4⟩), (.reason [0x61, 0x62], ⟨8, 3⟩)], false) := by decide +kernel
example : xrInit.run [0x80, 207, 0, 5, 0, 0, 0, 1, 99, 0, 0, 0, 4, 0, 0, 2, 0, 0, 0, 0, 0, 0, 0, 0] 7 =
    some ([⟨.rrtr, 12, 12⟩], false) := by decide +kernel

end Verif.RtcpParse
