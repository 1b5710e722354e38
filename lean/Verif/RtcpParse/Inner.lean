import Verif.RtcpParse.Lemmas

/-! Facts about the inner traversers. -/

namespace Verif.RtcpParse

open Verif.Bytes Verif.RtcpFields

theorem word?_some {b : Bytes} {p n : Nat} (h : p + n ≤ b.length) : word? b p n = some (fld b p n) := if_pos h

theorem parseInner_facts (b : Bytes) (type size : Nat) (hs : size = 4 ∨ size = 8) :
    parseInner b type size = some none ∨
    ∃ inner c, parseInner b type size = some (some (inner, c)) ∧ Trimmed b inner ∧ size ≤ inner.length ∧ c ≤ 31 := by
  unfold parseInner
  split_ifs with h1
  · exact Or.inl rfl
  · obtain ⟨h, hh⟩ := header?_some (b := b) (p := 0) (by omega)
    obtain ⟨hl, _, hd⟩ := header?_facts hh
    have hc : h.counter ≤ 31 := by
      rw [hd]
      unfold readHeader counter getBits8
      simp only
      rw [BitVec.toNat_and]
      exact Nat.and_le_right
    simp only [hh]
    split_ifs with h2 h3 h4
    · exact Or.inl rfl
    · exact Or.inl rfl
    · obtain ⟨p, hp, _⟩ := byte?_some (b := b) (i := h.len - 1) (by omega)
      simp only [hp]
      by_cases hlt : h.len < size
      · -- a packet of four bytes: the last byte is the low byte of its length
        have h4' : h.len = 4 := by
          have : h.len % 4 = 0 := by rw [hd]; unfold readHeader lenBytes; simp only; omega
          omega
        have hp0 : p = 0 := by
          rw [h4', show 4 - 1 = 3 from rfl, byte?_fld (by omega)] at hp
          injection hp with hp
          have hf : fld (rdAt b 0 4) 2 2 = 0 := by
            rw [hd] at h4'
            unfold readHeader lenBytes at h4'
            simp only at h4'
            omega
          have e : fld (rdAt b 0 4) 2 2 = fld b 2 1 * 256 + fld b 3 1 := by
            unfold fld
            rw [rdAt_rdAt _ _ _ _ _ (by omega)]
            have h22 : rdAt b 2 2 = [b[2]'(by omega), b[3]'(by omega)] := by
              unfold rdAt
              rw [List.drop_eq_getElem_cons (show 2 < b.length by omega), List.drop_eq_getElem_cons (show 2 + 1 < b.length by omega)]
              rfl
            have h21 : rdAt b 2 1 = [b[2]'(by omega)] := by
              unfold rdAt
              rw [List.drop_eq_getElem_cons (show 2 < b.length by omega)]; rfl
            have h31 : rdAt b 3 1 = [b[3]'(by omega)] := by
              unfold rdAt
              rw [List.drop_eq_getElem_cons (show 3 < b.length by omega)]; rfl
            rw [show 0 + 2 = 2 from rfl, h22, h21, h31, RtpCodec.beNat_singleton, RtpCodec.beNat_singleton]
            have := beNat_concat [b[2]'(by omega)] (b[3]'(by omega))
            rw [List.singleton_append] at this
            rw [this, RtpCodec.beNat_singleton]
          omega
        rw [if_pos (Or.inl (by omega))]
        exact Or.inl rfl
      · have hmod : (h.len + 2 ^ 64 - size) % 2 ^ 64 = h.len - size ∨ h.len - size ≥ 2 ^ 18 := by
          by_cases hbig : h.len - size ≥ 2 ^ 18
          · exact Or.inr hbig
          · left; omega
        have hsmall : h.len ≤ 2 ^ 18 := by
          have := beNat_lt (rdAt (rdAt b 0 4) 2 2)
          rw [rdAt_length (rdAt b 0 4) 2 2 (by rw [rdAt_length b 0 4 (by omega)])] at this
          rw [hd]; unfold readHeader lenBytes fld; simp only; omega
        have hmod : (h.len + 2 ^ 64 - size) % 2 ^ 64 = h.len - size := by omega
        rw [hmod]
        split_ifs with h5 h6
        · exact Or.inl rfl
        · right
          have hlen : (b.take (h.len - p)).length = h.len - p := by rw [List.length_take]; omega
          refine ⟨_, _, rfl, ⟨h, hh, by omega, Or.inr ⟨h4, p, hp, by omega, ?_, ?_⟩⟩, ?_, hc⟩
          · rw [hlen]; omega
          · rw [hlen]
          · rw [hlen]; omega
        · omega
    · right
      exact ⟨b, h.counter, rfl, ⟨h, hh, by omega, Or.inl ⟨by simpa using h4, rfl⟩⟩, by omega, hc⟩

/-! ## SDES -/

theorem skipPad_bounds (size pos : Nat) (h : pos < size) : pos < skipPad size pos ∧ skipPad size pos ≤ size := by
  induction hm : size - pos using Nat.strong_induction_on generalizing pos with
  | _ m ih =>
    rw [skipPad]
    split_ifs with hc
    · have := ih (size - (pos + 1)) (by omega) (pos + 1) hc.1 rfl
      omega
    · omega

theorem sdesChunk_facts (b : Bytes) (count : Nat) (it : SdesIt) : ∃ it', sdesChunk b count it = some it' ∧
    it'.idx = it.idx ∧ ((it'.st = .fin ∧ (it'.err = false → it.err = false ∧ it.idx = count)) ∨
      (it'.st = .chunk ∧ it'.pos = it.pos ∧ it.pos + 4 ≤ b.length ∧ it'.idx ≠ count ∧ it'.err = it.err)) := by
  unfold sdesChunk
  split_ifs with h1 h2
  · exact ⟨_, rfl, rfl, Or.inl ⟨rfl, fun h => ⟨h, h1⟩⟩⟩
  · exact ⟨_, rfl, rfl, Or.inl ⟨rfl, by simp⟩⟩
  · rw [word?_some (by omega)]
    exact ⟨_, rfl, rfl, Or.inr ⟨rfl, rfl, by omega, h1, rfl⟩⟩

theorem sdesItem_facts (b : Bytes) (count : Nat) (it : SdesIt) (hp : it.pos ≤ b.length) : ∃ it', sdesItem b count it = some it' ∧
    ((it'.st = .fin ∧ (it'.err = false → it.err = false ∧ it.idx + 1 = count)) ∨
     (it'.st = .chunk ∧ it.pos ≤ it'.pos ∧ it'.pos + 4 ≤ b.length ∧ it'.idx = it.idx + 1 ∧ it'.idx ≠ count ∧ it'.err = it.err) ∨
     (it'.st = .item ∧ it'.pos = it.pos ∧ 2 ≤ it'.itemLen ∧ it'.pos + it'.itemLen ≤ b.length ∧ it'.idx = it.idx ∧
       it'.err = it.err)) := by
  unfold sdesItem
  by_cases h1 : it.pos = b.length
  · rw [if_pos h1]
    obtain ⟨it', e, hi, h⟩ := sdesChunk_facts b count { it with idx := it.idx + 1 }
    refine ⟨it', e, ?_⟩
    rcases h with h | ⟨a1, a2, a3, a4, a5⟩
    · exact Or.inl h
    · simp only at a2 a3 a5 hi
      exact Or.inr (Or.inl ⟨a1, by omega, by omega, hi, a4, a5⟩)
  · rw [if_neg h1]
    have hlt : it.pos < b.length := by omega
    obtain ⟨t, ht, _⟩ := byte?_some hlt
    simp only [ht]
    split_ifs with h2 h3
    · obtain ⟨it', e, hi, h⟩ := sdesChunk_facts b count { it with pos := skipPad b.length it.pos, idx := it.idx + 1 }
      have hs := skipPad_bounds b.length it.pos hlt
      refine ⟨it', e, ?_⟩
      rcases h with h | ⟨a1, a2, a3, a4, a5⟩
      · exact Or.inl h
      · simp only at a2 a3 a5 hi
        exact Or.inr (Or.inl ⟨a1, by omega, by omega, hi, a4, a5⟩)
    · exact ⟨_, rfl, Or.inl ⟨rfl, by simp⟩⟩
    · obtain ⟨n, hn, _⟩ := byte?_some (b := b) (i := it.pos + 1) (by omega)
      simp only [hn]
      split_ifs with h4
      · exact ⟨_, rfl, Or.inl ⟨rfl, by simp⟩⟩
      · exact ⟨_, rfl, Or.inr (Or.inr ⟨rfl, rfl, by simp only; omega, by simp only; omega, rfl, rfl⟩)⟩

/-- Position where the search of the next element starts. -/
def SdesIt.from (it : SdesIt) : Nat :=
  match it.st with
  | .begin => 4
  | .chunk => it.pos + 4
  | .item => it.pos + it.itemLen
  | .fin => it.pos

/-- Number of chunks that are left. -/
def SdesIt.left (count : Nat) (it : SdesIt) : Nat :=
  match it.st with
  | .begin => count - it.idx
  | .chunk => count - it.idx - 1
  | .item => count - it.idx - 1
  | .fin => 0

/-- Invariant of the iterator. -/
def SdesIt.Inv (b : Bytes) (count : Nat) (it : SdesIt) : Prop :=
  match it.st with
  | .begin => it.pos = 0 ∧ 4 ≤ b.length ∧ it.idx ≤ count
  | .chunk => it.pos + 4 ≤ b.length ∧ it.idx < count
  | .item => 2 ≤ it.itemLen ∧ it.pos + it.itemLen ≤ b.length ∧ it.idx < count
  | .fin => True

theorem sdesNext_facts (b : Bytes) (count : Nat) (it : SdesIt) (hi : it.Inv b count) (hst : it.st ≠ .fin) :
    ∃ it', it.next b count = some it' ∧ it'.Inv b count ∧
      ((it'.event = none ∧ (it'.err = false → it.err = false ∧ it.left count = 0)) ∨
       ∃ e r, it'.event = some (e, r) ∧ it.from ≤ r.off ∧ r.off + r.len = it'.from ∧ 2 ≤ r.len ∧ r.off + r.len ≤ b.length ∧
        it'.st ≠ .fin ∧ it'.err = it.err ∧ it.left count = it'.left count + (if e.isChunk then 1 else 0)) := by
  rcases it with ⟨st, pos, idx, ilen, err, ssrc, type, text⟩
  unfold SdesIt.next
  cases st with
  | fin => exact absurd rfl hst
  | begin =>
    simp only [SdesIt.Inv] at hi
    simp only
    rw [if_neg (by omega)]
    obtain ⟨it', e, h1, h2⟩ := sdesChunk_facts b count ⟨.begin, pos + 4, idx, ilen, err, ssrc, type, text⟩
    refine ⟨it', e, ?_⟩
    rcases it' with ⟨st', pos', idx', ilen', err', ssrc', type', text'⟩
    simp only at h1 h2
    rcases h2 with ⟨rfl, h2⟩ | ⟨rfl, rfl, h3, h4, h5⟩
    · refine ⟨trivial, Or.inl ⟨rfl, fun h => ?_⟩⟩
      obtain ⟨g1, g2⟩ := h2 h
      exact ⟨g1, by simp only [SdesIt.left]; omega⟩
    · refine ⟨⟨h3, by simp only; omega⟩, Or.inr ⟨_, _, rfl, ?_, ?_, ?_, ?_, ?_, h5, ?_⟩⟩
      · simp only [SdesIt.from]; omega
      · simp only [SdesIt.from]
      · simp only; omega
      · simp only; omega
      · simp
      · simp only [SdesIt.left, SdesEv.isChunk, if_true]; omega
  | chunk =>
    simp only [SdesIt.Inv] at hi
    simp only
    obtain ⟨it', e, h2⟩ := sdesItem_facts b count ⟨.chunk, pos + 4, idx, ilen, err, ssrc, type, text⟩ (by simp only; omega)
    refine ⟨it', e, ?_⟩
    rcases it' with ⟨st', pos', idx', ilen', err', ssrc', type', text'⟩
    simp only at h2
    rcases h2 with ⟨rfl, h2⟩ | ⟨rfl, h3, h4, rfl, h5, h6⟩ | ⟨rfl, rfl, h3, h4, rfl, h5⟩
    · refine ⟨trivial, Or.inl ⟨rfl, fun h => ?_⟩⟩
      obtain ⟨g1, g2⟩ := h2 h
      exact ⟨g1, by simp only [SdesIt.left]; omega⟩
    · refine ⟨⟨h4, by simp only; omega⟩, Or.inr ⟨_, _, rfl, ?_, ?_, ?_, ?_, ?_, h6, ?_⟩⟩
      · simp only [SdesIt.from]; omega
      · simp only [SdesIt.from]
      · simp only; omega
      · simp only; omega
      · simp
      · simp only [SdesIt.left, SdesEv.isChunk, if_true]; omega
    · refine ⟨⟨h3, h4, by simp only; omega⟩, Or.inr ⟨_, _, rfl, ?_, ?_, h3, h4, ?_, h5, ?_⟩⟩
      · simp only [SdesIt.from]; omega
      · simp only [SdesIt.from]
      · simp
      · simp only [SdesIt.left, SdesEv.isChunk]; simp
  | item =>
    simp only [SdesIt.Inv] at hi
    simp only
    obtain ⟨it', e, h2⟩ := sdesItem_facts b count ⟨.item, pos + ilen, idx, ilen, err, ssrc, type, text⟩ (by simp only; omega)
    refine ⟨it', e, ?_⟩
    rcases it' with ⟨st', pos', idx', ilen', err', ssrc', type', text'⟩
    simp only at h2
    rcases h2 with ⟨rfl, h2⟩ | ⟨rfl, h3, h4, rfl, h5, h6⟩ | ⟨rfl, rfl, h3, h4, rfl, h5⟩
    · refine ⟨trivial, Or.inl ⟨rfl, fun h => ?_⟩⟩
      obtain ⟨g1, g2⟩ := h2 h
      exact ⟨g1, by simp only [SdesIt.left]; omega⟩
    · refine ⟨⟨h4, by simp only; omega⟩, Or.inr ⟨_, _, rfl, ?_, ?_, ?_, ?_, ?_, h6, ?_⟩⟩
      · simp only [SdesIt.from]; omega
      · simp only [SdesIt.from]
      · simp only; omega
      · simp only; omega
      · simp
      · simp only [SdesIt.left, SdesEv.isChunk, if_true]; omega
    · refine ⟨⟨h3, h4, by simp only; omega⟩, Or.inr ⟨_, _, rfl, ?_, ?_, h3, h4, ?_, h5, ?_⟩⟩
      · simp only [SdesIt.from]; omega
      · simp only [SdesIt.from]
      · simp
      · simp only [SdesIt.left, SdesEv.isChunk]; simp

theorem sdesRun_facts (b : Bytes) (count n : Nat) (it : SdesIt) (hi : it.Inv b count) (hst : it.st ≠ .fin)
    (hf : it.from ≤ b.length) (hn : b.length - it.from < n * 2) :
    ∃ evs err, it.run b count n = some (evs, err) ∧
      (∀ r ∈ evs.map (·.2), it.from ≤ r.off ∧ r.off + r.len ≤ b.length) ∧
      (evs.map (·.2)).Pairwise (fun x y => x.off + x.len ≤ y.off) ∧
      (evs.countP (·.1.isChunk) ≤ it.left count) ∧
      (err = false → it.err = false ∧ evs.countP (·.1.isChunk) = it.left count) := by
  induction n generalizing it with
  | zero => omega
  | succ n ih =>
    unfold SdesIt.run
    obtain ⟨it', e, hi', h⟩ := sdesNext_facts b count it hi hst
    rw [e]
    simp only
    rcases h with ⟨h1, h2⟩ | ⟨ev, r, h1, h2, h3, h4, h5, h6, h7, h8⟩
    · rw [h1]
      refine ⟨[], it'.err, rfl, by simp, by simp, by simp, fun h => ?_⟩
      obtain ⟨g1, g2⟩ := h2 h
      exact ⟨g1, by simp [g2]⟩
    · rw [h1]
      obtain ⟨evs, err, r1, r2, r3, r4, r5⟩ := ih it' hi' h6 (by omega) (by omega)
      simp only [r1, Option.map_some]
      refine ⟨(ev, r) :: evs, err, rfl, ?_, ?_, ?_, ?_⟩
      · intro x hx
        rcases List.mem_cons.1 hx with rfl | hx
        · exact ⟨h2, h5⟩
        · have := r2 x hx
          omega
      · refine List.pairwise_cons.2 ⟨?_, r3⟩
        intro x hx
        have := (r2 x hx).1
        simp only
        omega
      · rw [List.countP_cons]
        show _ + (if ev.isChunk = true then 1 else 0) ≤ _
        omega
      · intro h
        obtain ⟨g1, g2⟩ := r5 h
        refine ⟨by rw [← h7]; exact g1, ?_⟩
        rw [List.countP_cons]
        show _ + (if ev.isChunk = true then 1 else 0) = _
        omega

/-! ## BYE -/

/-- Position where the search of the next element starts. -/
def ByeIt.from (it : ByeIt) : Nat :=
  match it.st with
  | .begin => 4
  | .ssrc => it.pos + 4
  | .reason => it.pos + it.reasonLen
  | .fin => it.pos

/-- Number of sources that are left. -/
def ByeIt.left (count : Nat) (it : ByeIt) : Nat :=
  match it.st with
  | .begin => count - it.idx
  | .ssrc => count - it.idx - 1
  | .reason => 0
  | .fin => 0

/-- Invariant of the iterator. -/
def ByeIt.Inv (b : Bytes) (count : Nat) (it : ByeIt) : Prop :=
  match it.st with
  | .begin => it.pos = 0 ∧ 4 ≤ b.length ∧ it.idx ≤ count
  | .ssrc => it.pos + 4 ≤ b.length ∧ it.idx < count
  | .reason => it.pos + it.reasonLen ≤ b.length ∧ 1 ≤ it.reasonLen
  | .fin => True

theorem byeElem_facts (b : Bytes) (count : Nat) (it : ByeIt) (hp : it.pos ≤ b.length) (hidx : it.idx ≤ count) :
    ∃ it', byeElem b count it = some it' ∧ it'.Inv b count ∧
      ((it'.event = none ∧ (it'.err = false → it.err = false ∧ it.idx = count)) ∨
       ∃ e r, it'.event = some (e, r) ∧ it.pos = r.off ∧ r.off + r.len = it'.from ∧ 1 ≤ r.len ∧ r.off + r.len ≤ b.length ∧
        it'.st ≠ .fin ∧ it'.err = it.err ∧ count - it.idx = it'.left count + (if e.isSsrc then 1 else 0)) := by
  rcases it with ⟨st, pos, idx, err, ssrc, rl, reason⟩
  simp only at hp hidx
  unfold byeElem
  simp only
  split_ifs with h1 h2 h3 h4
  · omega
  · obtain ⟨n, hn, _⟩ := byte?_some h2
    simp only [hn]
    split_ifs with h5
    · exact ⟨_, rfl, trivial, Or.inl ⟨rfl, by simp⟩⟩
    · refine ⟨_, rfl, ?_, Or.inr ⟨_, _, rfl, rfl, rfl, ?_, ?_, ?_, rfl, ?_⟩⟩
      · simp only [ByeIt.Inv]; omega
      · simp only; omega
      · simp only; omega
      · simp
      · simp only [ByeIt.left, ByeEv.isSsrc]; simp [h1]
  · exact ⟨_, rfl, trivial, Or.inl ⟨rfl, fun h => ⟨h, h1⟩⟩⟩
  · exact ⟨_, rfl, trivial, Or.inl ⟨rfl, by simp⟩⟩
  · rw [word?_some (by omega)]
    refine ⟨_, rfl, ?_, Or.inr ⟨_, _, rfl, rfl, rfl, ?_, ?_, ?_, rfl, ?_⟩⟩
    · simp only [ByeIt.Inv]; omega
    · simp only; omega
    · simp only; omega
    · simp
    · simp only [ByeIt.left, ByeEv.isSsrc, if_true]; omega

theorem byeNext_facts (b : Bytes) (count : Nat) (it : ByeIt) (hi : it.Inv b count) (hst : it.st ≠ .fin) :
    ∃ it', it.next b count = some it' ∧ it'.Inv b count ∧
      ((it'.event = none ∧ (it'.err = false → it.err = false ∧ it.left count = 0)) ∨
       ∃ e r, it'.event = some (e, r) ∧ it.from = r.off ∧ r.off + r.len = it'.from ∧ 1 ≤ r.len ∧ r.off + r.len ≤ b.length ∧
        it'.st ≠ .fin ∧ it'.err = it.err ∧ it.left count = it'.left count + (if e.isSsrc then 1 else 0)) := by
  rcases it with ⟨st, pos, idx, err, ssrc, rl, reason⟩
  unfold ByeIt.next
  cases st with
  | fin => exact absurd rfl hst
  | reason => exact ⟨_, rfl, trivial, Or.inl ⟨rfl, fun h => ⟨h, rfl⟩⟩⟩
  | begin =>
    simp only [ByeIt.Inv] at hi
    simp only
    rw [if_neg (by omega)]
    obtain ⟨it', e, h1, h2⟩ := byeElem_facts b count ⟨.begin, pos + 4, idx, err, ssrc, rl, reason⟩ (by simp only; omega)
      (by simp only; omega)
    refine ⟨it', e, h1, ?_⟩
    rcases h2 with ⟨g1, g2⟩ | ⟨ev, r, g1, g2, g3⟩
    · refine Or.inl ⟨g1, fun h => ?_⟩
      obtain ⟨k1, k2⟩ := g2 h
      simp only at k2
      exact ⟨k1, by simp only [ByeIt.left]; omega⟩
    · simp only at g2
      exact Or.inr ⟨ev, r, g1, by simp only [ByeIt.from]; omega, g3⟩
  | ssrc =>
    simp only [ByeIt.Inv] at hi
    simp only
    obtain ⟨it', e, h1, h2⟩ := byeElem_facts b count ⟨.ssrc, pos + 4, idx + 1, err, ssrc, rl, reason⟩ (by simp only; omega)
      (by simp only; omega)
    refine ⟨it', e, h1, ?_⟩
    rcases h2 with ⟨g1, g2⟩ | ⟨ev, r, g1, g2, g3, g4, g5, g6, g7, g8⟩
    · refine Or.inl ⟨g1, fun h => ?_⟩
      obtain ⟨k1, k2⟩ := g2 h
      simp only at k2
      exact ⟨k1, by simp only [ByeIt.left]; omega⟩
    · simp only at g2 g8
      exact Or.inr ⟨ev, r, g1, by simp only [ByeIt.from]; omega, g3, g4, g5, g6, g7, by show count - idx - 1 = _; omega⟩

theorem byeRun_facts (b : Bytes) (count n : Nat) (it : ByeIt) (hi : it.Inv b count) (hst : it.st ≠ .fin)
    (hf : it.from ≤ b.length) (hn : b.length - it.from < n) :
    ∃ evs err, it.run b count n = some (evs, err) ∧
      (∀ r ∈ evs.map (·.2), it.from ≤ r.off ∧ r.off + r.len ≤ b.length) ∧
      (evs.map (·.2)).Pairwise (fun x y => x.off + x.len ≤ y.off) ∧
      (evs.countP (·.1.isSsrc) ≤ it.left count) ∧
      (err = false → it.err = false ∧ evs.countP (·.1.isSsrc) = it.left count) := by
  induction n generalizing it with
  | zero => omega
  | succ n ih =>
    unfold ByeIt.run
    obtain ⟨it', e, hi', h⟩ := byeNext_facts b count it hi hst
    rw [e]
    simp only
    rcases h with ⟨h1, h2⟩ | ⟨ev, r, h1, h2, h3, h4, h5, h6, h7, h8⟩
    · rw [h1]
      refine ⟨[], it'.err, rfl, by simp, by simp, by simp, fun h => ?_⟩
      obtain ⟨g1, g2⟩ := h2 h
      exact ⟨g1, by simp [g2]⟩
    · rw [h1]
      obtain ⟨evs, err, r1, r2, r3, r4, r5⟩ := ih it' hi' h6 (by omega) (by omega)
      simp only [r1, Option.map_some]
      refine ⟨(ev, r) :: evs, err, rfl, ?_, ?_, ?_, ?_⟩
      · intro x hx
        rcases List.mem_cons.1 hx with rfl | hx
        · exact ⟨by omega, h5⟩
        · have := r2 x hx
          omega
      · refine List.pairwise_cons.2 ⟨?_, r3⟩
        intro x hx
        have := (r2 x hx).1
        simp only
        omega
      · rw [List.countP_cons]
        show _ + (if ev.isSsrc = true then 1 else 0) ≤ _
        omega
      · intro h
        obtain ⟨g1, g2⟩ := r5 h
        refine ⟨by rw [← h7]; exact g1, ?_⟩
        rw [List.countP_cons]
        show _ + (if ev.isSsrc = true then 1 else 0) = _
        omega

/-! ## XR -/

theorem BlockAt.len_pos {b : Bytes} {p t l : Nat} (h : BlockAt b p t l) : 4 ≤ l := by
  obtain ⟨w, _, hw⟩ := h.len
  omega

theorem BlockAt.unique {b : Bytes} {p t l t' l' : Nat} (h : BlockAt b p t l) (h' : BlockAt b p t' l') : t = t' ∧ l = l' := by
  obtain ⟨w, hw, e⟩ := h.len
  obtain ⟨w', hw', e'⟩ := h'.len
  have h1 := h.type.symm.trans h'.type
  have h2 := hw.symm.trans hw'
  injection h1 with h1
  injection h2 with h2
  exact ⟨h1, by rw [e, e', h2]⟩

theorem XWalk.trans {b : Bytes} {p q r : Nat} (h1 : XWalk b p q) (h2 : XWalk b q r) : XWalk b p r := by
  induction h1 with
  | refl => exact h2
  | step hp _ ih => exact .step hp (ih h2)

theorem XWalk.le {b : Bytes} {p q : Nat} (h : XWalk b p q) : p ≤ q := by
  induction h with
  | refl => omega
  | step hp _ ih => omega

theorem XWalk.cases' {b : Bytes} {p q t l : Nat} (hp : BlockAt b p t l) (hw : XWalk b p q) : q = p ∨ XWalk b (p + l) q := by
  cases hw with
  | refl => exact Or.inl rfl
  | step hp' hw' => rw [(hp.unique hp').2]; exact Or.inr hw'

theorem xrLook_facts (b : Bytes) (pos : Nat) :
    xrLook b pos = some .stop ∨
    (∃ t l e, xrLook b pos = some (.skip l e) ∧ BlockAt b pos t l ∧ (e = false → xrKind t = none)) ∨
    (∃ t k l, xrLook b pos = some (.found ⟨k, pos, l⟩) ∧ BlockAt b pos t l ∧ xrKind t = some k ∧ (XrVisit.mk k pos l).size ≤ l) := by
  unfold xrLook
  split_ifs with h4
  · exact Or.inl rfl
  · obtain ⟨t, ht, _⟩ := byte?_some (b := b) (i := pos) (by omega)
    have hw := word?_some (b := b) (p := pos + 2) (n := 2) (by omega)
    rw [ht, hw]
    simp only
    split_ifs with hf
    · exact Or.inl rfl
    · have hb : BlockAt b pos t ((fld b (pos + 2) 2 + 1) * 4) := ⟨ht, ⟨_, hw, rfl⟩, by omega⟩
      cases hk : xrKind t with
      | none => exact Or.inr (Or.inl ⟨t, _, false, rfl, hb, fun _ => hk⟩)
      | some k =>
        simp only
        split_ifs with hc
        · refine Or.inr (Or.inr ⟨t, k, _, rfl, hb, hk, ?_⟩)
          unfold XrVisit.check at hc
          cases k <;> simp only [decide_eq_true_eq] at hc <;> omega
        · exact Or.inr (Or.inl ⟨t, _, true, rfl, hb, by simp⟩)

theorem nextBlock_facts (b : Bytes) (pos : Nat) (err : Bool) (hpos : pos ≤ b.length) :
    (∃ e, nextBlock b pos err = some (none, e) ∧ (e = false → err = false ∧ XWalk b pos b.length ∧
      ∀ p t l, XWalk b pos p → BlockAt b p t l → xrKind t = none)) ∨
    (∃ t v e, nextBlock b pos err = some (some v, e) ∧ XWalk b pos v.pos ∧ BlockAt b v.pos t v.len ∧
      xrKind t = some v.kind ∧ v.size ≤ v.len ∧
      (e = false → err = false ∧ ∀ p t' l', XWalk b pos p → BlockAt b p t' l' → xrKind t' ≠ none →
        p = v.pos ∨ XWalk b (v.pos + v.len) p)) := by
  induction hm : b.length - pos using Nat.strong_induction_on generalizing pos err with
  | _ m ih =>
    rw [nextBlock]
    split_ifs with hp heq
    · left
      refine ⟨err, rfl, fun he => ⟨he, by rw [heq]; exact .refl _, ?_⟩⟩
      intro p t l hw hpk
      have := hw.le
      have := hpk.fits
      have := hpk.len_pos
      omega
    · omega
    · rcases xrLook_facts b pos with hl | ⟨t, l, e, hl, hpk, hk⟩ | ⟨t, k, l, hl, hpk, hk, hs⟩
      · simp only [hl]
        exact Or.inl ⟨true, rfl, by simp⟩
      · have hlen := hpk.len_pos
        have hfit := hpk.fits
        simp only [hl]
        rw [dif_pos (by omega)]
        rcases ih (b.length - (pos + l)) (by omega) (pos + l) (err || e) hfit rfl with
          ⟨e', h1, h2⟩ | ⟨t', v, e', h1, h2, h3, h4, h4', h5⟩
        · left
          refine ⟨e', h1, fun he => ?_⟩
          obtain ⟨g1, g2, g3⟩ := h2 he
          rw [Bool.or_eq_false_iff] at g1
          refine ⟨g1.1, .step hpk g2, ?_⟩
          intro p hd hw hpd hpb
          rcases XWalk.cases' hpk hpd with rfl | hw'
          · rw [← (hpk.unique hpb).1]; exact hk g1.2
          · exact g3 p hd hw hw' hpb
        · right
          refine ⟨t', v, e', h1, .step hpk h2, h3, h4, h4', fun he => ?_⟩
          obtain ⟨g1, g3⟩ := h5 he
          rw [Bool.or_eq_false_iff] at g1
          refine ⟨g1.1, ?_⟩
          intro p hd hl' hw hpd hkk
          rcases XWalk.cases' hpk hw with rfl | hw
          · rw [← (hpk.unique hpd).1] at hkk
            exact absurd (hk g1.2) hkk
          · exact g3 p hd hl' hw hpd hkk
      · simp only [hl]
        right
        refine ⟨t, ⟨k, pos, l⟩, err, rfl, .refl _, hpk, hk, hs, fun he => ⟨he, ?_⟩⟩
        intro p t' l' hw hpd _
        exact XWalk.cases' hpk hw

/-- Position where the search of the next block starts. -/
def XrIt.from (it : XrIt) : Nat :=
  match it.cur with
  | none => 8
  | some v => v.pos + v.len

theorem xrRun_facts (b : Bytes) (n : Nat) (it : XrIt) (hend : it.ended = false) (hpos : it.from ≤ b.length)
    (hn : b.length - it.from < n * 4) :
    ∃ vs e, it.run b n = some (vs, e) ∧
      (∀ v ∈ vs, ∃ t, BlockAt b v.pos t v.len ∧ XWalk b it.from v.pos ∧ xrKind t = some v.kind ∧ v.size ≤ v.len) ∧
      vs.Pairwise (fun x y => x.pos + x.len ≤ y.pos) ∧
      (e = false → it.err = false ∧ XWalk b it.from b.length ∧
        ∀ p t l, XWalk b it.from p → BlockAt b p t l → xrKind t ≠ none → ∃ v ∈ vs, v.pos = p) := by
  induction n generalizing it with
  | zero => omega
  | succ n ih =>
    have hnext : it.next b = match nextBlock b it.from it.err with
        | none => none
        | some (some v, e) => some ⟨some v, false, e⟩
        | some (none, e) => some ⟨it.cur, true, e⟩ := by
      rcases it with ⟨cur, ended, err⟩
      simp only at hend
      subst hend
      cases cur with
      | none =>
        unfold XrIt.next
        simp only [XrIt.from] at hpos
        simp only [XrIt.from, Bool.false_eq_true, if_false]
        rw [if_neg (by omega)]
        rcases nextBlock b 8 err with _ | ⟨_ | _, _⟩ <;> rfl
      | some w =>
        unfold XrIt.next
        simp only [XrIt.from, Bool.false_eq_true, if_false]
        rcases nextBlock b (w.pos + w.len) err with _ | ⟨_ | _, _⟩ <;> rfl
    unfold XrIt.run
    rw [hnext]
    rcases nextBlock_facts b it.from it.err hpos with ⟨e, h1, h2⟩ | ⟨t, v, e, h1, h2, h3, h4, h4', h5⟩
    · simp only [h1, if_true]
      refine ⟨[], e, rfl, by simp, .nil, fun he => ?_⟩
      obtain ⟨g1, g2, g3⟩ := h2 he
      refine ⟨g1, g2, ?_⟩
      intro p t l hw hp hk
      exact absurd (g3 p t l hw hp) hk
    · simp only [h1]
      have hle := h2.le
      have hlen := h3.len_pos
      have hfit := h3.fits
      obtain ⟨vs, e', r1, r2, r3, r4⟩ := ih ⟨some v, false, e⟩ rfl (by simp only [XrIt.from]; omega)
        (by simp only [XrIt.from]; omega)
      simp only [r1, Bool.false_eq_true, if_false, Option.map_some]
      simp only [XrIt.from] at r2 r4
      have hstep : XWalk b v.pos (v.pos + v.len) := .step h3 (.refl _)
      refine ⟨v :: vs, e', rfl, ?_, ?_, ?_⟩
      · intro w hw
        rcases List.mem_cons.1 hw with rfl | hw
        · exact ⟨t, h3, h2, h4, h4'⟩
        · obtain ⟨t', q1, q2, q3⟩ := r2 w hw
          exact ⟨t', q1, h2.trans (hstep.trans q2), q3⟩
      · refine List.pairwise_cons.2 ⟨?_, r3⟩
        intro w hw
        obtain ⟨t', q1, q2, q3⟩ := r2 w hw
        exact q2.le
      · intro he
        obtain ⟨g1, g2, g3⟩ := r4 he
        obtain ⟨f1, f2⟩ := h5 g1
        refine ⟨f1, h2.trans (hstep.trans g2), ?_⟩
        intro p hd l hw hp hk
        rcases f2 p hd l hw hp hk with rfl | hw
        · exact ⟨v, List.mem_cons_self, rfl⟩
        · obtain ⟨w, hw1, hw2⟩ := g3 p hd l hw hp hk
          exact ⟨w, List.mem_cons_of_mem _ hw1, hw2⟩

end Verif.RtcpParse
