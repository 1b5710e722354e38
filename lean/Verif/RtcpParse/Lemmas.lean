import Mathlib.Tactic.SplitIfs
import Verif.RtcpParse.Spec
import Verif.RtcpFields.Props
import Verif.RtpCodec.Lemmas

/-! Facts about the traversers. -/

namespace Verif.RtcpParse

open Verif.Bytes Verif.RtcpFields

theorem byte?_some {b : Bytes} {i : Nat} (h : i < b.length) : ∃ v, byte? b i = some v ∧ v < 256 := by
  unfold byte?
  rw [List.getElem?_eq_getElem h]
  exact ⟨_, rfl, (b[i]).isLt⟩

theorem byte?_fld {b : Bytes} {i : Nat} (h : i < b.length) : byte? b i = some (fld b i 1) := by
  unfold byte? fld
  have hr : rdAt b i 1 = [b[i]] := by
    unfold rdAt
    rw [List.drop_eq_getElem_cons h]; rfl
  rw [List.getElem?_eq_getElem h, hr, RtpCodec.beNat_singleton]
  rfl

theorem header?_some {b : Bytes} {p : Nat} (h : p + 4 ≤ b.length) : ∃ hd, header? b p = some hd := by
  unfold header?
  rw [if_pos h]
  exact ⟨_, rfl⟩

theorem header?_facts {b : Bytes} {p : Nat} {h : Header} (e : header? b p = some h) :
    4 ≤ h.len ∧ p + 4 ≤ b.length ∧ h = readHeader (rdAt b p 4) := by
  unfold header? at e
  split_ifs at e with hp
  injection e with e
  refine ⟨?_, hp, e.symm⟩
  rw [← e]
  unfold readHeader lenBytes
  simp only
  omega

theorem PacketAt.len_pos {b : Bytes} {p : Nat} {h : Header} (hp : PacketAt b p h) : 4 ≤ h.len := (header?_facts hp.header).1

theorem PacketAt.unique {b : Bytes} {p : Nat} {h h' : Header} (hp : PacketAt b p h) (hp' : PacketAt b p h') : h = h' := by
  have := hp.header.symm.trans hp'.header
  injection this

theorem Walk.trans {b : Bytes} {p q r : Nat} (h1 : Walk b p q) (h2 : Walk b q r) : Walk b p r := by
  induction h1 with
  | refl => exact h2
  | step hp _ ih => exact .step hp (ih h2)

theorem Walk.le {b : Bytes} {p q : Nat} (h : Walk b p q) : p ≤ q := by
  induction h with
  | refl => omega
  | step hp _ ih => omega

theorem Walk.cases' {b : Bytes} {p q : Nat} {h : Header} (hp : PacketAt b p h) (hw : Walk b p q) : q = p ∨ Walk b (p + h.len) q := by
  cases hw with
  | refl => exact Or.inl rfl
  | step hp' hw' => rw [hp.unique hp']; exact Or.inr hw'

theorem removePadding_facts {b : Bytes} {p : Nat} {h : Header} (hp : PacketAt b p h) :
    removePadding b p h = some none ∨ ∃ s, removePadding b p h = some (some s) ∧ s.len ≤ h.len ∧ 4 ≤ s.len ∧
      s.off + s.len ≤ b.length ∧ (s.off = p ∨ (s.off = 0 ∧ h.padding = true)) := by
  have hl := hp.len_pos
  have hf := hp.fits
  unfold removePadding
  split_ifs with hpad
  · obtain ⟨v, hv, _⟩ := byte?_some (b := b) (i := p + (h.len - 1)) (by omega)
    rw [hv]
    simp only
    split_ifs with h1 h2
    · exact Or.inl rfl
    · right
      refine ⟨⟨0, h.len - v⟩, rfl, ?_, ?_, ?_, Or.inr ⟨rfl, hpad⟩⟩ <;> simp only <;> omega
    · omega
  · right
    exact ⟨⟨p, h.len⟩, rfl, le_refl _, hl, hf, Or.inl rfl⟩

/-- What is known about a packet that was found. -/
structure Found (b : Bytes) (p : Nat) (h : Header) (v : Visit) : Prop where
  pos : v.pos = p
  len : v.len = h.len
  type : h.type = v.kind.type
  off : v.slice.off = p ∨ (v.slice.off = 0 ∧ h.padding = true ∧ (v.kind = .sr ∨ v.kind = .rr))
  sliceLen : v.slice.len ≤ h.len
  sliceIn : v.slice.off + v.slice.len ≤ b.length
  exposed : (v.exposed b).off = v.slice.off ∧ (v.exposed b).len ≤ v.slice.len

theorem lookReport_facts {b : Bytes} {p : Nat} {h : Header} (hp : PacketAt b p h) (k : Kind) (n : Nat)
    (hk : h.type = k.type) (hn : (k = .sr ∧ n = 28) ∨ (k = .rr ∧ n = 8)) :
    lookReport b p h k n = some (.skip h.len true) ∨ ∃ v, lookReport b p h k n = some (.found v) ∧ Found b p h v := by
  unfold lookReport
  rcases removePadding_facts hp with hr | ⟨s, hr, s1, s2, s3, s4⟩
  · rw [hr]; exact Or.inl rfl
  · rw [hr]
    have hlt : s.off < b.length := by omega
    simp only [byte?_fld hlt]
    split_ifs with hc
    · exact Or.inl rfl
    · right
      refine ⟨⟨k, p, h.len, s⟩, rfl, rfl, rfl, hk, ?_, s1, s3, ?_⟩
      · rcases s4 with h4 | ⟨h4, h5⟩
        · exact Or.inl h4
        · exact Or.inr ⟨h4, h5, hn.imp And.left And.left⟩
      · rcases hn with ⟨rfl, rfl⟩ | ⟨rfl, rfl⟩ <;> simp only [Visit.exposed] <;> exact ⟨trivial, by omega⟩

theorem look_facts (b : Bytes) (pos : Nat) :
    look b pos = some .stop ∨
    (∃ h e, look b pos = some (.skip h.len e) ∧ PacketAt b pos h ∧ (e = false → ∀ k : Kind, h.type ≠ k.type)) ∨
    (∃ h v, look b pos = some (.found v) ∧ PacketAt b pos h ∧ Found b pos h v) := by
  unfold look
  split_ifs with h4
  · exact Or.inl rfl
  · obtain ⟨h, hh⟩ := header?_some (b := b) (p := pos) (by omega)
    simp only [hh]
    split_ifs with hv hf t0 t1 t2 t3 t4
    · exact Or.inl rfl
    · exact Or.inl rfl
    · right
      have hp : PacketAt b pos h := ⟨hh, by omega, by omega⟩
      rcases lookReport_facts hp .sr 28 t0 (Or.inl ⟨rfl, rfl⟩) with e | ⟨v, e, hfnd⟩
      · exact Or.inl ⟨h, true, e, hp, by simp⟩
      · exact Or.inr ⟨h, v, e, hp, hfnd⟩
    · right
      have hp : PacketAt b pos h := ⟨hh, by omega, by omega⟩
      rcases lookReport_facts hp .rr 8 t1 (Or.inr ⟨rfl, rfl⟩) with e | ⟨v, e, hfnd⟩
      · exact Or.inl ⟨h, true, e, hp, by simp⟩
      · exact Or.inr ⟨h, v, e, hp, hfnd⟩
    · have hp : PacketAt b pos h := ⟨hh, by omega, by omega⟩
      have := hp.fits
      exact Or.inr (Or.inr ⟨h, _, rfl, hp, rfl, rfl, t2, Or.inl rfl, le_refl _, this, rfl, le_refl _⟩)
    · have hp : PacketAt b pos h := ⟨hh, by omega, by omega⟩
      have := hp.fits
      exact Or.inr (Or.inr ⟨h, _, rfl, hp, rfl, rfl, t3, Or.inl rfl, le_refl _, this, rfl, le_refl _⟩)
    · have hp : PacketAt b pos h := ⟨hh, by omega, by omega⟩
      have := hp.fits
      exact Or.inr (Or.inr ⟨h, _, rfl, hp, rfl, rfl, t4, Or.inl rfl, le_refl _, this, rfl, le_refl _⟩)
    · have hp : PacketAt b pos h := ⟨hh, by omega, by omega⟩
      refine Or.inr (Or.inl ⟨h, false, rfl, hp, ?_⟩)
      intro _ k
      cases k <;> assumption

/-- What one call of `next` may give. -/
theorem nextPacket_facts (b : Bytes) (pos : Nat) (err : Bool) (hpos : pos ≤ b.length) :
    (∃ e, nextPacket b pos err = some (none, e) ∧ (e = false → err = false ∧ Walk b pos b.length ∧
      ∀ p h, Walk b pos p → PacketAt b p h → ∀ k : Kind, h.type ≠ k.type)) ∨
    (∃ h v e, nextPacket b pos err = some (some v, e) ∧ Walk b pos v.pos ∧ PacketAt b v.pos h ∧ Found b v.pos h v ∧
      (e = false → err = false ∧ ∀ p h', Walk b pos p → PacketAt b p h' → (∃ k : Kind, h'.type = k.type) →
        p = v.pos ∨ Walk b (v.pos + v.len) p)) := by
  induction hm : b.length - pos using Nat.strong_induction_on generalizing pos err with
  | _ m ih =>
    rw [nextPacket]
    split_ifs with hp heq
    · left
      refine ⟨err, rfl, fun he => ⟨he, by rw [heq]; exact .refl _, ?_⟩⟩
      intro p h hw hpk
      have := hw.le
      have := hpk.fits
      have := hpk.len_pos
      omega
    · omega
    · rcases look_facts b pos with hl | ⟨h, e, hl, hpk, hk⟩ | ⟨h, v, hl, hpk, hf⟩
      · simp only [hl]
        exact Or.inl ⟨true, rfl, by simp⟩
      · have hlen := hpk.len_pos
        have hfit := hpk.fits
        simp only [hl]
        rw [dif_pos (by omega)]
        rcases ih (b.length - (pos + h.len)) (by omega) (pos + h.len) (err || e) hfit rfl with
          ⟨e', h1, h2⟩ | ⟨h', v, e', h1, h2, h3, h4, h5⟩
        · left
          refine ⟨e', h1, fun he => ?_⟩
          obtain ⟨g1, g2, g3⟩ := h2 he
          rw [Bool.or_eq_false_iff] at g1
          refine ⟨g1.1, .step hpk g2, ?_⟩
          intro p hd hw hpd
          rcases Walk.cases' hpk hw with rfl | hw
          · rw [← hpk.unique hpd]; exact hk g1.2
          · exact g3 p hd hw hpd
        · right
          refine ⟨h', v, e', h1, .step hpk h2, h3, h4, fun he => ?_⟩
          obtain ⟨g1, g3⟩ := h5 he
          rw [Bool.or_eq_false_iff] at g1
          refine ⟨g1.1, ?_⟩
          intro p hd hw hpd ⟨k, hkk⟩
          rcases Walk.cases' hpk hw with rfl | hw
          · rw [← hpk.unique hpd] at hkk
            exact absurd hkk (hk g1.2 k)
          · exact g3 p hd hw hpd ⟨k, hkk⟩
      · simp only [hl]
        right
        have hvp := hf.pos
        refine ⟨h, v, err, rfl, by rw [hvp]; exact .refl _, by rw [hvp]; exact hpk, by rw [hvp]; exact hf, fun he => ⟨he, ?_⟩⟩
        intro p hd hw hpd _
        rw [hvp, hf.len]
        exact Walk.cases' hpk hw

theorem Found.inside {b : Bytes} {h : Header} {v : Visit} (hf : Found b v.pos h v) : Slice.Inside (v.exposed b) 0 b.length := by
  obtain ⟨h1, h2⟩ := hf.exposed
  have := hf.sliceIn
  constructor <;> omega

/-- Iteration from any position. -/
theorem run_facts (b : Bytes) (n : Nat) (it : Iter) (hend : it.ended = false) (hpos : it.from ≤ b.length)
    (hn : b.length - it.from < n * 4) :
    ∃ vs e, it.run b n = some (vs, e) ∧
      (∀ v ∈ vs, ∃ h, PacketAt b v.pos h ∧ Walk b it.from v.pos ∧ Found b v.pos h v) ∧
      vs.Pairwise (fun x y => x.pos + x.len ≤ y.pos) ∧
      (e = false → it.err = false ∧ Walk b it.from b.length ∧
        ∀ p h, Walk b it.from p → PacketAt b p h → (∃ k : Kind, h.type = k.type) → ∃ v ∈ vs, v.pos = p) := by
  induction n generalizing it with
  | zero => omega
  | succ n ih =>
    unfold Iter.run Iter.next
    rw [if_neg (by rw [hend]; decide)]
    rcases nextPacket_facts b it.from it.err hpos with ⟨e, h1, h2⟩ | ⟨h, v, e, h1, h2, h3, h4, h5⟩
    · simp only [h1, if_true]
      refine ⟨[], e, rfl, by simp, .nil, fun he => ?_⟩
      obtain ⟨g1, g2, g3⟩ := h2 he
      refine ⟨g1, g2, ?_⟩
      intro p hd hw hp ⟨k, hk⟩
      exact absurd hk (g3 p hd hw hp k)
    · simp only [h1]
      have hle := h2.le
      have hlen := h3.len_pos
      have hfit := h3.fits
      have hvl := h4.len
      obtain ⟨vs, e', r1, r2, r3, r4⟩ := ih ⟨some v, false, e⟩ rfl (by simp only [Iter.from]; omega)
        (by simp only [Iter.from]; omega)
      simp only [r1, Bool.false_eq_true, if_false, Option.map_some]
      simp only [Iter.from] at r2 r4
      have hstep : Walk b v.pos (v.pos + v.len) := by rw [hvl]; exact .step h3 (.refl _)
      refine ⟨v :: vs, e', rfl, ?_, ?_, ?_⟩
      · intro w hw
        rcases List.mem_cons.1 hw with rfl | hw
        · exact ⟨h, h3, h2, h4⟩
        · obtain ⟨hd, q1, q2, q3⟩ := r2 w hw
          exact ⟨hd, q1, h2.trans (hstep.trans q2), q3⟩
      · refine List.pairwise_cons.2 ⟨?_, r3⟩
        intro w hw
        obtain ⟨hd, q1, q2, q3⟩ := r2 w hw
        exact q2.le
      · intro he
        obtain ⟨g1, g2, g3⟩ := r4 he
        obtain ⟨f1, f2⟩ := h5 g1
        refine ⟨f1, h2.trans (hstep.trans g2), ?_⟩
        intro p hd hw hp hk
        rcases f2 p hd hw hp hk with rfl | hw
        · exact ⟨v, List.mem_cons_self, rfl⟩
        · obtain ⟨w, hw1, hw2⟩ := g3 p hd hw hp hk
          exact ⟨w, List.mem_cons_of_mem _ hw1, hw2⟩

end Verif.RtcpParse
