import Verif.RtcpBuild.Run

/-! Effect of all calls that make a compound packet. -/

namespace Verif.RtcpBuild

open Verif.Bytes Verif.RtcpFields Verif.RtcpParse

variable {cap : Nat} {D want : Bytes} {ho : Option Nat}

theorem le_sum_of_mem (l : List Nat) (x : Nat) (h : x ∈ l) : x ≤ l.sum := by
  induction l with
  | nil => simp at h
  | cons a l ih =>
    rw [List.sum_cons]
    rcases List.mem_cons.1 h with rfl | h
    · omega
    · have := ih h; omega

/-- The packet may be added now. -/
structure Allowed (c : Config) (s : Bld) (p : Pkt) : Prop where
  ok : PktOk p
  size : p.size ≤ 65535
  report : p.isReport = true → c.enableSrRr = true
  order : p.isReport = false → orderBad c s = false
  sdes : p.isSdes = true → c.enableSdes = true
  xr : p.isXr = true → c.enableXr = true

theorem enc_zero (p : Pkt) : enc p 0 = hdr false p.count p.type (4 + (encBody p).length) ++ encBody p := by
  unfold enc
  show hdr false p.count p.type (4 + (encBody p).length + 0) ++ (encBody p ++ []) = _
  rw [List.append_nil, Nat.add_zero]

theorem orderBad_of (c : Config) {s s' : Bld} (h1 : s'.srWritten = s.srWritten) (h2 : s'.rrWritten = s.rrWritten) :
    orderBad c s' = orderBad c s := by
  unfold orderBad; rw [h1, h2]

theorem end_run {s : Bld} {p : Pkt} {l : Nat} (hp : PktOk p) (hs : p.size ≤ 65535)
    (h : Holds s cap D ho (hdr false p.count p.type l ++ encBody p)) :
    ∃ s', endPacket { s with st := St.top } = some s' ∧ s'.st = .top ∧ Holds s' cap (D ++ enc p 0) ho [] ∧ Flags s s' := by
  have h0 : Holds { s with st := St.top } cap D ho (hdr false p.count p.type l ++ encBody p) := h.setSt rfl rfl rfl rfl rfl
  have hl := encBody_length p hp
  have hm := size_mod p hp
  obtain ⟨s', e, e1, e2, e3⟩ := endPacket_holds h0 (by omega) (by omega)
  rw [enc_zero]
  exact ⟨s', e, e2, e1, e3.sr, e3.rr, e3.cname⟩

theorem pkt_run (c : Config) (s : Bld) (p : Pkt) (hst : s.st = .top) (h : Holds s cap D ho []) (ha : Allowed c s p) :
    ∃ s', run c s p.calls = some s' ∧ s'.st = .top ∧ Holds s' cap (D ++ enc p 0) (some D.length) [] ∧
      (s'.srWritten || s'.rrWritten) = (s.srWritten || s.rrWritten || p.isReport) ∧
      s'.cnameWritten = (s.cnameWritten || p.hasChunk) := by
  have hok := ha.ok
  have hsz := ha.size
  have hbl := encBody_length p hok
  cases p with
  | sr body rs =>
    obtain ⟨h1, h2, h3⟩ := hok
    have h0 : Holds { s with st := St.srHead, srWritten := true } cap D ho [] := h.setSt rfl rfl rfl rfl rfl
    obtain ⟨a1, a2, a3⟩ := beginPacket_holds h0 (resetHeader 200 ++ body)
    have hstep : step c s (.beginSr (resetHeader 200 ++ body)) =
        some (beginPacket { s with st := St.srHead, srWritten := true } (resetHeader 200 ++ body)) := by
      simp only [step]
      rw [if_neg (by rw [hst, ha.report rfl]; decide)]
    rw [resetHeader_eq 200 (by omega)] at a1 a2 a3 hstep
    simp only [Pkt.size] at hsz
    obtain ⟨s1, l', r1, r2, r3, r4⟩ := srReports_run c rs _ 0 4 body (Or.inl a2) a1 (by omega) h3 (by omega) (by omega)
    rw [Nat.zero_add] at r3
    obtain ⟨s', e1, e2, e3, e4⟩ := end_run (p := .sr body rs) (D := D) ha.ok ha.size r3
    have hend : step c s1 .endSr = some s' := by
      simp only [step]
      rw [if_neg (by rcases r2 with h | h <;> rw [h] <;> decide)]
      exact e1
    refine ⟨s', ?_, e2, e3, ?_, ?_⟩
    · show run c s (.beginSr (resetHeader 200 ++ body) :: (rs.map .srReport ++ [.endSr])) = _
      rw [resetHeader_eq 200 (by omega), run_step hstep, run_then r1, run_step hend, run_nil]
    · rw [e4.sr, r4.sr, a3.sr]; simp [Pkt.isReport]
    · rw [e4.cname, r4.cname, a3.cname]; simp [Pkt.hasChunk]
  | rr body rs =>
    obtain ⟨h1, h2, h3⟩ := hok
    have h0 : Holds { s with st := St.rrHead, rrWritten := true } cap D ho [] := h.setSt rfl rfl rfl rfl rfl
    obtain ⟨a1, a2, a3⟩ := beginPacket_holds h0 (resetHeader 201 ++ body)
    have hstep : step c s (.beginRr (resetHeader 201 ++ body)) =
        some (beginPacket { s with st := St.rrHead, rrWritten := true } (resetHeader 201 ++ body)) := by
      simp only [step]
      rw [if_neg (by rw [hst, ha.report rfl]; decide)]
    rw [resetHeader_eq 201 (by omega)] at a1 a2 a3 hstep
    simp only [Pkt.size] at hsz
    obtain ⟨s1, l', r1, r2, r3, r4⟩ := rrReports_run c rs _ 0 4 body (Or.inl a2) a1 (by omega) h3 (by omega) (by omega)
    rw [Nat.zero_add] at r3
    obtain ⟨s', e1, e2, e3, e4⟩ := end_run (p := .rr body rs) (D := D) ha.ok ha.size r3
    have hend : step c s1 .endRr = some s' := by
      simp only [step]
      rw [if_neg (by rcases r2 with h | h <;> rw [h] <;> decide)]
      exact e1
    refine ⟨s', ?_, e2, e3, ?_, ?_⟩
    · show run c s (.beginRr (resetHeader 201 ++ body) :: (rs.map .rrReport ++ [.endRr])) = _
      rw [resetHeader_eq 201 (by omega), run_step hstep, run_then r1, run_step hend, run_nil]
    · rw [e4.rr, r4.rr, a3.rr]; simp [Pkt.isReport]
    · rw [e4.cname, r4.cname, a3.cname]; simp [Pkt.hasChunk]
  | sdes cs =>
    obtain ⟨h1, h2⟩ := hok
    have h0 : Holds { s with st := St.sdesHead } cap D ho [] := h.setSt rfl rfl rfl rfl rfl
    obtain ⟨a1, a2, a3⟩ := beginPacket_holds h0 (resetHeader 202)
    have hstep : step c s .beginSdes = some (beginPacket { s with st := St.sdesHead } (resetHeader 202)) := by
      simp only [step]
      rw [if_neg (by rw [hst, ha.sdes rfl, ha.order rfl]; decide)]
    rw [resetHeader_eq 202 (by omega)] at a1 a2 a3 hstep
    rw [← List.append_nil (hdr false 0 202 4)] at a1
    obtain ⟨s1, r1, r2, r3, r4, r5, r6⟩ := chunks_run c cs _ 0 4 [] a2 a1 (by omega) rfl h2
    rw [Nat.zero_add, List.nil_append] at r3
    obtain ⟨s', e1, e2, e3, e4⟩ := end_run (p := .sdes cs) (D := D) ha.ok ha.size r3
    have hend : step c s1 .endSdes = some s' := by
      simp only [step]
      rw [if_neg (by rw [r2]; decide)]
      exact e1
    refine ⟨s', ?_, e2, e3, ?_, ?_⟩
    · show run c s (.beginSdes :: (cs.flatMap Chunk.calls ++ [.endSdes])) = _
      rw [run_step hstep, run_then r1, run_step hend, run_nil]
    · rw [e4.sr, r4, a3.sr, e4.rr, r5, a3.rr]; simp [Pkt.isReport]
    · rw [e4.cname, r6, a3.cname]; simp [Pkt.hasChunk]
  | bye ss r =>
    obtain ⟨h1, h2, h3, h4⟩ := hok
    have h0 : Holds { s with st := St.byeHead } cap D ho [] := h.setSt rfl rfl rfl rfl rfl
    obtain ⟨a1, a2, a3⟩ := beginPacket_holds h0 (resetHeader 203)
    have hstep : step c s .beginBye = some (beginPacket { s with st := St.byeHead } (resetHeader 203)) := by
      simp only [step]
      rw [if_neg (by rw [hst, ha.order rfl]; decide)]
    rw [resetHeader_eq 203 (by omega)] at a1 a2 a3 hstep
    rw [← List.append_nil (hdr false 0 203 4)] at a1
    obtain ⟨s1, r1, r2, r3, r4⟩ := ssrcs_run c ss _ 0 4 [] (Or.inr ⟨a2, by rintro rfl; simp at h1⟩) a1 (by omega)
    rw [Nat.zero_add, List.nil_append] at r3
    obtain ⟨s2, q1, q2, q3, q4⟩ := reason_run c r s1 r2 r3 h4
    rw [List.append_assoc] at q3
    obtain ⟨s', e1, e2, e3, e4⟩ := end_run (p := .bye ss r) (D := D) ha.ok ha.size q3
    have hend : step c s2 .endBye = some s' := by
      simp only [step]
      rw [if_neg (by rcases q2 with h | h <;> rw [h] <;> decide)]
      exact e1
    refine ⟨s', ?_, e2, e3, ?_, ?_⟩
    · show run c s (.beginBye :: (ss.map .byeSsrc ++ reasonCalls r ++ [.endBye])) = _
      rw [run_step hstep, List.append_assoc, run_then r1, run_then q1, run_step hend, run_nil]
    · rw [e4.sr, q4.sr, r4.sr, a3.sr, e4.rr, q4.rr, r4.rr, a3.rr]; simp [Pkt.isReport]
    · rw [e4.cname, q4.cname, r4.cname, a3.cname]; simp [Pkt.hasChunk]
  | xr body bs =>
    obtain ⟨h1, h2⟩ := hok
    have h0 : Holds { s with st := St.xrHead } cap D ho [] := h.setSt rfl rfl rfl rfl rfl
    obtain ⟨a1, a2, a3⟩ := beginPacket_holds h0 (resetHeader 207 ++ body)
    have hstep : step c s (.beginXr (resetHeader 207 ++ body)) =
        some (beginPacket { s with st := St.xrHead } (resetHeader 207 ++ body)) := by
      simp only [step]
      rw [if_neg (by rw [hst, ha.xr rfl, ha.order rfl]; decide)]
    rw [resetHeader_eq 207 (by omega)] at a1 a2 a3 hstep
    have hbs : ∀ b ∈ bs, b.size ≤ 65535 := by
      intro b hb
      have : b.size ≤ (bs.map XBlock.size).sum := le_sum_of_mem _ _ (List.mem_map_of_mem hb)
      simp only [Pkt.size] at hsz
      omega
    obtain ⟨s1, r1, r2, r3, r4⟩ := blocks_run c bs _ _ a2 a1 h2 hbs
    rw [List.append_assoc] at r3
    obtain ⟨s', e1, e2, e3, e4⟩ := end_run (p := .xr body bs) (D := D) ha.ok ha.size r3
    have hend : step c s1 .endXr = some s' := by
      simp only [step]
      rw [if_neg (by rw [r2]; decide)]
      exact e1
    refine ⟨s', ?_, e2, e3, ?_, ?_⟩
    · show run c s (.beginXr (resetHeader 207 ++ body) :: (bs.flatMap XBlock.calls ++ [.endXr])) = _
      rw [resetHeader_eq 207 (by omega), run_step hstep, run_then r1, run_step hend, run_nil]
    · rw [e4.sr, r4.sr, a3.sr, e4.rr, r4.rr, a3.rr]; simp [Pkt.isReport]
    · rw [e4.cname, r4.cname, a3.cname]; simp [Pkt.hasChunk]

/-- The packet is not forbidden by the configuration. -/
structure Permitted (c : Config) (p : Pkt) : Prop where
  ok : PktOk p
  size : p.size ≤ 65535
  report : p.isReport = true → c.enableSrRr = true
  sdes : p.isSdes = true → c.enableSdes = true
  xr : p.isXr = true → c.enableXr = true

/-- Adding packets, the first of them allowed; `q` is the last one. -/
theorem pkts_run (c : Config) (ps : List Pkt) : ∀ (q : Pkt) (s : Bld) (D : Bytes) (ho : Option Nat), s.st = .top → Holds s cap D ho [] →
    (∀ p ∈ ps ++ [q], Permitted c p) →
    (orderBad c s = false ∨ ((ps ++ [q]).head?.any Pkt.isReport) = true) →
    ∃ s', run c s ((ps ++ [q]).flatMap Pkt.calls) = some s' ∧ s'.st = .top ∧
      Holds s' cap (D ++ ps.flatMap (enc · 0) ++ enc q 0) (some (D ++ ps.flatMap (enc · 0)).length) [] ∧
      orderBad c s' = false ∧ s'.cnameWritten = (s.cnameWritten || (ps ++ [q]).any Pkt.hasChunk) := by
  have key : ∀ (p : Pkt) (s : Bld), Permitted c p → (orderBad c s = false ∨ p.isReport = true) → Allowed c s p := by
    intro p s hp ho
    refine ⟨hp.ok, hp.size, hp.report, ?_, hp.sdes, hp.xr⟩
    intro hr
    rcases ho with h | h
    · exact h
    · rw [hr] at h; exact absurd h (by decide)
  have key2 : ∀ (p : Pkt) (s s' : Bld), (orderBad c s = false ∨ p.isReport = true) →
      (s'.srWritten || s'.rrWritten) = (s.srWritten || s.rrWritten || p.isReport) → orderBad c s' = false := by
    intro p s s' h1 h2
    unfold orderBad at h1 ⊢
    rcases h1 with h1 | h1
    · revert h1 h2
      cases c.enableSrRr <;> cases s.srWritten <;> cases s.rrWritten <;> cases s'.srWritten <;> cases s'.rrWritten <;> simp
    · rw [h1] at h2
      revert h2
      cases c.enableSrRr <;> cases s.srWritten <;> cases s.rrWritten <;> cases s'.srWritten <;> cases s'.rrWritten <;> simp
  induction ps with
  | nil =>
    intro q s D ho hst h hp hord
    have hord' : orderBad c s = false ∨ q.isReport = true := by simpa using hord
    obtain ⟨s', r1, r2, r3, r4, r5⟩ := pkt_run c s q hst h (key q s (hp q (by simp)) hord')
    refine ⟨s', by simpa using r1, r2, by simpa using r3, key2 q s s' hord' r4, by simpa using r5⟩
  | cons p ps ih =>
    intro q s D ho hst h hp hord
    have hord' : orderBad c s = false ∨ p.isReport = true := by simpa using hord
    obtain ⟨s1, r1, r2, r3, r4, r5⟩ := pkt_run c s p hst h (key p s (hp p (by simp)) hord')
    obtain ⟨s', q1, q2, q3, q4, q5⟩ := ih q s1 _ _ r2 r3 (fun x hx => hp x (by simp at hx ⊢; tauto)) (Or.inl (key2 p s s1 hord' r4))
    refine ⟨s', ?_, q2, ?_, q4, ?_⟩
    · rw [List.cons_append, List.flatMap_cons, run_then r1, q1]
    · rw [List.flatMap_cons, ← List.append_assoc D]
      exact q3
    · rw [q5, r5, List.cons_append, List.any_cons, Bool.or_assoc]

theorem encAll_concat (ps : List Pkt) (q : Pkt) (pad : Nat) : encAll (ps ++ [q]) pad = ps.flatMap (enc · 0) ++ enc q pad := by
  induction ps with
  | nil => simp [encAll]
  | cons p ps ih =>
    have : ∃ a l, ps ++ [q] = a :: l := by cases ps <;> simp
    obtain ⟨a, l, e⟩ := this
    rw [List.cons_append, e, encAll, ← e, ih, List.flatMap_cons, List.append_assoc]

theorem count_lt (p : Pkt) (h : PktOk p) : p.count < 32 := by
  cases p with
  | sr body rs => have := h.2.1; simp only [Pkt.count]; omega
  | rr body rs => have := h.2.1; simp only [Pkt.count]; omega
  | sdes cs => have := h.1; simp only [Pkt.count]; omega
  | bye ss r => have := h.2.1; simp only [Pkt.count]; omega
  | xr body bs => simp only [Pkt.count]; omega

theorem padding_run (c : Config) (q : Pkt) (n : Nat) (s : Bld) (hst : s.st = .top) (hq : PktOk q) (h4 : n % 4 = 0) (h0 : n ≠ 0)
    (hn : n ≤ 255) (hsz : q.size + n ≤ 65535) (h : Holds s cap (D ++ enc q 0) (some D.length) []) :
    ∃ s', step c s (.padding n) = some s' ∧ s'.st = .last ∧ s'.truncated = decide (cap < (D ++ enc q n).length) ∧
      (s'.truncated = false → s'.done = D ++ enc q n) ∧ Flags s s' := by
  have hbl := encBody_length q hq
  have hm := size_mod q hq
  have hc := count_lt q hq
  simp only [step, addPadding]
  rw [if_neg (by rw [hst]; decide), if_neg (by omega)]
  have hl : (D ++ enc q n).length = D.length + q.size + n := by rw [List.length_append, enc_length]; omega
  have hl0 : (D ++ enc q 0).length = D.length + q.size := by rw [List.length_append, enc_length]; omega
  rcases h.cases with ⟨h1, h2, h3, hh, h5⟩ | ⟨h1, h2⟩
  · rw [if_neg (by rw [h1]; decide), hh]
    simp only
    have hdrop : s.done.drop D.length = hdr false q.count q.type (4 + (encBody q).length) ++ encBody q := by
      rw [h2, List.drop_left, enc_zero]
    have htake : s.done.take D.length = D := by rw [h2, List.take_left]
    rw [hdrop, htake, setPadding_hdr _ _ _ _ hc, lenBytes_hdr _ _ _ _ _ (by omega) (by omega) (by omega),
      setLen_hdr _ _ _ _ _ _ (by omega) (by omega) (by omega)]
    simp only
    have hd : (D ++ (hdr true q.count q.type (4 + (encBody q).length + n) ++ encBody q)).length = D.length + q.size := by
      rw [List.length_append, List.length_append, hdr_length]; omega
    rw [hl]
    rw [hl0, List.length_nil] at h5
    split_ifs with hlt
    · rw [hd, h.capEq] at hlt
      refine ⟨_, rfl, rfl, (decide_eq_true (by omega)).symm, ?_, rfl, rfl, rfl⟩
      intro hx; exact absurd hx (by simp)
    · rw [hd, h.capEq] at hlt
      refine ⟨_, rfl, rfl, ?_, ?_, rfl, rfl, rfl⟩
      · rw [decide_eq_false (by omega)]; exact h1
      · intro _
        unfold enc padBytes
        rw [if_neg h0]
        have : (n != 0) = true := by simpa using h0
        rw [this]
        simp only [List.append_assoc]
  · rw [if_pos h1]
    rw [hl0, List.length_nil] at h2
    refine ⟨_, rfl, rfl, ?_, ?_, rfl, rfl, rfl⟩
    · rw [hl, decide_eq_true (by omega)]; exact h1
    · intro hx; exact absurd (h1.symm.trans hx) (by decide)

/-- The result of building a legal compound packet. -/
theorem build_facts (cfg : Config) (cap : Nat) (c : Compound) (h : Legal cfg c) :
    ∃ s, build cfg cap c.calls = some s ∧ s.truncated = decide (cap < c.size) ∧
      (s.truncated = false → s.done = encAll c.pkts c.pad) := by
  obtain ⟨pkts, pad⟩ := c
  obtain ⟨ps, q, rfl⟩ : ∃ ps q, pkts = ps ++ [q] := by
    rcases List.eq_nil_or_concat pkts with h' | ⟨ps, q, h'⟩
    · exact absurd h' h.nonempty
    · exact ⟨ps, q, by simpa using h'⟩
  have hperm : ∀ p ∈ ps ++ [q], Permitted cfg p := by
    intro p hp
    refine ⟨h.pkts p hp, h.size p hp, ?_, ?_, ?_⟩
    · intro hr
      by_contra hne
      rw [h.noReports (by simpa using hne) p hp] at hr
      exact absurd hr (by decide)
    · intro hr
      by_contra hne
      rw [h.noSdes (by simpa using hne) p hp] at hr
      exact absurd hr (by decide)
    · intro hr
      by_contra hne
      rw [h.noXr (by simpa using hne) p hp] at hr
      exact absurd hr (by decide)
  have hord : orderBad cfg (init cap) = false ∨ ((ps ++ [q]).head?.any Pkt.isReport) = true := by
    cases hcf : cfg.enableSrRr with
    | false => left; unfold orderBad; rw [hcf]; rfl
    | true =>
      right
      obtain ⟨p, l, e, hr⟩ := h.reports hcf
      simp only at e
      rw [e]; simpa using hr
  have hinit : Holds (init cap) cap [] none [] := ⟨rfl, Or.inl ⟨rfl, rfl, rfl, rfl, by simp⟩⟩
  obtain ⟨s1, r1, r2, r3, r4, r5⟩ := pkts_run cfg ps q (init cap) [] none rfl hinit hperm hord
  rw [List.nil_append] at r3
  have hsize := encAll_length (ps ++ [q]) pad (by simp) h.pkts
  rw [encAll_concat] at hsize
  have hsz : (Compound.mk (ps ++ [q]) pad).size = (ps.flatMap (enc · 0) ++ enc q pad).length := hsize.symm
  have hqsz : 4 ≤ q.size := by
    have := encBody_length q (h.pkts q (by simp))
    omega
  have hcname : cfg.enableSdes = true → s1.cnameWritten = true := by
    intro hs
    obtain ⟨p, hp, hc⟩ := h.sdes hs
    rw [r5]
    have : (ps ++ [q]).any Pkt.hasChunk = true := List.any_eq_true.2 ⟨p, hp, hc⟩
    rw [this, Bool.or_true]
  have hclose : ∀ s : Bld, (s.st = .top ∨ s.st = .last) → (s.truncated = false → s.done = encAll (ps ++ [q]) pad) →
      Flags s1 s → close cfg s = some () := by
    intro s hs hd hf
    unfold close
    rw [if_neg (by rcases hs with h | h <;> rw [h] <;> decide)]
    rw [if_neg]
    · rw [orderBad_of cfg hf.sr hf.rr, r4, if_neg (by decide), if_neg]
      rintro ⟨h1, h2⟩
      rw [hf.cname, hcname h1] at h2
      exact absurd h2 (by decide)
    · rintro ⟨h1, h2⟩
      rw [hd (by simpa using h1), encAll_concat, ← hsz] at h2
      unfold Compound.size at h2
      simp only [List.map_append, List.sum_append, List.map_cons, List.map_nil, List.sum_cons, List.sum_nil] at h2
      omega
  unfold build Compound.calls
  rw [hsz]
  by_cases hp : pad = 0
  · subst hp
    rw [if_pos rfl, List.append_nil]
    simp only
    rw [r1]
    have ht : s1.truncated = decide (cap < (ps.flatMap (enc · 0) ++ enc q 0).length) := by
      rcases r3.cases with ⟨x1, _, _, _, x5⟩ | ⟨x1, x2⟩
      · rw [List.length_nil] at x5
        rw [x1, decide_eq_false (by omega)]
      · rw [List.length_nil] at x2
        rw [x1, decide_eq_true (by omega)]
    have hd : s1.truncated = false → s1.done = encAll (ps ++ [q]) 0 := by
      intro hx
      rcases r3.cases with ⟨_, x2, _⟩ | ⟨x1, _⟩
      · rw [encAll_concat]; exact x2
      · rw [x1] at hx; exact absurd hx (by decide)
    refine ⟨s1, ?_, ht, hd⟩
    show (close cfg s1).map (fun _ => s1) = some s1
    rw [hclose s1 (Or.inl r2) hd (Flags.refl _)]; rfl
  · rw [if_neg hp]
    simp only
    obtain ⟨s2, e1, e2, e3, e4, e5⟩ := padding_run cfg q pad s1 r2 (h.pkts q (by simp)) h.pad.1 hp h.pad.2
      (h.padSize q (by simp)) r3
    rw [run_then r1, run_step e1, run_nil]
    have hd : s2.truncated = false → s2.done = encAll (ps ++ [q]) pad := by
      intro hx; rw [encAll_concat]; exact e4 hx
    refine ⟨s2, ?_, e3, hd⟩
    show (close cfg s2).map (fun _ => s2) = some s2
    rw [hclose s2 (Or.inr e2) hd e5]; rfl

end Verif.RtcpBuild
