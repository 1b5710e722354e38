import Verif.RtcpGen.Loop

/-! Properties C28 and C29. -/

namespace Verif.RtcpGen

open Verif.Bytes Verif.RtcpFields Verif.RtcpParse Verif.RtcpBuild

/-! ## C28 -/

/-- Full statement: generation of reports always ends, and if it succeeds, every stream was reported once. -/
def ReportsCover : Prop :=
  ∀ (cfg : Config) (cap : Nat) (r : Rep) (s : St), RepOk r → 1 ≤ s.maxStreams → s.maxStreams ≤ 31 → Terminates cfg cap r .reports s ∧
    ∀ n s' l, generate cfg cap r .reports n s = some (.ok (s', l)) → Covered r l

/-- Full statement for goodbye. -/
def GoodbyeTerminates : Prop :=
  ∀ (cfg : Config) (cap : Nat) (r : Rep) (s : St), RepOk r → Terminates cfg cap r .goodbye s

/-- State at the beginning of generation. -/
theorem start_zero (r : Rep) (s : St) (h : r.numDest = 0) :
    continueGen r { s with destCount := 0, destIdx := 0, sendCount := 0, sendIdx := 0, recvCount := 0, recvIdx := 0 } =
      ({ s with destCount := 0, destIdx := 0, sendCount := 0, sendIdx := 0, recvCount := 0, recvIdx := 0 }, false) := by
  unfold continueGen
  rw [if_pos ⟨Nat.le_refl _, Nat.le_refl _⟩]
  simp only [if_true]
  rw [h, if_pos (Nat.le_refl _)]

theorem start_first (r : Rep) (s : St) (h : 0 < r.numDest) :
    continueGen r { s with destCount := 0, destIdx := 0, sendCount := 0, sendIdx := 0, recvCount := 0, recvIdx := 0 } =
      (atDest r s 0, true) := by
  unfold continueGen
  rw [if_pos ⟨Nat.le_refl _, Nat.le_refl _⟩]
  simp only [if_true]
  rw [if_neg (by omega)]; rfl

theorem mem_carried {cfg : Config} {r : Rep} {l : List (Nat × Bytes)} {gs : List Seg} (h : List.Forall₂ (Carries cfg r) l gs) (d : Nat) :
    (∃ b, (d, b) ∈ l) ↔ ∃ g ∈ gs, g.dest = d := by
  induction h with
  | nil => simp
  | @cons x g l gs hc _ ih =>
    constructor
    · rintro ⟨b, hb⟩
      rcases List.mem_cons.1 hb with e | hb
      · exact ⟨g, List.mem_cons_self, by rw [← hc.1, ← e]⟩
      · obtain ⟨g', h1, h2⟩ := ih.1 ⟨b, hb⟩
        exact ⟨g', List.mem_cons_of_mem _ h1, h2⟩
    · rintro ⟨g', h1, h2⟩
      rcases List.mem_cons.1 h1 with e | h1
      · refine ⟨x.2, ?_⟩
        have : d = x.1 := by rw [hc.1, ← e, h2]
        rw [this]
        exact List.mem_cons_self
      · obtain ⟨b, hb⟩ := ih.2 ⟨g', h1, h2⟩
        exact ⟨b, List.mem_cons_of_mem _ hb⟩

theorem covered_of {cfg : Config} {r : Rep} {l : List (Nat × Bytes)} {gs : List Seg} (h : List.Forall₂ (Carries cfg r) l gs)
    (hd : ∀ d, (∃ g ∈ gs, g.dest = d) ↔ d < r.numDest) (h1 : ∀ d, d < r.numDest → segRecv gs d = List.range (recvOf r d))
    (h2 : ∀ d, d < r.numDest → segSend gs d = List.range (sendOf r d)) : Covered r l := by
  constructor
  · intro d; rw [mem_carried h d, hd d]
  · intro d hn
    rw [content_of h receptionOf d (r.reception d) (fun g => List.range' g.recvIdx g.recv) (by
      intro g hg _ _; rw [seg_reception, hg])]
    rw [← h1 d hn]; rfl
  · intro d hn
    rw [content_of h dlrrOf d (r.dlrr d) (fun g => List.range' g.sendIdx g.send) (by
      intro g hg hx _; rw [seg_dlrr _ _ _ hx, hg])]
    rw [← h2 d hn]; rfl
  · intro d hn
    rw [content_of h (kindOf .measurement) d (r.measurement d) (fun g => List.range' g.recvIdx g.recv) (by
      intro g hg _ hy
      exact seg_kind _ _ _ _ _ hy (by decide) (by decide) (by intro i; rw [hg]; simp [recvBlocks]))]
    rw [← h1 d hn]; rfl
  · intro d hn
    rw [content_of h (kindOf .delay) d (r.delay d) (fun g => List.range' g.recvIdx g.recv) (by
      intro g hg _ hy
      exact seg_kind _ _ _ _ _ hy (by decide) (by decide) (by intro i; rw [hg]; simp [recvBlocks]))]
    rw [← h1 d hn]; rfl
  · intro d hn
    rw [content_of h (kindOf .queue) d (r.queue d) (fun g => List.range' g.recvIdx g.recv) (by
      intro g hg _ hy
      exact seg_kind _ _ _ _ _ hy (by decide) (by decide) (by intro i; rw [hg]; simp [recvBlocks]))]
    rw [← h1 d hn]; rfl

/-- With reports and extended reports enabled, when two streams fit into a packet, generation of reports ends, and a
peer that reads the packets sent to any destination sees all reception, DLRR, measurement, delay and queue blocks of
all streams once and in order; the next generation can be done again. What is missing: other configurations and packets
too small for two streams (see the theorems below). -/
theorem C28_reports_partial (cfg : Config) (cap : Nat) (r : Rep) (s : St) (hr : RepOk r) (h1 : cfg.enableSrRr = true)
    (h2 : cfg.enableXr = true) (hcap : 274 + r.cname.length ≤ cap) (hlo : 2 ≤ s.maxStreams) (hhi : s.maxStreams ≤ 31) :
    ∃ n s' l, generate cfg cap r .reports n s = some (.ok (s', l)) ∧ Covered r l ∧ 2 ≤ s'.maxStreams ∧ s'.maxStreams ≤ 31 := by
  unfold generate
  by_cases h0 : r.numDest = 0
  · refine ⟨1, { s with destCount := 0, destIdx := 0, sendCount := 0, sendIdx := 0, recvCount := 0, recvIdx := 0 }, [], ?_, ?_, hlo, hhi⟩
    · rw [loop, start_zero r s h0]; rfl
    · refine covered_of (cfg := cfg) (gs := []) List.Forall₂.nil ?_ ?_ ?_
      · intro d; simp [h0]
      · intro d hd; omega
      · intro d hd; omega
  · have hpos : 0 < r.numDest := by omega
    have hrd := atDest_ready (s := s) hlo hhi hpos
    obtain ⟨s1, b, g, e1, e2, e3, e4, e5, e6, e7, e8, e9, e10, e11⟩ := payload_ok hr h1 h2 hcap _ _ rfl hrd
    obtain ⟨n, s', l, gs, f1, f2, f3, f4⟩ := loop_packet (start_first r s hpos) e1 (carries_of hrd e2 e3 e4 e5 e8 e9 e10)
      (rest := fun gs => Rest r (atDest r s 0) gs ∧ ∃ x ∈ gs, x.dest = 0) (by
        obtain ⟨n, s'', l, gs, f1, f2, f3, f4⟩ := loop_ok hr h1 h2 hcap _ s1 e2 rfl
        exact ⟨n, s'', l, gs, f1, f2, ⟨rest_cons e2 e3 e5 e6 e7 e8 e9 f3, ⟨g, List.mem_cons_self, e5⟩⟩, f4⟩)
    obtain ⟨f3, f5⟩ := f3
    refine ⟨n, s', l, f1, covered_of f2 ?_ ?_ ?_, f4.1, f4.2⟩
    · intro d
      by_cases hd : d = 0
      · subst hd; exact ⟨fun _ => hpos, fun _ => f5⟩
      · exact f3.dests d (by show 0 < d; omega)
    · intro d hd
      by_cases hz : d = 0
      · subst hz
        rw [List.range_eq_range']; exact f3.hereRecv
      · exact f3.laterRecv d (by show 0 < d; omega) hd
    · intro d hd
      by_cases hz : d = 0
      · subst hz
        rw [List.range_eq_range']; exact f3.hereSend
      · exact f3.laterSend d (by show 0 < d; omega) hd

/-- A loop that makes no progress does not end. -/
theorem loop_stuck {cfg : Config} {cap : Nat} {r : Rep} {type : PacketType} {s : St} {b : Bytes} (h1 : continueGen r s = (s, true))
    (h2 : payload cfg cap r type s = .ok (s, b)) (n : Nat) : loop cfg cap r type n s = none := by
  induction n with
  | zero => rfl
  | succ n ih =>
    rw [loop, h1]
    simp only [if_true]
    rw [h2]
    simp only
    rw [ih]

theorem generate_stuck {cfg : Config} {cap : Nat} {r : Rep} {type : PacketType} {s : St} {b : Bytes} (h0 : 0 < r.numDest)
    (hst : 0 < sendOf r 0 ∨ 0 < recvOf r 0)
    (h2 : payload cfg cap r type (atDest r s 0) = .ok (atDest r s 0, b)) (n : Nat) : generate cfg cap r type n s = none := by
  unfold generate
  cases n with
  | zero => rfl
  | succ n =>
    rw [loop, start_first r s h0]
    simp only [if_true]
    rw [h2]
    simp only
    rw [loop_stuck (continue_more hst) h2 n]

/-- Goodbye packet. -/
def byeCompound (cfg : Config) (r : Rep) : Compound :=
  ⟨(if cfg.enableSrRr then [.rr r.rr []] else []) ++ sdesPkts cfg r ++ [.bye [r.ssrc] none], 0⟩

theorem bye_calls (cfg : Config) (r : Rep) (s : St) : payloadCalls cfg r s .goodbye = (s, (byeCompound cfg r).calls) := by
  unfold payloadCalls byeCompound Compound.calls sdesPkts
  cases cfg.enableSrRr <;> cases cfg.enableSdes <;> rfl

theorem bye_legal (cfg : Config) {r : Rep} (hr : RepOk r) : Legal cfg (byeCompound cfg r) ∧ (byeCompound cfg r).size ≤ 30 + r.cname.length := by
  have hl := hr.cname.2.1
  have hb : PktOk (.bye [r.ssrc] none) := ⟨by simp, by simp, by simpa using hr.ssrc, by simp⟩
  have ha : ∀ p ∈ (byeCompound cfg r).pkts, PktOk p ∧ p.size ≤ 65535 ∧ p.isXr = false := by
    intro p hp
    unfold byeCompound at hp
    rcases List.mem_append.1 hp with hp | hp
    · rcases List.mem_append.1 hp with hp | hp
      · split_ifs at hp
        · simp only [List.mem_singleton] at hp
          subst hp
          exact ⟨⟨hr.rr, by simp, by simp⟩, by simp [Pkt.size], rfl⟩
        · simp at hp
      · have := sdes_ok hr cfg p hp
        refine ⟨this.1, by omega, ?_⟩
        have h4 := this.2.2.2
        revert h4
        cases p <;> simp [Pkt.hasChunk, Pkt.isXr]
    · simp only [List.mem_singleton] at hp
      subst hp
      exact ⟨hb, by simp [Pkt.size, reasonSize], rfl⟩
  refine ⟨⟨by simp [byeCompound], fun p hp => (ha p hp).1, fun p hp => (ha p hp).2.1, ?_, ?_, ?_, ?_, ?_, ⟨rfl, Nat.zero_le _⟩, ?_⟩, ?_⟩
  · intro h
    refine ⟨.rr r.rr [], sdesPkts cfg r ++ [.bye [r.ssrc] none], ?_, rfl⟩
    simp [byeCompound, h]
  · intro h p hp
    unfold byeCompound at hp
    rw [h] at hp
    simp only [Bool.false_eq_true, if_false, List.nil_append] at hp
    rcases List.mem_append.1 hp with hp | hp
    · exact (sdes_ok hr cfg p hp).2.2.1
    · simp only [List.mem_singleton] at hp
      subst hp; rfl
  · intro h
    refine ⟨.sdes [⟨r.ssrc, [(1, r.cname)]⟩], ?_, rfl⟩
    simp [byeCompound, sdesPkts, h]
  · intro h p hp
    unfold byeCompound sdesPkts at hp
    rw [h] at hp
    simp only [Bool.false_eq_true, if_false, List.append_nil] at hp
    rcases List.mem_append.1 hp with hp | hp
    · split_ifs at hp
      · simp only [List.mem_singleton] at hp
        subst hp; rfl
      · simp at hp
    · simp only [List.mem_singleton] at hp
      subst hp; rfl
  · intro _ p hp; exact (ha p hp).2.2
  · intro p hp
    have := (ha p (List.mem_of_getLast? hp)).2.1
    show p.size + 0 ≤ 65535
    omega
  · unfold byeCompound Compound.size
    simp only [List.map_append, List.sum_append]
    have e2 := opt_size (sdesPkts cfg r) Pkt.size _ (by unfold sdesPkts; split_ifs <;> simp) (fun p hp => (sdes_ok hr cfg p hp).2.1)
    have e1 : ((if cfg.enableSrRr = true then [Pkt.rr r.rr []] else []).map Pkt.size).sum ≤ 8 := by
      split_ifs <;> simp [Pkt.size]
    have e3 : ([Pkt.bye [r.ssrc] none].map Pkt.size).sum = 8 := by simp [Pkt.size, reasonSize]
    omega

theorem bye_payload {cfg : Config} {cap : Nat} {r : Rep} (hr : RepOk r) (hcap : 30 + r.cname.length ≤ cap) (s : St) :
    ∃ b, payload cfg cap r .goodbye s = .ok ({ s with curSend := 0, curRecv := 0 }, b) ∧ readAll b = some (byeCompound cfg r).pkts := by
  obtain ⟨hl, hs⟩ := bye_legal cfg hr
  obtain ⟨b, hb, hok, hread, _, _⟩ := C26_round_trip_partial cfg cap _ hl (by omega) (Or.inl rfl)
  refine ⟨b.done, ?_, hread⟩
  rw [payload]
  simp only [bye_calls]
  rw [hb]
  simp only
  rw [if_pos hok]
  rfl

/-- Destinations without streams. -/
theorem bye_loop {cfg : Config} {cap : Nat} {r : Rep} (hr : RepOk r) (hcap : 30 + r.cname.length ≤ cap)
    (hst : ∀ d, d < r.numDest → sendOf r d = 0 ∧ recvOf r d = 0) (k : Nat) : ∀ (m d : Nat), d + k = r.numDest → 0 < d →
    ∃ s' l, loop cfg cap r .goodbye (k + 1) ⟨r.numDest, d - 1, 0, 0, 0, 0, m, 0, 0⟩ = some (.ok (s', l)) ∧
      l.map Prod.fst = List.range' d k ∧ ∀ x ∈ l, readAll x.2 = some (byeCompound cfg r).pkts := by
  induction k with
  | zero =>
    intro m d hk hd
    refine ⟨⟨r.numDest, d - 1 + 1, 0, 0, 0, 0, m, 0, 0⟩, [], ?_, rfl, by simp⟩
    have : continueGen r ⟨r.numDest, d - 1, 0, 0, 0, 0, m, 0, 0⟩ = (⟨r.numDest, d - 1 + 1, 0, 0, 0, 0, m, 0, 0⟩, false) := by
      unfold continueGen
      rw [if_pos ⟨Nat.le_refl _, Nat.le_refl _⟩]
      simp only
      rw [if_neg (c := r.numDest = 0) (by omega)]
      rw [if_pos (by simp only; omega)]
    rw [loop, this]; rfl
  | succ k ih =>
    intro m d hk hd
    have hz := hst d (by omega)
    have : continueGen r ⟨r.numDest, d - 1, 0, 0, 0, 0, m, 0, 0⟩ = (⟨r.numDest, d, 0, 0, 0, 0, m, 0, 0⟩, true) := by
      unfold continueGen
      rw [if_pos ⟨Nat.le_refl _, Nat.le_refl _⟩]
      simp only
      rw [if_neg (c := r.numDest = 0) (by omega)]
      rw [if_neg (by simp only; omega)]
      have e1 : countIf r.isSending (r.numSend (d - 1 + 1)) = 0 := by rw [Nat.sub_add_cancel hd]; exact hz.1
      have e2 : countIf r.isReceiving (r.numRecv (d - 1 + 1)) = 0 := by rw [Nat.sub_add_cancel hd]; exact hz.2
      rw [e1, e2, Nat.sub_add_cancel hd]
    obtain ⟨b, hb1, hb2⟩ := bye_payload (cfg := cfg) hr hcap ⟨r.numDest, d, 0, 0, 0, 0, m, 0, 0⟩
    obtain ⟨s', l, i1, i2, i3⟩ := ih m (d + 1) (by omega) (by omega)
    refine ⟨s', (d, b) :: l, ?_, ?_, ?_⟩
    · rw [loop, this]
      simp only [if_true]
      rw [hb1]
      simp only
      rw [Nat.add_sub_cancel] at i1
      rw [i1]
    · rw [List.map_cons, i2, List.range'_succ]
    · intro x hx
      rcases List.mem_cons.1 hx with rfl | hx
      · exact hb2
      · exact i3 x hx

/-- When there are no streams, goodbye ends, and every destination gets one packet that says goodbye. What is missing:
states with streams (see `C28_goodbye_fails`). -/
theorem C28_goodbye_partial (cfg : Config) (cap : Nat) (r : Rep) (s : St) (hr : RepOk r) (hcap : 30 + r.cname.length ≤ cap)
    (hst : ∀ d, d < r.numDest → sendOf r d = 0 ∧ recvOf r d = 0) :
    ∃ n s' l, generate cfg cap r .goodbye n s = some (.ok (s', l)) ∧ l.map Prod.fst = List.range r.numDest ∧
      ∀ x ∈ l, ∃ ps, readAll x.2 = some ps ∧ .bye [r.ssrc] none ∈ ps := by
  unfold generate
  by_cases h0 : r.numDest = 0
  · refine ⟨1, { s with destCount := 0, destIdx := 0, sendCount := 0, sendIdx := 0, recvCount := 0, recvIdx := 0 }, [], ?_, by rw [h0]; rfl, by simp⟩
    rw [loop, start_zero r s h0]; rfl
  · have hpos : 0 < r.numDest := by omega
    have hz := hst 0 hpos
    obtain ⟨b, hb1, hb2⟩ := bye_payload (cfg := cfg) hr hcap (atDest r s 0)
    obtain ⟨s', l, i1, i2, i3⟩ := bye_loop (cfg := cfg) hr hcap hst (r.numDest - 1) s.maxStreams 1 (by omega) Nat.one_pos
    refine ⟨r.numDest - 1 + 1 + 1, s', (0, b) :: l, ?_, ?_, ?_⟩
    · rw [loop, start_first r s hpos]
      simp only [if_true]
      rw [hb1]
      have e : ({ atDest r s 0 with curSend := 0, curRecv := 0 } : St) = ⟨r.numDest, 1 - 1, 0, 0, 0, 0, s.maxStreams, 0, 0⟩ := by
        unfold atDest
        simp only [hz.1, hz.2]
      simp only
      rw [e, i1]
      rfl
    · rw [List.map_cons, i2, List.range_eq_range']
      obtain ⟨k, hk⟩ : ∃ k, r.numDest = k + 1 := ⟨r.numDest - 1, by omega⟩
      rw [hk, List.range'_succ]; rfl
    · intro x hx
      have : readAll x.2 = some (byeCompound cfg r).pkts := by
        rcases List.mem_cons.1 hx with rfl | hx
        · exact hb2
        · exact i3 x hx
      exact ⟨_, this, by simp [byeCompound]⟩

/-- A reporter with two destinations; for destination 0 it has 40 receiving and 50 sending streams. -/
def sampleRep : Rep where
  numDest := 2
  isSending := true
  isReceiving := true
  numSend := fun d => if d = 0 then 50 else 1
  numRecv := fun d => if d = 0 then 40 else 0
  needGoodbye := false
  ssrc := 7
  cname := [65, 66]
  sr := List.replicate 24 0
  rr := List.replicate 4 0
  xr := List.replicate 4 0
  rrtr := List.replicate 8 0
  reception := fun d i => [BitVec.ofNat 8 d, BitVec.ofNat 8 i] ++ List.replicate 22 0
  dlrr := fun d i => [BitVec.ofNat 8 d, BitVec.ofNat 8 i] ++ List.replicate 10 0
  measurement := fun d i => (0, [BitVec.ofNat 8 d, BitVec.ofNat 8 i] ++ List.replicate 26 0)
  delay := fun d i => (0, [BitVec.ofNat 8 d, BitVec.ofNat 8 i] ++ List.replicate 22 0)
  queue := fun d i => (0, [BitVec.ofNat 8 d, BitVec.ofNat 8 i] ++ List.replicate 10 0)

theorem sampleRep_ok : RepOk sampleRep := by
  refine ⟨by decide, ⟨by simp [sampleRep], by simp [TextOk, sampleRep]⟩, rfl, rfl, rfl, rfl, ?_, ?_, ?_, ?_, ?_⟩ <;>
    intro d i <;> simp [sampleRep]

/-- Hypotheses of `C28_reports_partial` are met: 90 streams, packets of 1000 bytes, state after construction. -/
example : RepOk sampleRep ∧ 274 + sampleRep.cname.length ≤ 1000 ∧ 2 ≤ initSt.maxStreams ∧ initSt.maxStreams ≤ 31 ∧
    recvOf sampleRep 0 = 40 ∧ sendOf sampleRep 0 = 50 := ⟨sampleRep_ok, by decide, by decide, by decide, by decide, by decide⟩

/-- Hypotheses of `C28_goodbye_partial` are met: two destinations, no streams. -/
example : RepOk { sampleRep with isSending := false, isReceiving := false } ∧
    ∀ d, sendOf { sampleRep with isSending := false, isReceiving := false } d = 0 := by
  refine ⟨?_, fun d => rfl⟩
  have h := sampleRep_ok
  exact ⟨h.ssrc, h.cname, h.sr, h.rr, h.xr, h.rrtr, h.reception, h.dlrr, h.measurement, h.delay, h.queue⟩

/-- Goodbye never ends if the first destination has a stream, however large the packet: the loop writes packets to the
first destination forever. -/
theorem C28_goodbye_fails (cfg : Config) (cap : Nat) (r : Rep) (s : St) (hr : RepOk r) (hcap : 30 + r.cname.length ≤ cap)
    (h0 : 0 < r.numDest) (hst : 0 < sendOf r 0 ∨ 0 < recvOf r 0) : ¬ Terminates cfg cap r .goodbye s := by
  rintro ⟨n, hn⟩
  obtain ⟨b, hb, _⟩ := bye_payload (cfg := cfg) hr hcap (atDest r s 0)
  exact hn (generate_stuck h0 hst hb n)

/-- The full statement for goodbye is false. -/
theorem C28_goodbye_general_fails : ¬ GoodbyeTerminates := fun h =>
  C28_goodbye_fails ⟨true, true, true⟩ 1000 sampleRep initSt sampleRep_ok (by decide) (by decide) (by decide) (h _ _ _ _ sampleRep_ok)

/-- A packet without streams. -/
theorem calls_plain {cfg : Config} {r : Rep} {s : St} {p : St × List Call} (hp : payloadCalls cfg r { s with curSend := 0, curRecv := 0 } .reports = p)
    (h : p.1 = { s with curSend := 0, curRecv := 0 }) {cap : Nat} {c : Compound} (hc : p.2 = c.calls) (hl : Legal cfg c) (h0 : c.pad = 0)
    (hfit : c.size ≤ cap) : ∃ b, payload cfg cap r .reports s = .ok ({ s with curSend := 0, curRecv := 0 }, b) := by
  obtain ⟨b, hb, hok, _, _, _⟩ := C26_round_trip_partial cfg cap _ hl hfit (Or.inl h0)
  refine ⟨b.done, ?_⟩
  rw [payload]
  simp only
  rw [hp, hc, hb, h]
  simp only
  rw [if_pos hok]
  rfl

/-- When extended reports are disabled, generation of reports never ends if the local peer sends only and the first
destination has a stream: sending streams are only counted when their DLRR block is written. -/
theorem C28_no_xr_fails (cfg : Config) (cap : Nat) (r : Rep) (s : St) (hr : RepOk r) (h1 : cfg.enableSrRr = true)
    (h2 : cfg.enableXr = false) (hcap : 50 + r.cname.length ≤ cap) (h0 : 0 < r.numDest) (hrecv : r.isReceiving = false)
    (hst : 0 < sendOf r 0) : ¬ Terminates cfg cap r .reports s := by
  rintro ⟨n, hn⟩
  refine hn ?_
  have hsend : r.isSending = true := by
    unfold sendOf at hst
    cases h : r.isSending with
    | true => rfl
    | false => rw [h] at hst; simp at hst
  have hxr : ∀ g : Seg, g.hasDlrr = false → xrPkts r g = [] := by
    intro g hg; unfold xrPkts; rw [hg, hrecv]; rfl
  have hx0 : xrPkts r ⟨0, 0, 0, 0, 0, false⟩ = [] := hxr _ rfl
  have hleg := seg_legal (cfg := { cfg with enableXr := true }) hr ⟨0, 0, 0, 0, 0, false⟩ h1 rfl (by decide) (by decide)
  have hsp : segPkts { cfg with enableXr := true } r ⟨0, 0, 0, 0, 0, false⟩ = segPkts cfg r ⟨0, 0, 0, 0, 0, false⟩ := rfl
  rw [hsp] at hleg
  have hleg' : Legal cfg ⟨segPkts cfg r ⟨0, 0, 0, 0, 0, false⟩, 0⟩ := by
    refine ⟨hleg.nonempty, hleg.pkts, hleg.size, hleg.reports, hleg.noReports, hleg.sdes, hleg.noSdes, ?_, hleg.pad, hleg.padSize⟩
    intro _ p hp
    simp only [segPkts, hx0, List.nil_append] at hp
    rcases List.mem_cons.1 hp with rfl | hp
    · unfold reportPkt; split_ifs <;> rfl
    · rcases List.mem_append.1 hp with hp | hp
      · have := (sdes_ok hr cfg p hp).2.2.2
        revert this
        cases p <;> simp [Pkt.hasChunk, Pkt.isXr]
      · unfold byePkts at hp
        split_ifs at hp
        · simp only [List.mem_singleton] at hp
          subst hp; rfl
        · simp at hp
  have hsz : (Compound.mk (segPkts cfg r ⟨0, 0, 0, 0, 0, false⟩) 0).size ≤ 50 + r.cname.length := by
    unfold Compound.size segPkts
    rw [hx0]
    simp only [List.map_cons, List.sum_cons, List.map_append, List.sum_append, List.nil_append]
    have e0 := (report_ok hr ⟨0, 0, 0, 0, 0, false⟩ (by decide)).2.1
    have e2 := opt_size (sdesPkts cfg r) Pkt.size _ (by unfold sdesPkts; split_ifs <;> simp) (fun p hp => (sdes_ok hr cfg p hp).2.1)
    have e3 := opt_size (byePkts r) Pkt.size _ (by unfold byePkts; split_ifs <;> simp) (fun p hp => (bye_ok hr p hp).2.1)
    simp only at e0
    omega
  obtain ⟨b, hb⟩ := calls_plain (cfg := cfg) (r := r) (s := atDest r s 0) (cap := cap) rfl (by
      unfold payloadCalls partIf standard recvIf
      rw [h1, h2, hrecv, hsend]; rfl) (c := ⟨segPkts cfg r ⟨0, 0, 0, 0, 0, false⟩, 0⟩) (by
      unfold payloadCalls partIf standard recvIf Compound.calls segPkts reportPkt
      rw [h1, h2, hrecv, hsend, hx0]
      unfold sdesPkts byePkts
      cases cfg.enableSdes <;> cases r.needGoodbye <;> rfl) hleg' rfl (by omega)
  exact generate_stuck h0 (Or.inl hst) hb n

/-- With a limit of one stream per packet, no stream is ever put into a packet. -/
theorem max_one_stuck {cfg : Config} {cap : Nat} {r : Rep} {s : St} (hr : RepOk r) (h1 : cfg.enableSrRr = true)
    (h2 : cfg.enableXr = true) (hcap : 74 + r.cname.length ≤ cap) (h0 : 0 < r.numDest) (hst : 0 < sendOf r 0 ∨ 0 < recvOf r 0)
    (hm : s.maxStreams = 1) (n : Nat) : generate cfg cap r .reports n s = none := by
  have hR0 : ∀ (k i : Nat) (t : St), t.maxStreams = 1 → streams nextRecv k i t = (t, []) := by
    intro k i t ht
    cases k with
    | zero => rfl
    | succ k => rw [streams, nextRecv_eq, if_pos (by omega)]
  have hS0 : ∀ (k i : Nat) (t : St), t.maxStreams = 1 → streams nextSend k i t = (t, []) := by
    intro k i t ht
    cases k with
    | zero => rfl
    | succ k => rw [streams, nextSend_eq, if_pos (by omega)]
  obtain ⟨t, ht⟩ : ∃ t : St, t = { atDest r s 0 with curSend := 0, curRecv := 0 } := ⟨_, rfl⟩
  have htm : t.maxStreams = 1 := by rw [ht]; exact hm
  obtain ⟨g, hg⟩ : ∃ g : Seg, g = ⟨0, 0, 0, 0, 0, hasDlrr r t⟩ := ⟨_, rfl⟩
  have hleg := seg_legal (cfg := cfg) hr g h1 h2 (by rw [hg]; exact Nat.zero_le _) (by rw [hg]; exact Nat.zero_le _)
  have hsz := seg_size (cfg := cfg) hr g (by rw [hg]; exact Nat.zero_le _)
  have hsz' : (Compound.mk (segPkts cfg r g) 0).size ≤ 74 + r.cname.length := by rw [hg] at hsz ⊢; exact hsz
  have c1 : recvIf r t = (t, []) := by
    unfold recvIf recvStreams; rw [hR0 _ _ _ htm]; split_ifs <;> rfl
  have c2 : standard r t = (t, (reportPkt r g).calls) := by
    unfold standard reportPkt
    rw [c1, hg]
    split_ifs <;> rfl
  have c3 : dlrrPart r t = (t, (dlrrBlock r g).flatMap XBlock.calls) := by
    unfold dlrrPart dlrrBlock sendStreams
    rw [hS0 _ _ _ htm, hg]
    simp only
    cases hasDlrr r t <;> rfl
  have c4 : recvPart r t = (t, (rrtrBlocks r g).flatMap XBlock.calls) := by
    unfold recvPart rrtrBlocks recvStreams
    rw [hR0 _ _ _ htm, hg]
    split_ifs
    · simp [XBlock.calls, xrHead, xrType, xrBytes]
    · rfl
  have c5 : extended r t = (t, (xrPkts r g).flatMap Pkt.calls) := by
    unfold extended xrPkts
    have hgd : g.hasDlrr = hasDlrr r t := by rw [hg]
    rw [hgd, c3]
    simp only
    rw [c4]
    by_cases hc : (hasDlrr r t || r.isReceiving) = true
    · rw [if_pos hc, if_pos hc]
      simp [Pkt.calls]
    · rw [if_neg hc, if_neg hc]; rfl
  have hp : payloadCalls cfg r t .reports = (t, (Compound.mk (segPkts cfg r g) 0).calls) := by
    unfold payloadCalls partIf
    simp only
    rw [h1, h2]
    simp only [if_true]
    rw [c2]
    simp only
    rw [c5]
    simp only [Prod.mk.injEq, true_and]
    unfold Compound.calls segPkts
    simp only [if_true, List.append_nil, List.flatMap_cons, List.flatMap_append, ← List.append_assoc]
    congr 1
    · congr 1
      unfold sdesPkts
      cases cfg.enableSdes <;> rfl
    · unfold byePkts
      cases r.needGoodbye <;> rfl
  rw [ht] at hp
  obtain ⟨b, hb⟩ := calls_plain (cap := cap) hp rfl rfl hleg rfl (by omega)
  exact generate_stuck h0 hst hb n

/-- When a report about one stream does not fit into a packet but a report about none does, the first generation fails
with `StatusNoSpace`, and no later generation ever ends. -/
theorem C28_small_buffer_fails (cfg : Config) (cap : Nat) (r : Rep) (hr : RepOk r) (h1 : cfg.enableSrRr = true)
    (h2 : cfg.enableXr = true) (hcap : 74 + r.cname.length ≤ cap) (hsmall : cap < 128) (h0 : 0 < r.numDest)
    (hsend : sendOf r 0 = 0) (hrecv : recvOf r 0 = 1) :
    ∃ s', generate cfg cap r .reports 1 initSt = some (.noSpace s') ∧ ¬ Terminates cfg cap r .reports s' := by
  have hrd := atDest_ready (r := r) (s := initSt) (by decide) (by decide) h0
  have hcalls := calls_reports cfg r _ h1 h2 hrd
  have hnr : nRecv (atDest r initSt 0) = 1 := by
    unfold nRecv
    show min (recvOf r 0 - 0) (31 - 1) = 1
    rw [hrecv]; rfl
  have hns : nSend (atDest r initSt 0) = 0 := by
    unfold nSend
    show min (sendOf r 0 - 0) _ = 0
    rw [hsend]; rfl
  have hrc : r.isReceiving = true := by
    unfold recvOf at hrecv
    cases h : r.isReceiving with
    | true => rfl
    | false => rw [h] at hrecv; simp at hrecv
  obtain ⟨g, hg⟩ : ∃ g : Seg, g = seg (atDest r initSt 0) := ⟨_, rfl⟩
  have hgr : g.recv = 1 := by rw [hg]; exact hnr
  have hgi : g.recvIdx = 0 := by rw [hg]; rfl
  have hgs : g.send = 0 := by rw [hg]; exact hns
  rw [← hg] at hcalls
  have hleg := seg_legal (cfg := cfg) hr g h1 h2 (by omega) (by omega)
  have hbig : 128 ≤ (Compound.mk (segPkts cfg r g) 0).size := by
    unfold Compound.size segPkts xrPkts
    rw [hrc, Bool.or_true, if_pos rfl]
    simp only [List.map_cons, List.sum_cons, List.map_append, List.sum_append, List.map_nil, List.sum_nil]
    have e0 : (Pkt.xr r.xr (dlrrBlock r g ++ rrtrBlocks r g)).size =
        8 + (((dlrrBlock r g).map XBlock.size).sum + ((rrtrBlocks r g).map XBlock.size).sum) := by
      simp [Pkt.size]
    have e1 : 32 ≤ (reportPkt r g).size := by
      unfold reportPkt; split_ifs <;> simp [Pkt.size, hgr]
    have e2 : ((rrtrBlocks r g).map XBlock.size).sum = 88 := by
      unfold rrtrBlocks
      rw [hrc, if_pos rfl, hgr, hgi]
      simp [recvBlocks, XBlock.size, hr.rrtr, hr.measurement, hr.delay, hr.queue]
    rw [e0, e2]; omega
  obtain ⟨b, hb, hok⟩ := C26_too_long cfg cap _ hleg (by omega)
  refine ⟨{ atDest r initSt 0 with curSend := 0, curRecv := 1, maxStreams := 1 }, ?_, ?_⟩
  · unfold generate
    rw [loop, start_first r initSt h0]
    simp only [if_true]
    rw [payload]
    simp only
    rw [hcalls]
    simp only
    rw [hb]
    simp only
    rw [if_neg (by rw [hok]; decide), hnr, hns, if_pos (by decide)]
  · rintro ⟨n, hn⟩
    exact hn (max_one_stuck hr h1 h2 hcap h0 (Or.inr (by omega)) rfl n)

/-- One receiving stream. -/
def oneStream : Rep := { sampleRep with isSending := false, numRecv := fun _ => 1 }

theorem oneStream_ok : RepOk oneStream := by
  have h := sampleRep_ok
  exact ⟨h.ssrc, h.cname, h.sr, h.rr, h.xr, h.rrtr, h.reception, h.dlrr, h.measurement, h.delay, h.queue⟩

/-- Hypotheses of `C28_small_buffer_fails` are met with packets of 100 bytes. -/
example : RepOk oneStream ∧ 74 + oneStream.cname.length ≤ 100 ∧ sendOf oneStream 0 = 0 ∧ recvOf oneStream 0 = 1 :=
  ⟨oneStream_ok, by decide, by decide, by decide⟩

/-- A sender. -/
def senderOnly : Rep := { sampleRep with isReceiving := false }

theorem senderOnly_ok : RepOk senderOnly := by
  have h := sampleRep_ok
  exact ⟨h.ssrc, h.cname, h.sr, h.rr, h.xr, h.rrtr, h.reception, h.dlrr, h.measurement, h.delay, h.queue⟩

/-- The full statement for reports is false. -/
theorem C28_reports_fails : ¬ ReportsCover := by
  intro h
  exact C28_no_xr_fails ⟨true, true, false⟩ 1000 senderOnly initSt senderOnly_ok rfl rfl (by decide) (by decide) rfl (by decide)
    (h ⟨true, true, false⟩ 1000 senderOnly initSt senderOnly_ok (by decide) (by decide)).1

/-- With reports and SDES disabled, there are no streams and no goodbye, so the packet is empty and the builder panics. -/
theorem C28_empty_fails (cap : Nat) (r : Rep) (s : St) (h0 : 0 < r.numDest) (h1 : r.isSending = false) (h2 : r.isReceiving = false)
    (h3 : r.needGoodbye = false) (xr : Bool) : generate ⟨false, false, xr⟩ cap r .reports 1 s = some .abort := by
  unfold generate
  rw [loop, start_first r s h0]
  simp only [if_true]
  rw [payload]
  simp only
  have : payloadCalls ⟨false, false, xr⟩ r { atDest r s 0 with curSend := 0, curRecv := 0 } .reports =
      ({ atDest r s 0 with curSend := 0, curRecv := 0 }, []) := by
    unfold payloadCalls partIf extended hasDlrr
    rw [h1, h2, h3]
    cases xr <;> rfl
  rw [this]
  rfl

/-! ## C29 -/

theorem drun_concat (interval : Int) (h : List DCall) (c : DCall) : drun interval (h ++ [c]) = dstep interval (drun interval h) c := by
  simp [drun]

theorem drun_pos (interval : Int) (hi : 0 < interval) (h : List DCall) (ht : ∀ c ∈ h, 0 < c.now) : h = [] ∨ 0 < drun interval h := by
  induction h using List.reverseRecOn with
  | nil => exact Or.inl rfl
  | append_singleton h c ih =>
    right
    have hp : 0 ≤ drun interval h := by
      rcases ih (fun x hx => ht x (List.mem_append_left _ hx)) with rfl | hp
      · exact Int.le_refl _
      · omega
    have hc := ht c (by simp)
    rw [drun_concat]
    generalize drun interval h = x at hp
    cases c with
    | deadline t =>
      have hc : 0 < t := hc
      show 0 < generationDeadline x t
      unfold generationDeadline
      split_ifs <;> omega
    | reports t =>
      have hc : 0 < t := hc
      show 0 < (generateReports interval x t).1
      unfold generateReports
      have hm := Int.emod_lt_of_pos (t - generationDeadline x t) hi
      split_ifs with h1
      · simp only; omega
      · simp only; omega

/-- Whatever calls were made before, a call produces reports exactly when the deadline that `generation_deadline` would
give is reached; then the next deadline is later than now by at most one interval; otherwise it stays. -/
theorem C29_deadline (interval : Int) (hi : 0 < interval) (h : List DCall) (t : Int) :
    ((generateReports interval (drun interval h) t).2 = true ↔ generationDeadline (drun interval h) t ≤ t) ∧
    ((generateReports interval (drun interval h) t).2 = true →
      t < drun interval (h ++ [.reports t]) ∧ drun interval (h ++ [.reports t]) ≤ t + interval) ∧
    ((generateReports interval (drun interval h) t).2 = false →
      t < drun interval (h ++ [.reports t]) ∧ drun interval (h ++ [.reports t]) = generationDeadline (drun interval h) t) := by
  rw [drun_concat]
  show _ ∧ (_ → t < (generateReports interval _ t).1 ∧ (generateReports interval _ t).1 ≤ _) ∧
    (_ → t < (generateReports interval _ t).1 ∧ (generateReports interval _ t).1 = _)
  generalize drun interval h = x
  unfold generateReports
  have h1 := Int.emod_lt_of_pos (t - generationDeadline x t) hi
  have h2 := Int.emod_nonneg (t - generationDeadline x t) (Int.ne_of_gt hi)
  by_cases hc : generationDeadline x t > t
  · rw [if_pos hc]
    exact ⟨⟨fun e => absurd e Bool.noConfusion, fun e => absurd e (by omega)⟩, fun e => absurd e Bool.noConfusion, fun _ => ⟨hc, rfl⟩⟩
  · rw [if_neg hc]
    exact ⟨⟨fun _ => by omega, fun _ => rfl⟩, fun _ => by simp only; omega, fun e => absurd e Bool.noConfusion⟩

/-- Every deadline is the time of the first call plus a number of intervals, however late the calls are. -/
theorem C29_grid (interval : Int) (hi : 0 < interval) (c : DCall) (h : List DCall) (ht : ∀ x ∈ c :: h, 0 < x.now) :
    ∃ k : Int, 0 ≤ k ∧ drun interval (c :: h) = c.now + k * interval := by
  induction h using List.reverseRecOn with
  | nil =>
    have hc := ht c List.mem_cons_self
    cases c with
    | deadline t => exact ⟨0, by omega, by simp [drun, dstep, generationDeadline, DCall.now]⟩
    | reports t => exact ⟨1, by omega, by simp [drun, dstep, generateReports, generationDeadline, DCall.now]⟩
  | append_singleton h d ih =>
    obtain ⟨k, hk, he⟩ := ih (by intro x hx; exact ht x (by simp only [List.mem_cons, List.mem_append] at hx ⊢; tauto))
    have hpos := drun_pos interval hi (c :: h) (by intro x hx; exact ht x (by simp only [List.mem_cons, List.mem_append] at hx ⊢; tauto))
    have hpos : 0 < drun interval (c :: h) := by
      rcases hpos with h | h
      · exact absurd h (by simp)
      · exact h
    rw [← List.cons_append, drun_concat]
    obtain ⟨x, hx⟩ : ∃ x, x = drun interval (c :: h) := ⟨_, rfl⟩
    rw [← hx] at he hpos ⊢
    have hg : ∀ t, generationDeadline x t = x := by intro t; unfold generationDeadline; rw [if_neg (by omega)]
    cases d with
    | deadline t => exact ⟨k, hk, by show generationDeadline x t = _; rw [hg, he]⟩
    | reports t =>
      show ∃ k, 0 ≤ k ∧ (generateReports interval x t).1 = _
      unfold generateReports
      rw [hg]
      by_cases hc : x > t
      · rw [if_pos hc]; exact ⟨k, hk, he⟩
      · rw [if_neg hc]
        refine ⟨k + (t - x) / interval + 1, ?_, ?_⟩
        · have := Int.ediv_nonneg (a := t - x) (b := interval) (by omega) (by omega)
          omega
        · have e := Int.mul_ediv_add_emod (t - x) interval
          have e2 : (k + (t - x) / interval + 1) * interval = k * interval + interval * ((t - x) / interval) + interval := by
            rw [Int.add_mul, Int.add_mul, Int.one_mul, Int.mul_comm ((t - x) / interval)]
          rw [e2]
          simp only
          omega

/-- A history with late calls: the interval is 100, calls come at 50, 60, 175, 412. -/
example : drun 100 [.deadline 50, .reports 60, .reports 175, .reports 412] = 450 ∧
    ∀ x ∈ ([.deadline 50, .reports 60, .reports 175, .reports 412] : List DCall), 0 < x.now := by decide

end Verif.RtcpGen
