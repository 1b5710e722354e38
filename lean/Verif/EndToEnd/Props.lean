import Verif.EndToEnd.Model
import Verif.Packetizer.Props
import Verif.Sequencer.Props
import Verif.Depacketizer.Props
import Verif.Depacketizer.Mono

/-!
# C67: what is played is what was sent

-/

namespace Verif.EndToEnd

open Verif.Depacketizer (Pkt Call Done St m32 start stop sampleAt expected output Timeline Eager Silent Served Sane)

variable {α : Type}

/-- All samples in packets. -/
def stream (pkts : List (Pkt α)) : List α := (pkts.map (·.samples)).flatten

/-- Number of samples in packets before the `n`-th. -/
def before (pkts : List (Pkt α)) (n : Nat) : Nat := (stream (pkts.take n)).length

/-- The packet `p` has samples of the stream beginning with position `q`, and its timestamp corresponds. -/
structure At (w : List α) (ts0 : Nat) (p : Pkt α) (q : Nat) : Prop where
  fits : q + p.samples.length ≤ w.length
  ne : 0 < p.samples.length
  ts : p.ts = (ts0 + q) % m32
  val : ∀ i, i < p.samples.length → p.samples[i]? = w[q + i]?

theorem carries_ok {c : Packetizer.Cfg} (hc : Packetizer.CfgOk c) {os : List (Packetizer.Out α)} {gs : List (List (α × Int))}
    (h : List.Forall₂ (Packetizer.Carries c) os gs) : (∀ g ∈ gs, g.length ≤ c.spp) → ∀ o ∈ os, o.dur = o.audio.length ∧ o.audio ≠ [] ∧ o.audio.length ≤ c.spp := by
  induction h with
  | nil => simp
  | cons h1 _ ih =>
    intro hg o ho
    rcases List.mem_cons.mp ho with ho | ho
    · rw [ho, h1.dur, h1.audio]
      exact ⟨by simp, by simpa using h1.ne, by rw [List.length_map]; exact hg _ List.mem_cons_self⟩
    · exact ih (fun g hg' => hg g (List.mem_cons_of_mem _ hg')) o ho

theorem good_ok {c : Packetizer.Cfg} (hc : Packetizer.CfgOk c) {pend pend' : List (α × Int)} {ops : List (Packetizer.Op α)} {outs : List (List (Packetizer.Out α))}
    (h : Packetizer.Good c pend ops outs pend') (hpl : pend.length < c.spp) : ∀ o ∈ outs.flatten, o.dur = o.audio.length ∧ o.audio ≠ [] ∧ o.audio.length ≤ c.spp := by
  induction h with
  | nil => simp
  | @flush pend ops os outs pend' h hr ih =>
    intro o ho
    rw [List.flatten_cons] at ho
    rcases List.mem_append.mp ho with ho | ho
    · rcases h with ⟨_, h2⟩ | ⟨o', h1, h2⟩
      · rw [h2] at ho; cases ho
      · rw [h1] at ho
        rw [List.mem_singleton.mp ho]
        exact carries_ok hc (.cons h2 .nil) (fun g hg => by rw [List.mem_singleton.mp hg]; omega) o' List.mem_cons_self
    · exact ih hc.spp o ho
  | @write pend mid l cts allocs ops os outs pend' k hk hf gs hg hn' he hm hr ih =>
    intro o ho
    rw [List.flatten_cons] at ho
    rcases List.mem_append.mp ho with ho | ho
    · exact carries_ok hc hg (fun g hg => Nat.le_of_eq (hn' g hg)) o ho
    · exact ih hm o ho

theorem stamp_samples (outs : List (Packetizer.Out α)) (hdrs : List Sequencer.Rtp) (h : hdrs.length = outs.length) :
    (stamp outs hdrs).map (·.samples) = outs.map (·.audio) := by
  induction outs generalizing hdrs with
  | nil => rfl
  | cons o outs ih =>
    cases hdrs with
    | nil => simp at h
    | cons r hdrs => 
      have := ih hdrs (by simpa using h)
      show o.audio :: (stamp outs hdrs).map (·.samples) = _
      rw [this]; rfl

theorem take_sum (outs : List (Packetizer.Out α)) (ssrc : BitVec 32) (n : Nat) (h : ∀ o ∈ outs, o.dur = o.audio.length) (hs : ∀ o ∈ outs, o.audio.length < m32) :
    (((outs.map (seqCall ssrc)).take n).map (·.duration.toNat)).sum = (((outs.map (·.audio)).take n).flatten).length := by
  induction outs generalizing n with
  | nil => simp
  | cons o outs ih =>
    cases n with
    | zero => rfl
    | succ n =>
      simp only [List.map_cons, List.take_succ_cons, List.sum_cons, List.flatten_cons, List.length_append]
      rw [ih n (fun o ho => h o (List.mem_cons_of_mem _ ho)) (fun o ho => hs o (List.mem_cons_of_mem _ ho))]
      have h1 := h o List.mem_cons_self
      have h2 := hs o List.mem_cons_self
      have : (seqCall ssrc o).duration.toNat = o.audio.length := by
        show (BitVec.ofNat 32 o.dur).toNat = _
        rw [h1, BitVec.toNat_ofNat]
        exact Nat.mod_eq_of_lt h2
      rw [this]

theorem split_at (l : List (List α)) (n : Nat) (a : List α) (h : l[n]? = some a) :
    l.flatten = (l.take n).flatten ++ a ++ (l.drop (n + 1)).flatten := by
  obtain ⟨hn, ha⟩ := List.getElem?_eq_some_iff.mp h
  conv_lhs => rw [← List.take_append_drop n l, List.drop_eq_getElem_cons hn, ha]
  simp

/-- What the sender sends. -/
theorem send_ok (c : Packetizer.Cfg) (hc : Packetizer.CfgOk c) (pt sn0 ts0 : Nat) (ssrc : BitVec 32) (ops : List (Packetizer.Op α))
    (ht : Packetizer.Times ops) (hn : Packetizer.NoFail ops) :
    ∃ pkts rest, send c pt sn0 ts0 ssrc ops = some pkts ∧ stream pkts ++ rest = Packetizer.written ops ∧ rest.length < c.spp ∧
      ∀ n p, pkts[n]? = some p → At (Packetizer.written ops) ts0 p (before pkts n) ∧ p.samples.length ≤ c.spp := by
  obtain ⟨r, pend, h1, h2, h3⟩ := Packetizer.run_good hc ops ht (s := ⟨none⟩) (pend := []) ⟨hc.spp, rfl⟩
  have haud := Packetizer.good_audio h2 hn
  have hok := good_ok hc h2 hc.spp
  simp only [List.map_nil, List.nil_append] at haud
  obtain ⟨hs, g1, g2, g3⟩ := Sequencer.C09_numbering pt sn0 ts0 (r.1.flatten.map (seqCall ssrc))
  rw [List.length_map] at g2
  have hsam := stamp_samples r.1.flatten hs g2
  have hlen : ∀ o ∈ r.1.flatten, o.audio.length < m32 := by
    intro o ho
    have := (hok o ho).2.2
    have := hc.spp32
    unfold Packetizer.m32 at this
    unfold m32; omega
  refine ⟨stamp r.1.flatten hs, pend.map (·.1), ?_, ?_, ?_, ?_⟩
  · unfold send; rw [h1, Option.bind_some, g1]; rfl
  · unfold stream; rw [hsam]; exact haud
  · rw [List.length_map]; exact h3.1
  · intro n p hp
    have hp' := hp
    unfold stamp at hp'
    rw [List.getElem?_zipWith] at hp'
    cases ho : r.1.flatten[n]? with
    | none => rw [ho] at hp'; cases hp'
    | some o =>
      cases hr : hs[n]? with
      | none => rw [ho, hr] at hp'; cases hp'
      | some rr =>
        rw [ho, hr] at hp'
        have hp' := Option.some.inj hp'
        have hmem := List.mem_of_getElem? ho
        obtain ⟨_, g4, _⟩ := g3 n (seqCall ssrc o) rr (by rw [List.getElem?_map, ho]; rfl) hr
        rw [take_sum _ _ _ (fun o ho => (hok o ho).1) hlen] at g4
        have hb : before (stamp r.1.flatten hs) n = ((r.1.flatten.map (·.audio)).take n).flatten.length := by
          unfold before stream; rw [List.map_take, hsam]
        have hsp := split_at (r.1.flatten.map (·.audio)) n o.audio (by rw [List.getElem?_map, ho]; rfl)
        rw [hsp, List.append_assoc, List.append_assoc] at haud
        rw [← hp']
        refine ⟨⟨?_, ?_, ?_, ?_⟩, (hok o hmem).2.2⟩
        · rw [← haud, hb]; simp only [List.length_append]; omega
        · exact List.length_pos_iff.mpr (hok o hmem).2.1
        · rw [hb]; exact g4
        · intro i hi
          show o.audio[i]? = _
          rw [← haud, hb, List.getElem?_append_right (by omega)]
          rw [show ∀ a : Nat, a + i - a = i by omega, List.getElem?_append_left hi]

theorem sdiff_eq (a b : Nat) (h1 : (a : Int) - b < 2147483648) (h2 : -2147483648 ≤ (a : Int) - b) : Depacketizer.sdiff (a % m32) (b % m32) = (a : Int) - b := by
  unfold Depacketizer.sdiff; simp only [m32]; omega

/-- A packet with `n` samples at position `q` of the stream is consumed at position `pos` of reading, which began at position `b` of the stream, and it is near: the
difference of the end of the packet and the reading position has 32 bits. -/
def Close (b q n pos : Nat) : Prop := -2147483648 ≤ (b : Int) + pos - (q + n) ∧ (b : Int) + pos - (q + n) < 2147483648

/-- The position which the receiver gives to a packet is the right one, if it is near. -/
theorem start_eq {w : List α} {ts0 : Nat} {p0 p : Pkt α} {b q pos : Nat} (h0 : At w ts0 p0 b) (hp : At w ts0 p q) (hn : Close b q p.samples.length pos) :
    start p0.ts (pos, p) = (q : Int) - b := by
  have hs : stop p0.ts (pos, p) = (q : Int) + p.samples.length - b := by
    unfold stop
    show (pos : Int) - Depacketizer.sdiff ((p0.ts + pos) % m32) ((p.ts + p.samples.length) % m32) = _
    have e1 : (p0.ts + pos) % m32 = (ts0 + b + pos) % m32 := by rw [h0.ts]; simp only [m32]; omega
    have e2 : (p.ts + p.samples.length) % m32 = (ts0 + q + p.samples.length) % m32 := by rw [hp.ts]; simp only [m32]; omega
    obtain ⟨n1, n2⟩ := hn
    rw [e1, e2, sdiff_eq _ _ (by push_cast; omega) (by push_cast; omega)]
    push_cast; omega
  unfold start
  rw [hs]
  show (q : Int) + p.samples.length - b - p.samples.length = _
  omega

theorem sampleAt_eq {w : List α} {ts0 : Nat} {p0 p : Pkt α} {b q pos i : Nat} (h0 : At w ts0 p0 b) (hp : At w ts0 p q) (hn : Close b q p.samples.length pos) :
    sampleAt p0.ts i (pos, p) = if pos ≤ i ∧ q ≤ b + i ∧ b + i < q + p.samples.length then w[b + i]? else none := by
  unfold sampleAt
  rw [start_eq h0 hp hn]
  show (if pos ≤ i ∧ (q : Int) - b ≤ i then p.samples[((i : Int) - (q - b)).toNat]? else none) = _
  by_cases h : pos ≤ i ∧ (q : Int) - b ≤ i
  · rw [if_pos h]
    have e : ((i : Int) - (q - b)).toNat = b + i - q := by omega
    rw [e]
    by_cases h' : b + i < q + p.samples.length
    · rw [if_pos ⟨h.1, by omega, h'⟩, hp.val _ (by omega)]
      congr 1; omega
    · rw [if_neg (by omega)]
      exact List.getElem?_eq_none (by omega)
  · rw [if_neg h, if_neg (by omega)]

/-- Packets consumed by calls, with positions. -/
theorem timeline_mem {P : Nat → Done α → List (Nat × Pkt α) → Prop} {pos : Nat} {ds : List (Done α)} {b got : List (Nat × Pkt α)} (h : Timeline P pos ds b got) :
    ∀ x ∈ got, x.1 ≤ pos + (output ds).length ∧ ∃ d ∈ ds, x.2 ∈ d.taken := by
  induction ds generalizing pos b got with
  | nil =>
    intro x hx
    have : got = [] := h
    rw [this] at hx; cases hx
  | cons d ds ih =>
    obtain ⟨ev, rest, h1, h2, h3, _, h5⟩ := h
    intro x hx
    have e : (output (d :: ds)).length = d.frame.samples.length + (output ds).length := by
      simp [output]
    rw [h1] at hx
    rcases List.mem_append.mp hx with hx | hx
    · refine ⟨by have := (h3 x hx).2; omega, d, List.mem_cons_self, ?_⟩
      rw [← h2]; exact List.mem_map_of_mem hx
    · obtain ⟨g1, d', g2, g3⟩ := ih h5 x hx
      exact ⟨by omega, d', List.mem_cons_of_mem _ g2, g3⟩

theorem served_taken {h : List (Call α)} {ds : List (Done α)} (hs : List.Forall₂ Served h ds) : ∀ d ∈ ds, ∃ c ∈ h, ∀ p ∈ d.taken, p ∈ c.pkts := by
  induction hs with
  | nil => simp
  | @cons c d h ds h1 _ ih =>
    intro d' hd
    rcases List.mem_cons.mp hd with hd | hd
    · rw [hd]
      exact ⟨c, List.mem_cons_self, fun p hp => by rw [h1.order]; exact List.mem_append_left _ hp⟩
    · obtain ⟨c', g1, g2⟩ := ih d' hd
      exact ⟨c', List.mem_cons_of_mem _ g1, g2⟩

theorem served_length {h : List (Call α)} {ds : List (Done α)} (hs : List.Forall₂ Served h ds) : (output ds).length = (h.map (·.size)).sum := by
  induction hs with
  | nil => rfl
  | @cons c d h ds h1 _ ih =>
    have e : (output (d :: ds)).length = d.frame.samples.length + (output ds).length := by simp [output]
    rw [e, ih, h1.size]; rfl

/-- Packets that are delivered are packets that were sent: some may be lost, repeated, late or out of order. -/
def FromSender (pkts : List (Pkt α)) (h : List (Call α)) : Prop := ∀ c ∈ h, ∀ p ∈ c.pkts, p ∈ pkts

/-- Playback begins with the `k`-th packet, and every packet was consumed less than 2^31 samples before or after it should be played: this is
what 32 bit timestamps can express. -/
structure Timely (pkts : List (Pkt α)) (got : List (Nat × Pkt α)) (k : Nat) : Prop where
  first : ∀ x, got.head? = some x → pkts[k]? = some x.2
  near : ∀ x ∈ got, ∃ n, pkts[n]? = some x.2 ∧ Close (before pkts k) (before pkts n) x.2.samples.length x.1

/-- Result of receiving, where `w` is what was written by the sender, and `b` is the position of the first received packet in it. -/
structure Received (w : List α) (pkts : List (Pkt α)) (got : List (Nat × Pkt α)) (post : List (Done α)) (b : Nat) : Prop where
  /-- everything that is played was written, and is at the same distance from the beginning -/
  sound : ∀ (j : Nat) (x : α), (output post)[j]? = some (some x) → w[b + j]? = some x
  /-- samples of a packet consumed in time are played -/
  complete : ∀ n p pos, pkts[n]? = some p → (pos, p) ∈ got → Close b (before pkts n) p.samples.length pos → ∀ i, pos ≤ i → before pkts n ≤ b + i →
    b + i < before pkts n + p.samples.length → i < (output post).length → ∃ x, (output post)[i]? = some (some x) ∧ w[b + i]? = some x

theorem findSome_eq {β γ : Type} (l : List β) (f : β → Option γ) (v : Option γ) (h : ∀ x ∈ l, f x = none ∨ f x = v) : l.findSome? f = none ∨ l.findSome? f = v := by
  induction l with
  | nil => exact Or.inl rfl
  | cons x l ih =>
    rw [List.findSome?_cons]
    rcases h x List.mem_cons_self with hx | hx
    · rw [hx]; exact ih (fun y hy => h y (List.mem_cons_of_mem _ hy))
    · rw [hx]
      cases v with
      | none => exact ih (fun y hy => h y (List.mem_cons_of_mem _ hy))
      | some v => exact Or.inr rfl

/-- The theorem about one execution. -/
theorem received {w : List α} {ts0 : Nat} {pkts : List (Pkt α)} (hp : ∀ n p, pkts[n]? = some p → At w ts0 p (before pkts n))
    {got : List (Nat × Pkt α)} {post : List (Done α)} {f0 k : Nat} (h5 : post ≠ [] → ∃ p got', got = (0, p) :: got' ∧ f0 = p.ts)
    (h7 : ∀ j, j < (output post).length → (output post)[j]? = some (expected f0 got j)) (ht : Timely pkts got k) :
    Received w pkts got post (before pkts k) := by
  cases post with
  | nil =>
    refine ⟨?_, ?_⟩
    · intro j x hx; cases hx
    · intro n p pos _ _ _ i _ _ _ hi; cases hi
  | cons d0 ds =>
    obtain ⟨p0, got', g1, g2⟩ := h5 (by simp)
    have hk : pkts[k]? = some p0 := ht.first (0, p0) (by rw [g1]; rfl)
    have h0 := hp k p0 hk
    have hsa : ∀ n p pos, pkts[n]? = some p → Close (before pkts k) (before pkts n) p.samples.length pos → ∀ i, sampleAt f0 i (pos, p) =
        if pos ≤ i ∧ before pkts n ≤ before pkts k + i ∧ before pkts k + i < before pkts n + p.samples.length then w[before pkts k + i]? else none := by
      intro n p pos hn hc i
      rw [g2]
      exact sampleAt_eq h0 (hp n p hn) hc
    have hexp : ∀ i, expected f0 got i = none ∨ expected f0 got i = w[before pkts k + i]? := by
      intro i
      refine findSome_eq _ _ _ ?_
      rintro ⟨pos, p⟩ hx
      obtain ⟨n, hn, hc⟩ := ht.near _ hx
      rw [hsa n p pos hn hc i]
      split_ifs
      · exact Or.inr rfl
      · exact Or.inl rfl
    refine ⟨?_, ?_⟩
    · intro j x hj
      have hjl : j < (output (d0 :: ds)).length := (List.getElem?_eq_some_iff.mp hj).1
      rw [h7 j hjl] at hj
      have hj := Option.some.inj hj
      rcases hexp j with e | e
      · rw [e] at hj; cases hj
      · rw [← e, hj]
    · intro n p pos hn hx hc i hi hi1 hi2 hil
      rw [h7 i hil]
      have hw : before pkts k + i < w.length := by
        have := (hp n p hn).fits; omega
      refine ⟨w[before pkts k + i], ?_, List.getElem?_eq_getElem hw⟩
      rcases hexp i with e | e
      · exfalso
        have := List.findSome?_eq_none_iff.mp e (pos, p) hx
        rw [hsa n p pos hn hc i, if_pos ⟨hi, hi1, hi2⟩, List.getElem?_eq_getElem hw] at this
        cases this
      · rw [e, List.getElem?_eq_getElem hw]

theorem sane_of {w : List α} {ts0 spp : Nat} {pkts : List (Pkt α)} (hp : ∀ n p, pkts[n]? = some p → At w ts0 p (before pkts n) ∧ p.samples.length ≤ spp)
    (hs : spp < 2147483648) {h : List (Call α)} (hf : FromSender pkts h) : Sane h := by
  intro c hc p hpp
  obtain ⟨n, hn⟩ := List.getElem?_of_mem (hf c hc p hpp)
  obtain ⟨h1, h2⟩ := hp n p hn
  refine ⟨?_, h1.ne, by omega⟩
  rw [h1.ts]; exact Nat.mod_lt _ (by decide)

/-- C67: for every sequence of frames written by the sender, for everything that the network can do with the packets (loss,
repetition, delay, reordering), and for all reads of the receiver: reading does not abort, and gives silence until the first packet. If no packet is consumed 2^31
samples or more away from its place, then each sample played after that is exactly the sample which was written at the same distance from the
first received packet, or silence, and samples of a packet consumed in time are always played. -/
theorem C67_end_to_end (c : Packetizer.Cfg) (hc : Packetizer.CfgOk c) (hspp : c.spp < 2147483648) (pt sn0 ts0 : Nat) (ssrc : BitVec 32)
    (ops : List (Packetizer.Op α)) (ht : Packetizer.Times ops) (hn : Packetizer.NoFail ops) :
    ∃ pkts rest, send c pt sn0 ts0 ssrc ops = some pkts ∧ stream pkts ++ rest = Packetizer.written ops ∧ rest.length < c.spp ∧
      ∀ (per : Int) (h : List (Call α)), per ≥ 0 → FromSender pkts h → ∃ r pre post, Depacketizer.run per St.init h = .ok r ∧ List.Forall₂ Served h r.2 ∧
        r.2 = pre ++ post ∧ (∀ d ∈ pre, Silent d) ∧ ∀ k, Timely pkts r.1.got k → Received (Packetizer.written ops) pkts r.1.got post (before pkts k) := by
  obtain ⟨pkts, rest, h1, h2, h3, h4⟩ := send_ok c hc pt sn0 ts0 ssrc ops ht hn
  refine ⟨pkts, rest, h1, h2, h3, ?_⟩
  intro per h hper hf
  obtain ⟨r, pre, post, f0, g1, g2, g3, g4, g5, _, g7⟩ := Depacketizer.C35_placement per hper h (sane_of h4 hspp hf)
  exact ⟨r, pre, post, g1, g2, g3, g4, fun k hk => received (fun n p hn => (h4 n p hn).1) g5 g7 hk⟩

/-- Streams shorter than 2^31 samples are always timely. -/
theorem timely_short {w : List α} {ts0 : Nat} {pkts : List (Pkt α)} (hp : ∀ n p, pkts[n]? = some p → At w ts0 p (before pkts n))
    {h : List (Call α)} (hf : FromSender pkts h) (hl : w.length + (h.map (·.size)).sum < 2147483648) {r : St α × List (Done α)} {pre post : List (Done α)} {f0 : Nat}
    (h2 : List.Forall₂ Served h r.2) (h3 : r.2 = pre ++ post) (h6 : Timeline (Eager f0) 0 post [] r.1.got) : ∃ k, Timely pkts r.1.got k := by
  have hlen := served_length h2
  have hpl : (output post).length ≤ (h.map (·.size)).sum := by
    rw [← hlen, h3]; unfold output; simp
  have hmem : ∀ x ∈ r.1.got, w.length + x.1 < 2147483648 ∧ x.2 ∈ pkts := by
    intro x hx
    obtain ⟨g1, d, g2, g3⟩ := timeline_mem h6 x hx
    obtain ⟨c, g4, g5⟩ := served_taken h2 d (by rw [h3]; exact List.mem_append_right _ g2)
    exact ⟨by omega, hf c g4 _ (g5 _ g3)⟩
  cases hg : r.1.got with
  | nil => exact ⟨0, (fun x hx => by cases hx), (fun x hx => by cases hx)⟩
  | cons x0 got =>
    rw [hg] at hmem
    obtain ⟨k, hk⟩ := List.getElem?_of_mem (hmem x0 List.mem_cons_self).2
    have h0 := (hp k _ hk).fits
    refine ⟨k, ?_, ?_⟩
    · intro x hx
      have hx : some x0 = some x := hx
      rw [← Option.some.inj hx]; exact hk
    · intro x hx
      obtain ⟨n, hn⟩ := List.getElem?_of_mem (hmem x hx).2
      have h1 := (hp n _ hn).fits
      have h2 := (hmem x hx).1
      exact ⟨n, hn, by unfold Close; constructor <;> omega⟩

/-- C67 for streams shorter than 2^31 samples (12 hours at 48 kHz), without conditions on delays. -/
theorem C67_short_stream (c : Packetizer.Cfg) (hc : Packetizer.CfgOk c) (hspp : c.spp < 2147483648) (pt sn0 ts0 : Nat) (ssrc : BitVec 32)
    (ops : List (Packetizer.Op α)) (ht : Packetizer.Times ops) (hn : Packetizer.NoFail ops) :
    ∃ pkts, send c pt sn0 ts0 ssrc ops = some pkts ∧
      ∀ (per : Int) (h : List (Call α)), per ≥ 0 → FromSender pkts h → (Packetizer.written ops).length + (h.map (·.size)).sum < 2147483648 →
        ∃ r pre post b, Depacketizer.run per St.init h = .ok r ∧ r.2 = pre ++ post ∧ (∀ d ∈ pre, Silent d) ∧
          ∀ (j : Nat) (x : α), (output post)[j]? = some (some x) → (Packetizer.written ops)[b + j]? = some x := by
  obtain ⟨pkts, rest, h1, h2, h3, h4⟩ := send_ok c hc pt sn0 ts0 ssrc ops ht hn
  refine ⟨pkts, h1, ?_⟩
  intro per h hper hf hl
  obtain ⟨r, pre, post, f0, g1, g2, g3, g4, g5, g6, g7⟩ := Depacketizer.C35_placement per hper h (sane_of h4 hspp hf)
  obtain ⟨k, hk⟩ := timely_short (fun n p hn => (h4 n p hn).1) hf hl g2 g3 g6
  exact ⟨r, pre, post, before pkts k, g1, g3, g4, (received (fun n p hn => (h4 n p hn).1) g5 g7 hk).sound⟩

/-- Consumed packets are consecutive, beginning with the `k`-th: nothing was lost, repeated or reordered. -/
structure Consecutive (pkts : List (Pkt α)) (got : List (Nat × Pkt α)) (k : Nat) : Prop where
  pkt : ∀ (m : Nat) (x : Nat × Pkt α), got[m]? = some x → pkts[k + m]? = some x.2
  near : ∀ (m : Nat) (x : Nat × Pkt α), got[m]? = some x → Close (before pkts k) (before pkts (k + m)) x.2.samples.length x.1

theorem Consecutive.timely {pkts : List (Pkt α)} {got : List (Nat × Pkt α)} {k : Nat} (h : Consecutive pkts got k) : Timely pkts got k := by
  refine ⟨?_, ?_⟩
  · intro x hx
    have := h.pkt 0 x (by rw [← List.head?_eq_getElem?]; exact hx)
    exact this
  · intro x hx
    obtain ⟨m, hm⟩ := List.getElem?_of_mem hx
    exact ⟨k + m, h.pkt m x hm, h.near m x hm⟩

theorem before_succ {pkts : List (Pkt α)} {n : Nat} {p : Pkt α} (h : pkts[n]? = some p) : before pkts (n + 1) = before pkts n + p.samples.length := by
  unfold before stream
  rw [List.take_add_one, h]
  simp

/-- A position between packets `k` and `k + m` is in one of them. -/
theorem find_packet {pkts : List (Pkt α)} {k m i : Nat} (hex : ∀ m' < m, ∃ p, pkts[k + m']? = some p) (h1 : before pkts k ≤ i) (h2 : i < before pkts (k + m)) :
    ∃ m' < m, ∃ p, pkts[k + m']? = some p ∧ before pkts (k + m') ≤ i ∧ i < before pkts (k + m') + p.samples.length := by
  induction m with
  | zero => rw [Nat.add_zero] at h2; omega
  | succ m ih =>
    by_cases h : i < before pkts (k + m)
    · obtain ⟨m', g1, g2⟩ := ih (fun m' hm => hex m' (by omega)) h
      exact ⟨m', by omega, g2⟩
    · obtain ⟨p, hp⟩ := hex m (by omega)
      have := before_succ hp
      have e : k + (m + 1) = k + m + 1 := by omega
      rw [e, this] at h2
      exact ⟨m, by omega, p, hp, by omega, h2⟩

/-- The call which has given the `j`-th sample. -/
theorem timeline_at {P : Nat → Done α → List (Nat × Pkt α) → Prop} {ds : List (Done α)} {pos : Nat} {b got : List (Nat × Pkt α)} (h : Timeline P pos ds b got) {j : Nat} {v : Option α}
    (hj : (output ds)[j]? = some v) : ∃ d ∈ ds, ∃ pos' i b', d.frame.samples[i]? = some v ∧ pos + j = pos' + i ∧ P pos' d b' ∧ ∃ rest, b ++ got = b' ++ rest := by
  induction ds generalizing pos b got j with
  | nil => cases hj
  | cons d ds ih =>
    obtain ⟨ev, rest, h1, _, _, h4, h5⟩ := h
    have ho : output (d :: ds) = d.frame.samples ++ output ds := rfl
    rw [ho] at hj
    by_cases hl : j < d.frame.samples.length
    · rw [List.getElem?_append_left hl] at hj
      exact ⟨d, List.mem_cons_self, pos, j, b ++ ev, hj, rfl, h4, rest, by rw [h1, List.append_assoc]⟩
    · rw [List.getElem?_append_right (by omega)] at hj
      obtain ⟨d', g1, pos', i, b', g2, g3, g4, rest', g5⟩ := ih h5 hj
      refine ⟨d', List.mem_cons_of_mem _ g1, pos', i, b', g2, by omega, g4, rest', ?_⟩
      rw [h1, ← List.append_assoc, g5]

/-- C67: if packets are delivered completely and in order, and the receiver never runs out of packets, then the output after the first packet is exactly
what was written, beginning with the first received packet. There is no limit on the length of the stream. -/
theorem C67_lossless (c : Packetizer.Cfg) (hc : Packetizer.CfgOk c) (hspp : c.spp < 2147483648) (pt sn0 ts0 : Nat) (ssrc : BitVec 32)
    (ops : List (Packetizer.Op α)) (ht : Packetizer.Times ops) (hn : Packetizer.NoFail ops) :
    ∃ pkts, send c pt sn0 ts0 ssrc ops = some pkts ∧
      ∀ (per : Int) (h : List (Call α)), per ≥ 0 → FromSender pkts h → ∃ r pre post, Depacketizer.run per St.init h = .ok r ∧
        r.2 = pre ++ post ∧ (∀ d ∈ pre, Silent d) ∧ ∀ k, Consecutive pkts r.1.got k → (∀ d ∈ post, d.left ≠ []) →
          output post = (((Packetizer.written ops).drop (before pkts k)).take (output post).length).map some := by
  obtain ⟨pkts, rest, h1, h2, h3, h4⟩ := send_ok c hc pt sn0 ts0 ssrc ops ht hn
  refine ⟨pkts, h1, ?_⟩
  intro per h hper hf
  obtain ⟨r, pre, post, f0, g1, g2, g3, g4, g5, g6, g7⟩ := Depacketizer.C35_placement per hper h (sane_of h4 hspp hf)
  refine ⟨r, pre, post, g1, g3, g4, ?_⟩
  intro k hk hleft
  have hp : ∀ n p, pkts[n]? = some p → At (Packetizer.written ops) ts0 p (before pkts n) := fun n p hn => (h4 n p hn).1
  have hrec := received hp g5 g7 hk.timely
  have hmono := (Depacketizer.mono_run Depacketizer.mono_init g1).sorted
  have hsome : ∀ j, j < (output post).length → ∃ x, (output post)[j]? = some (some x) := by
    intro j hj
    obtain ⟨v, hv⟩ : ∃ v, (output post)[j]? = some v := ⟨_, List.getElem?_eq_getElem hj⟩
    cases v with
    | some x => exact ⟨x, hv⟩
    | none =>
      obtain ⟨d, e1, pos, i, b', e2, e3, e4, rest', e5⟩ := timeline_at g6 hv
      rcases e4 i e2 with e | ⟨x, e6, e7, e8⟩
      · exact absurd e (hleft d e1)
      · have hx : x ∈ r.1.got := by
          have : r.1.got = b' ++ rest' := e5
          rw [this]; exact List.mem_append_left _ e6
        obtain ⟨m, hm⟩ := List.getElem?_of_mem hx
        have hpx := hk.pkt m x hm
        obtain ⟨p0, got', q1, q2⟩ := g5 (by rintro rfl; cases e1)
        have hk0 : pkts[k]? = some p0 := hk.timely.first (0, p0) (by rw [q1]; rfl)
        have hst : start f0 (x.1, x.2) = (before pkts (k + m) : Int) - before pkts k := by
          rw [q2]; exact start_eq (hp k p0 hk0) (hp _ _ hpx) (hk.near m x hm)
        have hlt : ((pos + i : Nat) : Int) < start f0 (x.1, x.2) := e8
        rw [hst] at hlt
        have hgl : m < r.1.got.length := (List.getElem?_eq_some_iff.mp hm).1
        obtain ⟨m', w1, p', w2, w3, w4⟩ := find_packet (pkts := pkts) (k := k) (m := m) (i := before pkts k + j)
          (fun m' hm' => ⟨_, hk.pkt m' _ (List.getElem?_eq_getElem (by omega))⟩) (by omega) (by omega)
        obtain ⟨x', hx'⟩ : ∃ x', r.1.got[m']? = some x' := ⟨_, List.getElem?_eq_getElem (by omega)⟩
        have hp' : pkts[k + m']? = some x'.2 := hk.pkt m' x' hx'
        have hpe : p' = x'.2 := Option.some.inj (w2.symm.trans hp')
        have hle : x'.1 ≤ x.1 := by
          rw [List.pairwise_iff_getElem] at hmono
          have := hmono m' m (by omega) hgl w1
          rw [(List.getElem?_eq_some_iff.mp hx').2, (List.getElem?_eq_some_iff.mp hm).2] at this
          exact this
        rw [hpe] at w4
        obtain ⟨y, y1, _⟩ := hrec.complete (k + m') x'.2 x'.1 hp' (List.mem_of_getElem? hx') (hk.near m' x' hx') j (by omega) w3 w4 hj
        exact ⟨y, y1⟩
  apply List.ext_getElem?
  intro j
  rw [List.getElem?_map]
  by_cases hj : j < (output post).length
  · obtain ⟨x, hx⟩ := hsome j hj
    rw [hx, List.getElem?_take_of_lt hj, List.getElem?_drop, hrec.sound j x hx]
    rfl
  · rw [List.getElem?_eq_none (by omega), List.getElem?_eq_none (by rw [List.length_take]; omega)]
    rfl

/-! ## Concrete cases -/

/-- Frames of different sizes; timestamps wrap inside. -/
def demoOps : List (Packetizer.Op Nat) := [.write [1, 2, 3, 4] 1000 [], .write [5, 6, 7, 8, 9] 2000 [], .write [10, 11, 12, 13] 3000 []]

/-- Sent packets. -/
def demoPkts : List (Pkt Nat) := [⟨4294967292, [1, 2, 3], 1000⟩, ⟨4294967295, [4, 5, 6], 1030⟩, ⟨2, [7, 8, 9], 2020⟩, ⟨5, [10, 11, 12], 3000⟩]

theorem demo_send : send Packetizer.demoCfg 10 65535 4294967292 7 demoOps = some demoPkts := by decide +kernel

theorem demo_hyps : Packetizer.Times demoOps ∧ Packetizer.NoFail demoOps := by
  constructor
  · intro l cts allocs h
    simp only [demoOps, List.mem_cons, List.not_mem_nil, or_false, Packetizer.Op.write.injEq] at h
    omega
  · intro l cts allocs h
    simp only [demoOps, List.mem_cons, List.not_mem_nil, or_false, Packetizer.Op.write.injEq] at h
    rcases h with ⟨_, _, rfl⟩ | ⟨_, _, rfl⟩ | ⟨_, _, rfl⟩ <;> simp

/-- The first packet is lost, the third and the second are swapped, and the second is repeated. -/
def demoCalls : List (Call Nat) := [⟨[], 1⟩, ⟨[⟨4294967295, [4, 5, 6], 1030⟩], 2⟩, ⟨[⟨5, [10, 11, 12], 3000⟩], 3⟩, ⟨[⟨2, [7, 8, 9], 2020⟩, ⟨4294967295, [4, 5, 6], 1030⟩], 6⟩]

theorem demo_from : FromSender demoPkts demoCalls := by unfold FromSender; decide +kernel

/-- The packet swapped with its predecessor is kept, and the predecessor is late. -/
theorem demo_received : Depacketizer.framesOf 5 demoCalls =
    [([none], none), ([some 4, some 5], some 1030), ([some 6, none, none], some 1040), ([none, some 10, some 11, some 12, none, none], some 2995)] := by decide +kernel

/-- Everything is delivered in order. -/
def demoAll : List (Call Nat) := [⟨demoPkts, 4⟩, ⟨demoPkts.drop 2, 3⟩]

/-- Consumed packets and positions; whether packets are left after each call; output. -/
def summary (h : List (Call Nat)) : List (Nat × Pkt Nat) × List Bool × List (Option Nat) :=
  match Depacketizer.run 5 St.init h with
  | .ok r => (r.1.got, r.2.map (fun d => !d.left.isEmpty), output r.2)
  | .error _ => ([], [], [])

/-- Consumed packets in that case. -/
def demoGot : List (Nat × Pkt Nat) := [(0, ⟨4294967292, [1, 2, 3], 1000⟩), (3, ⟨4294967295, [4, 5, 6], 1030⟩), (6, ⟨2, [7, 8, 9], 2020⟩)]

theorem demo_all : FromSender demoPkts demoAll ∧
    summary demoAll = (demoGot, [true, true], [some 1, some 2, some 3, some 4, some 5, some 6, some 7]) := by
  refine ⟨by unfold FromSender; decide +kernel, by decide +kernel⟩

theorem demo_consecutive : Consecutive demoPkts demoGot 0 := by
  have key : ∀ m : Nat, ∀ x, demoGot[m]? = some x → m < 3 := fun m x h => (List.getElem?_eq_some_iff.mp h).1
  have hb : before demoPkts 0 = 0 ∧ before demoPkts 1 = 3 ∧ before demoPkts 2 = 6 := by decide
  refine ⟨?_, ?_⟩
  · intro m x h
    have := key m x h
    match m, this, h with
    | 0, _, h => cases h; rfl
    | 1, _, h => cases h; rfl
    | 2, _, h => cases h; rfl
  · intro m x h
    have := key m x h
    match m, this, h with
    | 0, _, h => cases h; rw [Nat.zero_add, hb.1]; unfold Close; decide
    | 1, _, h => cases h; rw [Nat.zero_add, hb.1, hb.2.1]; unfold Close; decide
    | 2, _, h => cases h; rw [Nat.zero_add, hb.1, hb.2.2]; unfold Close; decide

end Verif.EndToEnd
