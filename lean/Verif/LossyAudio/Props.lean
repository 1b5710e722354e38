import Verif.LossyAudio.Lemmas

/-!
# C126: audio over a lossy network is exact while FEC has enough packets
-/

namespace Verif.LossyAudio

variable {α : Type}

open Depacketizer (St Pkt Frame m32)
open FecFlow (Net Lossy InTime Decodes count sources repairs writes)
open EndToEnd (before)

/-- C126: frames of any sizes are written by the sender, divided into packets, and the packets are sent with FEC, `k` source and `r` repair packets in a
block, over a network which loses packets of both kinds. If at least `k` packets of each block are delivered in time and the decoder is right, then the
frames read by the receiver, of any sizes, contain exactly what was written, from the first sample on: nothing is missing, repeated, swapped or silent,
although packets were lost. There is no limit on the length of the stream: block numbers and timestamps wrap around. -/
theorem C126_exact (c : Packetizer.Cfg) (hc : Packetizer.CfgOk c) (hspp : c.spp < 2147483648) (pt sn0 ts0 : Nat) (ssrc : BitVec 32) (ops : List (Packetizer.Op α))
    (ht : Packetizer.Times ops) (hno : Packetizer.NoFail ops) {maxLen maxJump first k r size w tot : Nat} {s0 : FecWriter.St} (hm : maxLen ≤ 65536)
    (hv : FecWriter.Valid maxLen (k, r)) (h0 : FecWriter.St.new maxLen first k r = some s0) (hz : size ≠ 0) (hw : w < 32767) (hj : w ≤ maxJump) (ds : List Net)
    (hd : Decodes k (first % 65536) ds) (hf : Faithful k (first % 65536) ds) (hcnt : count ds ≤ tot) (hit : InTime k r ds) :
    ∃ pkts, EndToEnd.send c pt sn0 ts0 ssrc ops = some pkts ∧
      ∀ sent, sent = (FecWriter.run s0 (writes size (List.range pkts.length))).2 → Lossy k r w (sources sent).length (repairs sent).length ds → ds.length ≤ pkts.length →
        ∃ s out, FecReader.run maxLen maxJump FecReader.St.init (ds.map (Net.call size tot sent)) = .ok (s, out) ∧ s.alive = true ∧
          out.map (fun o => content pkts o.2) = (pkts.take ds.length).map some ∧
          ∀ (per : Int) (ns : List Nat), ns.sum ≤ before pkts ds.length →
            ∃ fs q, listen per St.init (out.filterMap (fun o => content pkts o.2)) ns = .ok (fs, q) ∧
              fs.map (fun f => f.samples.length) = ns ∧
              (fs.map (·.samples)).flatten = ((Packetizer.written ops).take ns.sum).map some := by
  obtain ⟨pkts, rest, e1, e2, e3, e4⟩ := EndToEnd.send_ok c hc pt sn0 ts0 ssrc ops ht hno
  refine ⟨pkts, e1, ?_⟩
  intro sent hsent hlossy hlen
  obtain ⟨s, out, o1, o2, o3, o4⟩ := FecFlow.C124_delivers hm hv h0 hz hw hj (List.range pkts.length) hsent ds hlossy hit hd hcnt
  have hk : 0 < k := Nat.pos_of_ne_zero hv.1
  have hout : out.map (fun o => content pkts o.2) = (pkts.take ds.length).map some := by
    apply List.ext_getElem?
    intro j
    rw [List.getElem?_map, List.getElem?_map]
    by_cases hjl : j < ds.length
    · have hjp : j < pkts.length := by omega
      rw [List.getElem?_take_of_lt hjl, List.getElem?_eq_getElem hjp]
      obtain ⟨p, p1, p2⟩ := o4 j hjl
      rw [p1]
      show some (content pkts p) = some (some pkts[j])
      congr 1
      rcases p2 with ⟨f, rfl, p3, _⟩ | ⟨t, rfl, d, p3, g, p4, p5⟩
      · rw [List.getElem?_range hjp] at p3
        show pkts[f.tag]? = _
        rw [← Option.some.inj p3, List.getElem?_eq_getElem hjp]
      · have := hf d p3 (j / k) g (j % k) t p4 (Nat.mod_lt _ hk) p5
        show pkts[t]? = _
        rw [this, Nat.div_add_mod', List.getElem?_eq_getElem hjp]
    · rw [List.getElem?_eq_none (by omega), List.getElem?_eq_none (by rw [List.length_take]; omega)]
      rfl
  refine ⟨s, out, o1, o2, hout, ?_⟩
  intro per ns hns
  have hq : out.filterMap (fun o => content pkts o.2) = pkts.take ds.length := by
    have : out.filterMap (fun o => content pkts o.2) = (out.map (fun o => content pkts o.2)).filterMap id := by
      rw [List.filterMap_map]; rfl
    rw [this, hout, List.filterMap_map]
    simp
  rw [hq]
  have hchain : Chain (ts0 % m32) (pkts.take ds.length) := by
    have := chain_of (w := Packetizer.written ops) (ts0 := ts0) hspp (pkts.take ds.length) 0 (fun n p hn => by
      have hn' : pkts[n]? = some p ∧ n < ds.length := by
        rw [List.getElem?_take] at hn
        split at hn
        · exact ⟨hn, by assumption⟩
        · cases hn
      have hb : before (pkts.take ds.length) n = before pkts n := by
        unfold before
        rw [List.take_take, Nat.min_eq_left (by omega)]
      rw [hb, Nat.zero_add]
      exact e4 n p hn'.1)
    simpa using this
  have hon : On (St.init : St α) (pkts.take ds.length) (EndToEnd.stream (pkts.take ds.length)) :=
    ⟨Or.inl ⟨rfl, ts0 % m32, Nat.mod_lt _ (by decide), hchain⟩, rfl⟩
  obtain ⟨fs, q, l1, l2, l3, _⟩ := listen_on per ns hon hns
  refine ⟨fs, q, l1, l2, ?_⟩
  rw [l3]
  congr 1
  have hpre : EndToEnd.stream pkts = EndToEnd.stream (pkts.take ds.length) ++ EndToEnd.stream (pkts.drop ds.length) := by
    unfold EndToEnd.stream
    rw [← List.flatten_append, ← List.map_append, List.take_append_drop]
  rw [← e2, hpre, List.append_assoc, List.take_append_of_le_length hns]

/-! ### Concrete case -/

/-- A decoder that restores packets of blocks of two, the first block has number 65535. -/
def exNet (srcs reps : List Nat) : Net := ⟨srcs, reps, fun b => some (fun i => some ((b - 65535) * 2 + i))⟩

/-- Four packets in two blocks with a repair packet each; the second and the third packet are lost. -/
def exDs : List Net := [exNet [0] [], exNet [] [0], exNet [3] [1], exNet [] []]

/-- What the sender sends; block numbers wrap around. -/
def exSent : List FecWriter.Pkt :=
  match FecWriter.St.new 20 65535 2 1 with
  | some s => (FecWriter.run s (writes 8 (List.range EndToEnd.demoPkts.length))).2
  | none => []

/-- Samples of frames of the given sizes which the receiver plays. -/
def played (ds : List Net) (ns : List Nat) : Option (List (List (Option Nat))) :=
  match FecReader.run 20 5 FecReader.St.init (ds.map (Net.call 8 100 exSent)) with
  | .ok (_, out) =>
    match listen 5 St.init (out.filterMap (fun o => content EndToEnd.demoPkts o.2)) ns with
    | .ok (fs, _) => some (fs.map (·.samples))
    | .error _ => none
  | .error _ => none

example : (FecWriter.St.new 20 65535 2 1).isSome = true ∧ FecWriter.Valid 20 (2, 1) ∧ exDs.length ≤ EndToEnd.demoPkts.length ∧ count exDs ≤ 100 ∧
    [4, 5, 3].sum ≤ before EndToEnd.demoPkts exDs.length := by decide +kernel

example : Lossy 2 1 1 (sources exSent).length (repairs exSent).length exDs :=
  ⟨by decide +kernel, by decide +kernel, ⟨_, _, rfl, rfl⟩,
   fun j d hd => (by
    have : ∀ x ∈ exDs.zipIdx, ∀ i ∈ x.1.srcs, i / 2 ≤ x.2 / 2 + 1 ∧ x.2 / 2 ≤ i / 2 + 1 := by decide +kernel
    exact this (d, j) (List.mk_mem_zipIdx_iff_getElem?.mpr hd)),
   fun j d hd => (by
    have : ∀ x ∈ exDs.zipIdx, ∀ i ∈ x.1.reps, i / 1 ≤ x.2 / 2 + 1 ∧ x.2 / 2 ≤ i / 1 + 1 := by decide +kernel
    exact this (d, j) (List.mk_mem_zipIdx_iff_getElem?.mpr hd))⟩

example : InTime 2 1 exDs := by
  have : ∀ j < exDs.length, 1 ≤ j → 2 ≤ FecFlow.have_ 2 1 (j / 2) (exDs.take (j + 1)) := by decide +kernel
  exact fun j h1 h2 => this j h2 h1

theorem exDs_dec : ∀ d ∈ exDs, ∀ b, d.dec b = some (fun i => some ((b - 65535) * 2 + i)) := by
  intro d hd b
  simp only [exDs, List.mem_cons, List.not_mem_nil, or_false] at hd
  rcases hd with rfl | rfl | rfl | rfl <;> rfl

example : Decodes 2 (65535 % 65536) exDs ∧ Faithful 2 (65535 % 65536) exDs := by
  refine ⟨⟨fun d hd n g hg => ?_, fun j d hd => ⟨_, exDs_dec d (List.mem_of_getElem? hd) _, fun _ => rfl⟩⟩, ?_⟩
  · rw [exDs_dec d hd] at hg
    cases hg
    exact Or.inl fun _ => rfl
  · intro d hd m g i t hg _ ht
    rw [exDs_dec d hd] at hg
    cases hg
    have ht : some ((65535 % 65536 + m - 65535) * 2 + i) = some t := ht
    have := Option.some.inj ht
    omega

example : played exDs [4, 5, 3] = some [[some 1, some 2, some 3, some 4], [some 5, some 6, some 7, some 8, some 9], [some 10, some 11, some 12]] := by
  decide +kernel

/-- C126 needs `k` packets of every block: when the second packet and the repair packet of its block are lost, there is silence in its place. -/
theorem C126_lost_fails : played [exNet [0] [], exNet [2, 3] [1], exNet [] []] [4, 5, 3] =
    some [[some 1, some 2, some 3, none], [none, none, some 7, some 8, some 9], [some 10, some 11, some 12]] := by
  decide +kernel

end Verif.LossyAudio
