import Verif.LossyAudio.Spec

/-!
# The depacketizer on a stream without gaps
-/

namespace Verif.LossyAudio

variable {α : Type}

open Depacketizer (St Pkt Frame Fault Info m32)
open EndToEnd (stream)

/-- Packets follow each other without gaps, the first has timestamp `ts`. -/
def Chain : Nat → List (Pkt α) → Prop
  | _, [] => True
  | ts, p :: q => p.ts = ts ∧ 0 < p.samples.length ∧ p.samples.length < 2147483648 ∧ Chain ((ts + p.samples.length) % m32) q

/-- State of the depacketizer on such a stream: `w` is what is not played yet. -/
def On (s : St α) (q : List (Pkt α)) (w : List α) : Prop :=
  match s.pkt with
  | some (dp, rem) => s.first = false ∧ s.ts < m32 ∧ dp = s.ts ∧ Chain ((s.ts + rem.length) % m32) q ∧ w = rem ++ stream q
  | none => (s.first = true ∧ (∃ ts < m32, Chain ts q) ∨ s.first = false ∧ s.ts < m32 ∧ Chain s.ts q) ∧ w = stream q

theorem sdiff_self (a : Nat) : Depacketizer.sdiff a a = 0 := by unfold Depacketizer.sdiff; omega

theorem sdiff_end {a n : Nat} (ha : a < m32) (h0 : 0 < n) (h1 : n < 2147483648) : Depacketizer.sdiff a ((a + n) % m32) < 0 := by
  unfold Depacketizer.sdiff
  simp only [m32] at *
  omega

theorem stream_cons (p : Pkt α) (q : List (Pkt α)) : stream (p :: q) = p.samples ++ stream q := by simp [stream]

theorem accept_on (per : Int) (s : St α) (p : Pkt α) (h : Depacketizer.startTs s p = p.ts) :
    Depacketizer.accept per s p = .ok { s with ts := p.ts, first := false, validCts := Depacketizer.nowValid s p, nextCts := p.cts, pkt := some (p.ts, p.samples) } := by
  unfold Depacketizer.accept
  rw [h, sdiff_self, if_neg (by omega)]

/-- After `update_packet_` there is a packet with samples, or the one that was there before. -/
theorem update_on (per : Int) {s : St α} {q : List (Pkt α)} {w : List α} (h : On s q w) (hw : w ≠ []) :
    ∃ s' q' d rem, Depacketizer.update per s q = .ok (s', q', d) ∧ s'.pkt = some (s'.ts, rem) ∧ On s' q' w ∧
      (s.pkt = none → rem ≠ [] ∧ q.length = q'.length + 1) ∧ (s.pkt ≠ none → q' = q) ∧ ∃ a, q = a ++ q' := by
  unfold On at h
  cases hp : s.pkt with
  | some x =>
    obtain ⟨dp, rem⟩ := x
    rw [hp] at h
    obtain ⟨h1, h2, h3, h4, h5⟩ := h
    refine ⟨s, q, 0, rem, by simp [Depacketizer.update, hp], by rw [hp, h3], ?_, fun h => (by cases h), fun _ => rfl, [], rfl⟩
    unfold On; rw [hp]; exact ⟨h1, h2, h3, h4, h5⟩
  | none =>
    rw [hp] at h
    obtain ⟨h1, h2⟩ := h
    cases q with
    | nil => exact absurd (by rw [h2]; rfl) hw
    | cons p q =>
      have key : ∃ ts, ts < m32 ∧ Chain ts (p :: q) ∧ (s.first = true ∨ s.first = false ∧ s.ts = ts) := by
        rcases h1 with ⟨a, ts, b, c⟩ | ⟨a, b, c⟩
        · exact ⟨ts, b, c, Or.inl a⟩
        · exact ⟨s.ts, b, c, Or.inr ⟨a, rfl⟩⟩
      obtain ⟨ts, k1, ⟨c1, c2, c3, c4⟩, k3⟩ := key
      have hf : Depacketizer.fetch s.first s.ts s.pos (p :: q) = ([(s.pos, p)], some p, q, 0) := by
        rw [Depacketizer.fetch]
        rcases k3 with k3 | ⟨k3, k4⟩
        · rw [k3]; rfl
        · rw [k3, if_neg (by simp), if_pos]
          rw [c1, k4]; exact sdiff_end k1 c2 c3
      have hst : Depacketizer.startTs s p = p.ts := by
        unfold Depacketizer.startTs
        rcases k3 with k3 | ⟨k3, k4⟩
        · rw [k3]; rfl
        · rw [k3, k4, c1]; rfl
      refine ⟨{ s with got := s.got ++ [(s.pos, p)], ts := p.ts, first := false, validCts := Depacketizer.nowValid s p, nextCts := p.cts, pkt := some (p.ts, p.samples) },
        q, 0, p.samples, ?_, rfl, ?_, fun _ => ⟨?_, by simp⟩, fun h => absurd rfl h, [p], rfl⟩
      · unfold Depacketizer.update
        rw [hp, if_neg (by simp), hf]
        simp only
        rw [accept_on per _ p (by exact hst)]
        rfl
      · unfold On
        exact ⟨rfl, by rw [c1]; exact k1, rfl, by rw [c1]; exact c4, by rw [h2, stream_cons]⟩
      · intro h0
        rw [h0] at c2; exact absurd c2 (by simp)

/-- One part of a frame is read. -/
theorem part_on (per : Int) {s : St α} {q : List (Pkt α)} {w : List α} {rem : List α} (h : On s q w) (hp : s.pkt = some (s.ts, rem)) {n : Nat} (hn : 0 < n)
    (info : Info) : ∃ s' info', Depacketizer.readPart per s q n info = .ok (s', q, (rem.take n).map some, info') ∧
      On s' q (w.drop (min n rem.length)) ∧ w.take (min n rem.length) = rem.take n ∧ (s'.pkt ≠ none → n ≤ rem.length) := by
  unfold On at h
  rw [hp] at h
  obtain ⟨h1, h2, h3, h4, h5⟩ := h
  refine ⟨_, _, by unfold Depacketizer.readPart; rw [hp]; simp only [ne_eq, not_true_eq_false, if_false]; rfl, ?_, ?_, ?_⟩
  · unfold On Depacketizer.play Depacketizer.St.move
    by_cases hl : n ≤ rem.length
    · rw [Nat.min_eq_left hl]
      simp only [h1, Nat.lt_irrefl, if_false]
      refine ⟨trivial, Nat.mod_lt _ (by decide), trivial, ?_, ?_⟩
      · rw [List.length_drop]
        have : ((s.ts + n) % m32 + (rem.length - n)) % m32 = (s.ts + rem.length) % m32 := by
          rw [Nat.mod_add_mod]; congr 1; omega
        rw [this]; exact h4
      · rw [h5, List.drop_append_of_le_length hl]
    · rw [Nat.min_eq_right (by omega)]
      have : rem.length < n := by omega
      simp only [h1, this, if_true, Bool.false_eq_true, if_false]
      refine ⟨Or.inr ⟨trivial, Nat.mod_lt _ (by decide), h4⟩, ?_⟩
      rw [h5, List.drop_left']
      rfl
  · rw [h5]
    by_cases hl : n ≤ rem.length
    · rw [Nat.min_eq_left hl, List.take_append_of_le_length hl]
    · rw [Nat.min_eq_right (by omega), List.take_left' rfl, List.take_of_length_le (by omega)]
  · unfold Depacketizer.play
    intro hne
    by_contra hl
    apply hne
    simp only
    rw [if_pos (by omega)]

/-- The loop of `read_frame_`. -/
theorem loop_on (per : Int) (fuel : Nat) : ∀ {s : St α} {q : List (Pkt α)} {w : List α} (n : Nat) (info : Info), On s q w → n ≤ w.length →
    2 * q.length + n + (if s.pkt.isSome then 1 else 0) < fuel →
    ∃ s' q' info', Depacketizer.loop per fuel s q n info = .ok (s', q', (w.take n).map some, info') ∧ On s' q' (w.drop n) ∧
      ∃ a, q = a ++ q' := by
  induction fuel with
  | zero => intro s q w n info _ _ h; omega
  | succ fuel ih =>
    intro s q w n info h hn hf
    rw [Depacketizer.loop]
    by_cases h0 : n = 0
    · subst h0
      rw [if_pos rfl]
      exact ⟨s, q, info, by simp, by simpa using h, [], rfl⟩
    · rw [if_neg h0]
      have hw : w ≠ [] := by intro hc; rw [hc] at hn; simp at hn; omega
      obtain ⟨s1, q1, d, rem, u1, u2, u3, u4, u5, u6⟩ := update_on per h hw
      obtain ⟨s2, info2, p1, p2, p3, p4⟩ := part_on per u3 u2 (by omega : 0 < n) { info with dropped := info.dropped + d }
      have hr : Depacketizer.readSamples per s q n info = .ok (s2, q1, (rem.take n).map some, info2) := by
        unfold Depacketizer.readSamples
        rw [u1]
        exact p1
      rw [hr]
      have hlen : ((rem.take n).map some).length = min n rem.length := by simp
      obtain ⟨a1, ha1⟩ := u6
      have hle : q1.length ≤ q.length := by rw [ha1]; simp
      obtain ⟨s3, q3, info3, l1, l2, a2, ha2⟩ := ih (s := s2) (q := q1) (n - min n rem.length) info2 p2
        (by rw [List.length_drop]; omega)
        (by
          by_cases hp2 : s2.pkt = none
          · rw [hp2]
            simp only [Option.isSome_none, Bool.false_eq_true, if_false]
            cases hp : s.pkt with
            | none =>
              have hu := u4 hp
              rw [hp] at hf
              simp at hf
              omega
            | some x =>
              rw [hp] at hf
              simp at hf
              omega
          · have := p4 hp2
            rw [Nat.min_eq_left this, Nat.sub_self]
            cases hp : s.pkt with
            | none =>
              have hu := u4 hp
              split <;> omega
            | some x =>
              rw [hp] at hf
              simp at hf
              split <;> omega)
      refine ⟨s3, q3, info3, ?_, ?_, a1 ++ a2, by rw [ha1, ha2, List.append_assoc]⟩
      · simp only [Except.bind, hlen]
        rw [l1]
        simp only [Except.bind, ← List.map_append]
        rw [← p3, ← List.take_add]
        have : min n rem.length + (n - min n rem.length) = n := by omega
        rw [this]
      · rw [List.drop_drop] at l2
        have : min n rem.length + (n - min n rem.length) = n := by omega
        rwa [this] at l2

/-- Frames of any sizes are read. -/
theorem listen_on (per : Int) (ns : List Nat) : ∀ {s : St α} {q : List (Pkt α)} {w : List α}, On s q w → ns.sum ≤ w.length →
    ∃ fs q', listen per s q ns = .ok (fs, q') ∧ fs.map (fun f => f.samples.length) = ns ∧
      (fs.map (·.samples)).flatten = (w.take ns.sum).map some ∧ ∃ a, q = a ++ q' := by
  induction ns with
  | nil => intro s q w _ _; exact ⟨[], q, rfl, rfl, by simp, [], rfl⟩
  | cons n ns ih =>
    intro s q w h hl
    rw [List.sum_cons] at hl
    obtain ⟨s1, q1, info, r1, r2, a1, ha1⟩ := loop_on per (2 * q.length + n + 2) n ⟨0, 0, 0, 0⟩ h (by omega) (by split <;> omega)
    obtain ⟨fs, q2, i1, i2, i3, a2, ha2⟩ := ih r2 (by rw [List.length_drop]; omega)
    rw [listen, Depacketizer.read, r1]
    simp only [Except.bind, i1]
    refine ⟨_, q2, rfl, ?_, ?_, a1 ++ a2, by rw [ha1, ha2, List.append_assoc]⟩
    · rw [List.map_cons, i2]
      simp; omega
    · rw [List.map_cons, List.flatten_cons, i3, List.sum_cons, ← List.map_append, ← List.take_add]

/-- Packets of the sender are such a stream. -/
theorem chain_of {w : List α} {ts0 spp : Nat} (hs : spp < 2147483648) : ∀ (pkts : List (Pkt α)) (b : Nat),
    (∀ n p, pkts[n]? = some p → EndToEnd.At w ts0 p (b + EndToEnd.before pkts n) ∧ p.samples.length ≤ spp) → Chain ((ts0 + b) % m32) pkts := by
  intro pkts
  induction pkts with
  | nil => intro b _; trivial
  | cons p q ih =>
    intro b h
    obtain ⟨h1, h2⟩ := h 0 p rfl
    have hb0 : EndToEnd.before (p :: q) 0 = 0 := by simp [EndToEnd.before, stream]
    rw [hb0, Nat.add_zero] at h1
    refine ⟨h1.ts, h1.ne, by omega, ?_⟩
    have := ih (b + p.samples.length) (fun n x hx => by
      have := h (n + 1) x hx
      have e : EndToEnd.before (p :: q) (n + 1) = p.samples.length + EndToEnd.before q n := by
        simp [EndToEnd.before, stream]
      rw [e, ← Nat.add_assoc] at this
      exact this)
    rw [Nat.mod_add_mod]
    rw [← Nat.add_assoc] at this
    exact this

end Verif.LossyAudio
