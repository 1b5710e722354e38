import Verif.FecReader.RecoverRun
import Verif.FecReader.Props

/-!
# FEC reader: properties of recovery (C123)

Which payload a restored packet has is decided by the decoder (C32 says that a restored packet takes its place in the block).
-/

namespace Verif.FecReader

/-- Position numbers of the packets after `x`. -/
def after (k : Nat) (x : Nat × Nat) : Nat := x.1 * k + x.2 + 1

/-- State at any moment of a uniform and tidy history. -/
theorem run_parts {k r n maxLen maxJump : Nat} (hk0 : 0 < k) {h0 h2 : List Call} {c0 : Call} (hu : Uniform2 k r n (h0 ++ c0 :: h2))
    (ht : Tidy2 maxLen maxJump St.init (h0 ++ c0 :: h2)) {s0 s s' : St} {o1 o2 : List (Option (Nat × Nat) × Pkt)} {x : Nat × Nat} {p : Pkt}
    (hr1 : run maxLen maxJump St.init h0 = .ok (s0, o1))
    (hr : read ⟨maxLen, maxJump, c0.alloc, c0.dec⟩ s0 c0.srcs c0.reps = .ok (s, some (some x, p)))
    (hr2 : run maxLen maxJump s h2 = .ok (s', o2)) (ha : s'.alive = true) :
    Inv (anyCtx maxLen) s ∧ s.started = true ∧ Hom2 k r n s ∧ (s.blk, s.nxt) = posOfNum k (after k x) ∧ Tidy2 maxLen maxJump s h2 ∧
    (x.2 + 1 = k → Att k s) ∧
    (s0.started = false → Att k s ∧ x.2 = 0 ∧ ∀ b i, Arrives c0 x.1 b i → s.blk ≤ b → Sym k s b i) := by
  have hsa : s.alive = true := run_alive hr2 ha
  obtain ⟨u1, u2⟩ := hu c0 (List.mem_append_right _ List.mem_cons_self)
  have u2' : ∀ x ∈ c0.reps, RegRep k n x.1 := fun x hx => (u2 x hx).1
  have s1 : ∀ x ∈ c0.srcs, SrcOk (anyCtx maxLen) x.1 := fun x hx => ⟨trivial, (u1 x hx).2.2.2⟩
  have s2 : ∀ x ∈ c0.reps, RepOk (anyCtx maxLen) x.1 := fun x hx => ⟨(u2' x hx).2.2, fun _ => trivial, fun _ => trivial⟩
  have hs0 : s0.alive = true := by
    cases hs : s0.alive with
    | true => rfl
    | false =>
      unfold read at hr
      rw [if_pos (by rw [hs]; rfl)] at hr
      cases hr
  have hu0 : Uniform2 k r n h0 := fun d hd => hu d (List.mem_append_left _ hd)
  obtain ⟨hi, hk, ht2⟩ := known_run (k := k) (n := n) h0 (c0 :: h2) St.init none (inv_init _) (known_init k n) hu0.toUniform (ht.toTidy _) _ hr1
  have hrep0 : RepInv k r n St.init := ⟨fun f hf => (by cases hf), fun c => (by cases c), fun _ x hx => (by cases hx)⟩
  obtain ⟨hp, ht3⟩ := keep_run (k := k) (r := r) (n := n) hk0 h0 (c0 :: h2) St.init none (inv_init _) (known_init k n) hrep0 hu0 ht _ hr1 hs0
  have hi' := inv_read (any_env maxLen maxJump c0) hi s1 s2
  rw [hr] at hi'
  have hk' := read_known (any_env maxLen maxJump c0) hi hk u1 u2' s1 s2 hr (fun hs => (ht3.1 hs).1)
  obtain ⟨q1, q2⟩ := read_keep (any_env maxLen maxJump c0) hi hk hp hk0 u1 u2 hr hsa
  obtain ⟨q3, q4⟩ := q2 x p rfl
  rcases hk' hsa with ⟨k1, _⟩ | ⟨y, k1, k2, k3, k4, k5⟩
  · cases k1
  cases k1
  refine ⟨hi'.1, k2, q1.hom k3, ?_, ht3.2 _ hr, q3, q4⟩
  rw [k5, after, ← succ_num hk0]
  have hx2 : x.2 < k := k4
  have h1 : posOfNum k (x.1 * k + x.2) = x := by
    unfold posOfNum
    obtain ⟨d1, d2⟩ := (Nat.div_mod_unique (d := x.1) (c := x.2) (a := x.1 * k + x.2) hk0).mpr ⟨by rw [Nat.mul_comm]; omega, hx2⟩
    rw [d1, d2]
  rw [h1]

/-- C123: decoding starts in a call, with a packet of position `x`. If afterwards, whenever a packet of a block is to be returned, at least
`k` different packets of this block (source or repair, in any combination) have arrived in this call or since, and the decoder can restore
a block from `k` packets, then every call returns a packet, and these are all packets of all blocks, in order, with none left out. -/
theorem C123_recovers (maxLen maxJump k r n : Nat) (hk0 : 0 < k) (h0 h2 : List Call) (c0 : Call) (hu : Uniform2 k r n (h0 ++ c0 :: h2))
    (ht : Tidy2 maxLen maxJump St.init (h0 ++ c0 :: h2)) {s0 s s' : St} {o1 o2 : List (Option (Nat × Nat) × Pkt)} {x : Nat × Nat} {p : Pkt}
    (hr1 : run maxLen maxJump St.init h0 = .ok (s0, o1)) (hst : s0.started = false)
    (hr : read ⟨maxLen, maxJump, c0.alloc, c0.dec⟩ s0 c0.srcs c0.reps = .ok (s, some (some x, p)))
    (hr2 : run maxLen maxJump s h2 = .ok (s', o2)) (ha : s'.alive = true) (he : Enough k (after k x) (Arrives c0 x.1) h2) :
    o2.map (·.1) = (List.range h2.length).map (fun j => some ((after k x + j) / k, (after k x + j) % k)) := by
  obtain ⟨p1, p2, p3, p4, p5, _, p6⟩ := run_parts hk0 hu ht hr1 hr hr2 ha
  obtain ⟨p7, _, p8⟩ := p6 hst
  have hb : s.blk = after k x / k := congrArg Prod.fst p4
  exact rec_run hk0 h2 (after k x) s p1 p2 p3 p7 p4 (fun d hd => hu d (List.mem_append_right _ (List.mem_cons_of_mem _ hd))) p5
    (he.mono _ (fun b i hbi hs => p8 b i hs (by rw [hb]; exact hbi))) _ hr2 ha

/-- C123: the same holds after the last packet of any block was returned, whatever was lost before: packets that are in the queues or in
the block then, and packets that arrive later, count. -/
theorem C123_resumes (maxLen maxJump k r n : Nat) (hk0 : 0 < k) (h0 h2 : List Call) (c0 : Call) (hu : Uniform2 k r n (h0 ++ c0 :: h2))
    (ht : Tidy2 maxLen maxJump St.init (h0 ++ c0 :: h2)) {s0 s s' : St} {o1 o2 : List (Option (Nat × Nat) × Pkt)} {x : Nat × Nat} {p : Pkt}
    (hr1 : run maxLen maxJump St.init h0 = .ok (s0, o1))
    (hr : read ⟨maxLen, maxJump, c0.alloc, c0.dec⟩ s0 c0.srcs c0.reps = .ok (s, some (some x, p))) (hx : x.2 + 1 = k)
    (hr2 : run maxLen maxJump s h2 = .ok (s', o2)) (ha : s'.alive = true) (he : Enough k (after k x) (Sym k s) h2) :
    o2.map (·.1) = (List.range h2.length).map (fun j => some ((after k x + j) / k, (after k x + j) % k)) := by
  obtain ⟨p1, p2, p3, p4, p5, p6, _⟩ := run_parts hk0 hu ht hr1 hr hr2 ha
  exact rec_run hk0 h2 (after k x) s p1 p2 p3 (p6 hx) p4 (fun d hd => hu d (List.mem_append_right _ (List.mem_cons_of_mem _ hd))) p5 he _ hr2 ha

/-- Decides `Tidy2`. -/
def tidy2B (maxLen maxJump : Nat) : St → List Call → Bool
  | _, [] => true
  | s, c :: h => (!s.started || (decide (Sorted s.sbn (fetch c.srcs s.srcQ).1) && decide (Sorted s.sbn (fetch c.reps s.repQ).1))) &&
      match read ⟨maxLen, maxJump, c.alloc, c.dec⟩ s c.srcs c.reps with
      | .ok r => tidy2B maxLen maxJump r.1 h
      | .error _ => true

theorem tidy2_of (maxLen maxJump : Nat) (h : List Call) : ∀ s, tidy2B maxLen maxJump s h = true → Tidy2 maxLen maxJump s h := by
  induction h with
  | nil => intro s _; trivial
  | cons c h ih =>
    intro s hb
    simp only [tidy2B, Bool.and_eq_true, Bool.or_eq_true, Bool.not_eq_true', decide_eq_true_eq] at hb
    refine ⟨fun hs => hb.1.resolve_left (by rw [hs]; decide), fun r hr => ih r.1 ?_⟩
    have := hb.2
    rw [hr] at this
    exact this

/-- A decoder that always succeeds, and enough memory. -/
def exCall (srcs reps : List (Fec × Nat)) : Call := ⟨srcs, reps, fun _ => some (fun m => some (100 + m)), fun _ => true⟩

/-- Packets in front of the start. -/
def exRec0 : List Call := [exCall [exS 7 1] [], exCall [exS 7 2] [exR 7 3]]

/-- The start: in block 8 packet 1 is lost. -/
def exRecC : Call := exCall [exS 8 0, exS 8 2] [exR 8 3]

/-- In block 9 packets 0 and 2 are lost; in block 10 nothing. -/
def exRec2 : List Call :=
  [exCall [] [], exCall [] [], exCall [exS 9 1] [exR 9 3, exR 9 4], exCall [] [], exCall [] [], exCall [exS 10 0, exS 10 1, exS 10 2] []]

/-- Result of the call that starts decoding. -/
def startOf : Option (St × Option (Option (Nat × Nat) × Pkt)) :=
  match run 20 100 St.init exRec0 with
  | .ok (s0, _) => if s0.started then none else
    match read ⟨20, 100, exRecC.alloc, exRecC.dec⟩ s0 exRecC.srcs exRecC.reps with
    | .ok u => some u
    | .error _ => none
  | .error _ => none

example : Uniform2 3 2 8 (exRec0 ++ exRecC :: exRec2) := by
  unfold Uniform2 Reg Reg2 RegRep exRec0 exRecC exRec2 exCall; decide +kernel

example : Tidy2 20 100 St.init (exRec0 ++ exRecC :: exRec2) := tidy2_of _ _ _ _ (by decide +kernel)

example : startOf.map (·.2) = some (some (some (8, 0), .recv (exS 8 0).1)) ∧
    (startOf.map (fun u => outsOf (run 20 100 u.1 exRec2))) = some (some
      [(some (8, 1), .rest 101 8 1), (some (8, 2), .recv (exS 8 2).1), (some (9, 0), .rest 100 9 0), (some (9, 1), .recv (exS 9 1).1),
       (some (9, 2), .rest 102 9 2), (some (10, 0), .recv (exS 10 0).1)]) := by decide +kernel

example : Enough 3 (after 3 (8, 0)) (Arrives exRecC 8) exRec2 := by
  have a0 : Arrives exRecC 8 8 0 := ⟨(exS 8 0).1, 100, by decide +kernel⟩
  have a2 : Arrives exRecC 8 8 2 := ⟨(exS 8 2).1, 100, by decide +kernel⟩
  have a3 : Arrives exRecC 8 8 3 := ⟨(exR 8 3).1, 100, by decide +kernel⟩
  have b1 : Arrives (exCall [exS 9 1] [exR 9 3, exR 9 4]) 9 9 1 := ⟨(exS 9 1).1, 100, by decide +kernel⟩
  have b3 : Arrives (exCall [exS 9 1] [exR 9 3, exR 9 4]) 9 9 3 := ⟨(exR 9 3).1, 100, by decide +kernel⟩
  have b4 : Arrives (exCall [exS 9 1] [exR 9 3, exR 9 4]) 9 9 4 := ⟨(exR 9 4).1, 100, by decide +kernel⟩
  have c0 : Arrives (exCall [exS 10 0, exS 10 1, exS 10 2] []) 10 10 0 := ⟨(exS 10 0).1, 100, by decide +kernel⟩
  have c1 : Arrives (exCall [exS 10 0, exS 10 1, exS 10 2] []) 10 10 1 := ⟨(exS 10 1).1, 100, by decide +kernel⟩
  have c2 : Arrives (exCall [exS 10 0, exS 10 1, exS 10 2] []) 10 10 2 := ⟨(exS 10 2).1, 100, by decide +kernel⟩
  refine ⟨⟨[0, 2, 3], by decide, by decide, ?_⟩, ⟨_, rfl, fun _ => rfl⟩, ⟨[0, 2, 3], by decide, by decide, ?_⟩, ⟨_, rfl, fun _ => rfl⟩, ⟨[1, 3, 4], by decide, by decide, ?_⟩, ⟨_, rfl, fun _ => rfl⟩,
    ⟨[1, 3, 4], by decide, by decide, ?_⟩, ⟨_, rfl, fun _ => rfl⟩, ⟨[1, 3, 4], by decide, by decide, ?_⟩, ⟨_, rfl, fun _ => rfl⟩, ⟨[0, 1, 2], by decide, by decide, ?_⟩, ⟨_, rfl, fun _ => rfl⟩, trivial⟩
  all_goals
    intro i hi
    simp only [List.mem_cons, List.not_mem_nil, or_false] at hi
    rcases hi with rfl | rfl | rfl
  exacts [Or.inl a0, Or.inl a2, Or.inl a3, Or.inl (Or.inl a0), Or.inl (Or.inl a2), Or.inl (Or.inl a3), Or.inr b1, Or.inr b3, Or.inr b4,
    Or.inl (Or.inr b1), Or.inl (Or.inr b3), Or.inl (Or.inr b4), Or.inl (Or.inl (Or.inr b1)), Or.inl (Or.inl (Or.inr b3)), Or.inl (Or.inl (Or.inr b4)),
    Or.inr c0, Or.inr c1, Or.inr c2]

/-- C123 fails when the repair packet comes too late, even though the lost packet was not yet returned or skipped when the call was made
before: with packet 1 of block 7 lost and packet 2 there, the call returns packet 2, and the repair packet that arrives in the next call
restores nothing. -/
theorem C123_late_fails : outsOf (run 20 100 St.init [exCall [exS 7 0, exS 7 2] [], exCall [] [], exCall [exS 8 0] [exR 7 3]]) =
    some [(some (7, 0), .recv (exS 7 0).1), (some (7, 2), .recv (exS 7 2).1), (some (8, 0), .recv (exS 8 0).1)] := by decide +kernel

/-- C123 fails when the decoder does not restore the packet although `k` packets of the block arrived: nothing is returned, and the decoder
is not asked again in later calls, until another packet of the block arrives. -/
theorem C123_once_fails : outsOf (run 20 100 St.init
    [exCall [exS 7 0] [exR 7 3, exR 7 4], ⟨[], [], fun _ => some (fun _ => none), fun _ => true⟩, exCall [] [], exCall [] []]) =
    some [(some (7, 0), .recv (exS 7 0).1)] ∧
  outsOf (run 20 100 St.init [exCall [exS 7 0] [exR 7 3, exR 7 4], exCall [] []]) = some [(some (7, 0), .recv (exS 7 0).1), (some (7, 1), .rest 101 7 1)] := by
  decide +kernel

end Verif.FecReader
