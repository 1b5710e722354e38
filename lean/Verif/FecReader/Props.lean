import Verif.FecReader.Complete

/-!
# FEC reader: properties
-/

namespace Verif.FecReader

/-- Facts about a list of returned packets, from a state. -/
structure Outs (c : Ctx) (s : St) (out : List (Option (Nat × Nat) × Pkt)) : Prop where
  split : ∃ l1 l2, out = l1 ++ l2 ∧ (∀ x ∈ l1, x.1 = none) ∧ (∀ x ∈ l2, x.1.isSome = true) ∧ (s.started = true → l1 = [])
  pair : (out.filterMap (·.1)).Pairwise Before
  after : s.started = true → ∀ x ∈ out.filterMap (·.1), NotAfter (s.blk, s.nxt) x
  good : ∀ x p, (some x, p) ∈ out → Good c x p
  fwd : ∀ p, (none, p) ∈ out → ∃ f, p = .recv f ∧ c.R f

theorem NotAfter.trans {a b d : Nat × Nat} (h1 : NotAfter a b) (h2 : NotAfter b d) : NotAfter a d := by
  unfold NotAfter at *; omega

theorem NotAfter.of_before {a b d : Nat × Nat} (h1 : Before a b) (h2 : NotAfter b d) : Before a d := by
  unfold NotAfter at *; unfold Before at *; omega

theorem Before.notAfter {a b : Nat × Nat} (h : Before a b) : NotAfter a b := by
  unfold NotAfter; unfold Before at h; omega

theorem run_outs {c : Ctx} {maxJump : Nat} (h : List Call) :
    (∀ k ∈ h, EnvOk c ⟨c.maxLen, maxJump, k.alloc, k.dec⟩ ∧ (∀ x ∈ k.srcs, SrcOk c x.1) ∧ (∀ x ∈ k.reps, RepOk c x.1)) →
    ∀ s, Inv c s → Sat c.A (fun r => Inv c r.1 ∧ Outs c s r.2) (run c.maxLen maxJump s h) := by
  induction h with
  | nil =>
    intro _ s hs
    exact ⟨hs, ⟨[], [], rfl, (fun x hx => by cases hx), (fun x hx => by cases hx), fun _ => rfl⟩, List.Pairwise.nil, (fun _ x hx => by cases hx), (fun x p hx => by cases hx), fun p hx => by cases hx⟩
  | cons k h ih =>
    intro hk s hs
    obtain ⟨k1, k2, k3⟩ := hk k List.mem_cons_self
    simp only [run]
    refine (inv_read k1 hs k2 k3).bind ?_
    intro r hr
    refine (ih (fun x hx => hk x (List.mem_cons_of_mem _ hx)) r.1 hr.1).bind ?_
    intro r' hr'
    refine ⟨hr'.1, ?_⟩
    obtain ⟨⟨l1, l2, o1, o2, o3, o4⟩, o5, o6, o7, o8⟩ := hr'.2
    have h3 := hr.2.2
    cases hr2 : r.2 with
    | none =>
      rw [hr2] at h3
      exact ⟨⟨l1, l2, o1, o2, o3, fun hst => o4 (hr.2.1 hst)⟩, o5, fun hst x hx => (h3 hst).trans (o6 (hr.2.1 hst) x hx), o7, o8⟩
    | some y =>
      obtain ⟨y1, y2⟩ := y
      rw [hr2] at h3
      cases y1 with
      | none =>
        obtain ⟨e1, e2, f, e3, e4⟩ := h3
        refine ⟨⟨(none, y2) :: l1, l2, by show (none, y2) :: r'.2 = _; rw [o1]; rfl, ?_, o3, fun hst => by rw [e1] at hst; cases hst⟩, o5, (fun hst => by rw [e1] at hst; cases hst), ?_, ?_⟩
        · intro x hx
          rcases List.mem_cons.mp hx with hx | hx
          · rw [hx]
          · exact o2 x hx
        · intro x p hx
          rcases List.mem_cons.mp hx with hx | hx
          · cases hx
          · exact o7 x p hx
        · intro p hx
          rcases List.mem_cons.mp hx with hx | hx
          · injection hx with _ hx
            exact ⟨f, hx.trans e3, e4⟩
          · exact o8 p hx
      | some z =>
        obtain ⟨e1, e2, e3, e4⟩ := h3
        have hl1 := o4 e1
        refine ⟨⟨[], (some z, y2) :: l2, by show (some z, y2) :: r'.2 = _; rw [o1, hl1]; rfl, (fun x hx => by cases hx), ?_, fun _ => rfl⟩, ?_, ?_, ?_, ?_⟩
        · intro x hx
          rcases List.mem_cons.mp hx with hx | hx
          · rw [hx]; rfl
          · exact o3 x hx
        · show (z :: r'.2.filterMap (·.1)).Pairwise Before
          exact List.Pairwise.cons (fun x hx => NotAfter.of_before e3 (o6 e1 x hx)) o5
        · intro hst x hx
          have hx : x ∈ z :: r'.2.filterMap (·.1) := hx
          rcases List.mem_cons.mp hx with hx | hx
          · rw [hx]; exact e2 hst
          · exact (e2 hst).trans (e3.notAfter.trans (o6 e1 x hx))
        · intro x p hx
          rcases List.mem_cons.mp hx with hx | hx
          · injection hx with hx1 hx2
            rw [Option.some.inj hx1, hx2]; exact e4
          · exact o7 x p hx
        · intro p hx
          rcases List.mem_cons.mp hx with hx | hx
          · cases hx
          · exact o8 p hx

theorem inv_init (c : Ctx) : Inv c St.init := by
  refine ⟨rfl, ?_, ?_, ?_, ?_, ?_, ?_, ?_, ?_, ?_, ?_, ?_⟩
  · intro f hf; cases hf
  · intro f hf; cases hf
  · intro _; exact ⟨(fun x hx => by cases hx), rfl⟩
  · intro _ x hx; cases hx
  · intro _; exact ⟨(fun x hx => by cases hx), fun x hx => by cases hx⟩
  · intro hc; cases hc
  · intro i p hp; simp [St.init] at hp
  · intro f hf; cases hf
  · intro hc; cases hc
  · intro hc; cases hc
  · intro _; exact ⟨(fun x hx => by cases hx), (fun x hx => by cases hx), rfl⟩

/-- C32: whatever arrives, in any order, whatever the decoder restores and whichever allocations fail (as long as the process is not
aborted, see C33): packets returned before decoding starts are received ones; after that packets are returned in strictly increasing
order of positions, so every position at most once, and the packet returned for a position was received with these block and packet
numbers or restored by the decoder for this position. -/
theorem C32_order (maxLen maxJump : Nat) (h : List Call) (hw : Wire h) {s : St} {out : List (Option (Nat × Nat) × Pkt)}
    (hr : run maxLen maxJump St.init h = .ok (s, out)) :
    (∃ l1 l2, out = l1 ++ l2 ∧ (∀ x ∈ l1, x.1 = none ∧ ∃ f, x.2 = .recv f ∧ Arrived h f) ∧ (∀ x ∈ l2, ∃ a, x.1 = some a ∧ Belongs h a x.2)) ∧
    (out.filterMap (·.1)).Pairwise Before := by
  obtain ⟨c, hc⟩ : ∃ c : Ctx, c = ⟨fun _ => True, Arrived h, Restored h, maxLen⟩ := ⟨_, rfl⟩
  have key := run_outs (c := c) (maxJump := maxJump) h (by
    intro k hk
    rw [hc]
    refine ⟨⟨rfl, fun b g n t h1 h2 => ⟨k, hk, g, h1, h2⟩, fun _ _ _ => Or.inl trivial⟩, ?_, ?_⟩
    · intro x hx; exact ⟨⟨k, hk, x.2, hx⟩, (hw k hk).1 x hx⟩
    · intro x hx; exact ⟨(hw k hk).2 x hx, fun _ => trivial, fun _ => trivial⟩) St.init (inv_init c)
  have e1 : c.maxLen = maxLen := by rw [hc]
  rw [e1, hr] at key
  obtain ⟨_, ⟨l1, l2, o1, o2, o3, _⟩, o5, _, o7, o8⟩ := key
  have o1 : out = l1 ++ l2 := o1
  refine ⟨⟨l1, l2, o1, ?_, ?_⟩, o5⟩
  · intro x hx
    refine ⟨o2 x hx, ?_⟩
    obtain ⟨x1, x2⟩ := x
    have hx1 : x1 = none := o2 _ hx
    rw [hx1] at hx
    obtain ⟨f, f1, f2⟩ := o8 x2 (by rw [o1]; exact List.mem_append_left _ hx)
    rw [hc] at f2
    exact ⟨f, f1, f2⟩
  · intro x hx
    obtain ⟨x1, x2⟩ := x
    have h1 := o3 _ hx
    cases x1 with
    | none => cases h1
    | some a =>
      refine ⟨a, rfl, ?_⟩
      have := o7 a x2 (by rw [o1]; exact List.mem_append_right _ hx)
      rw [hc] at this
      cases x2 with
      | recv f => exact this
      | rest t b p => exact this

theorem run_first {c : Ctx} {maxJump : Nat} (h : List Call) :
    (∀ k ∈ h, EnvOk c ⟨c.maxLen, maxJump, k.alloc, k.dec⟩ ∧ (∀ x ∈ k.srcs, SrcOk c x.1) ∧ (∀ x ∈ k.reps, RepOk c x.1)) →
    ∀ s, Inv c s → s.started = false → ∀ r, run c.maxLen maxJump s h = .ok r → ∀ x, (r.2.filterMap (·.1)).head? = some x → x.2 = 0 := by
  induction h with
  | nil =>
    intro _ s _ _ r hr x hx
    cases hr
    cases hx
  | cons k h ih =>
    intro hk s hs hst r hr x hx
    obtain ⟨k1, k2, k3⟩ := hk k List.mem_cons_self
    simp only [run] at hr
    cases hrd : read ⟨c.maxLen, maxJump, k.alloc, k.dec⟩ s k.srcs k.reps with
    | error f => rw [hrd] at hr; cases hr
    | ok u =>
      rw [hrd] at hr
      have hinv := inv_read k1 hs k2 k3
      rw [hrd] at hinv
      have hr : (run c.maxLen maxJump u.1 h).bind (fun r' => .ok (r'.1, u.2.toList ++ r'.2)) = .ok r := hr
      cases hrn : run c.maxLen maxJump u.1 h with
      | error f => rw [hrn] at hr; cases hr
      | ok v =>
        rw [hrn] at hr
        cases hr
        have hx : ((u.2.toList ++ v.2).filterMap (·.1)).head? = some x := hx
        rcases start_read k1 hs hst k2 k3 hrd with ⟨h1, h2⟩ | ⟨h1, h2⟩ | ⟨b, f, h1⟩
        · refine ih (fun y hy => hk y (List.mem_cons_of_mem _ hy)) u.1 hinv.1 h1 v hrn x ?_
          cases hu : u.2 with
          | none => rw [hu] at hx; exact hx
          | some y =>
            obtain ⟨y1, y2⟩ := y
            cases y1 with
            | none => rw [hu] at hx; exact hx
            | some z => exact absurd hu (h2 z y2)
        · rw [dead_run h h2] at hrn
          cases hrn
          rw [h1] at hx
          cases hx
        · rw [h1] at hx
          have hx : some (b, 0) = some x := hx
          cases hx
          rfl

/-- C32, the start: whatever arrives, the first packet returned in a known position is the first packet of its block, so decoding does
not begin in the middle of a block. -/
theorem C32_start (maxLen maxJump : Nat) (h : List Call) (hw : Wire h) {s : St} {out : List (Option (Nat × Nat) × Pkt)}
    (hr : run maxLen maxJump St.init h = .ok (s, out)) {x : Nat × Nat} (hx : (out.filterMap (·.1)).head? = some x) : x.2 = 0 := by
  refine run_first (c := ⟨fun _ => True, Arrived h, Restored h, maxLen⟩) (maxJump := maxJump) h ?_ St.init (inv_init _) rfl _ hr x hx
  intro k hk
  refine ⟨⟨rfl, fun b g n t h1 h2 => ⟨k, hk, g, h1, h2⟩, fun _ _ _ => Or.inl trivial⟩, ?_, ?_⟩
  · intro x hx; exact ⟨⟨k, hk, x.2, hx⟩, (hw k hk).1 x hx⟩
  · intro x hx; exact ⟨(hw k hk).2 x hx, fun _ => trivial, fun _ => trivial⟩

/-- C33 when block lengths of repair packets are between 1 and the limit of the decoder, and the decoder restores all lost packets of
a block or none of them: whatever else arrives, in whatever order, the reader never aborts and every call returns. -/
theorem C33_no_abort_partial (maxLen maxJump : Nat) (h : List Call) (hw : Wire h) (hl : Lengths maxLen h) (ha : AllOrNothing h) :
    ∃ r, run maxLen maxJump St.init h = .ok r := by
  obtain ⟨c, hc⟩ : ∃ c : Ctx, c = ⟨fun _ => False, Arrived h, Restored h, maxLen⟩ := ⟨_, rfl⟩
  have key := run_outs (c := c) (maxJump := maxJump) h (by
    intro k hk
    rw [hc]
    refine ⟨⟨rfl, fun b g n t h1 h2 => ⟨k, hk, g, h1, h2⟩, fun b g hg => Or.inr (ha k hk b g hg)⟩, ?_, ?_⟩
    · intro x hx; exact ⟨⟨k, hk, x.2, hx⟩, (hw k hk).1 x hx⟩
    · intro x hx
      have := hl k hk x hx
      refine ⟨(hw k hk).2 x hx, fun h0 => this.1 h0, fun h0 => ?_⟩
      have h0 : x.1.blen > maxLen := h0
      exact absurd this.2 (by omega)) St.init (inv_init c)
  have e1 : c.maxLen = maxLen := by rw [hc]
  rw [e1] at key
  cases hr : run maxLen maxJump St.init h with
  | ok r => exact ⟨r, rfl⟩
  | error f =>
    rw [hr] at key
    rw [hc] at key
    exact absurd key id

/-- The only ways to abort, whatever arrives. -/
theorem C33_faults_partial (maxLen maxJump : Nat) (h : List Call) (hw : Wire h) {f : Fault} (hr : run maxLen maxJump St.init h = .error f) :
    f = .zeroLen ∨ f = .overMax ∨ f = .nullFec := by
  obtain ⟨c, hc⟩ : ∃ c : Ctx, c = ⟨fun f => f = .zeroLen ∨ f = .overMax ∨ f = .nullFec, Arrived h, Restored h, maxLen⟩ := ⟨_, rfl⟩
  have key := run_outs (c := c) (maxJump := maxJump) h (by
    intro k hk
    rw [hc]
    refine ⟨⟨rfl, fun b g n t h1 h2 => ⟨k, hk, g, h1, h2⟩, fun _ _ _ => Or.inl (Or.inr (Or.inr rfl))⟩, ?_, ?_⟩
    · intro x hx; exact ⟨⟨k, hk, x.2, hx⟩, (hw k hk).1 x hx⟩
    · intro x hx; exact ⟨(hw k hk).2 x hx, fun _ => Or.inl rfl, fun _ => Or.inr (Or.inl rfl)⟩) St.init (inv_init c)
  have e1 : c.maxLen = maxLen := by rw [hc]
  rw [e1, hr, hc] at key
  exact key

/-- Example: a source packet, block of 3 packets and 2 repair packets. -/
def exS (sbn esi : Nat) : Fec × Nat := (⟨sbn * 10 + esi, true, sbn, esi, 3, 5, 8⟩, 100)

/-- A repair packet of the example. -/
def exR (sbn esi : Nat) : Fec × Nat := (⟨sbn * 10 + esi, true, sbn, esi, 3, 5, 8⟩, 100)

/-- Example calls: packet 1 of block 7 is lost and restored, block 8 is lost. -/
def exCalls : List Call :=
  [⟨[exS 7 0, exS 7 2, exS 9 0], [exR 7 3], fun _ => some (fun n => some (100 + n)), fun _ => true⟩,
   ⟨[], [], fun _ => some (fun n => some (100 + n)), fun _ => true⟩,
   ⟨[], [], fun _ => none, fun _ => true⟩,
   ⟨[], [], fun _ => none, fun _ => true⟩]

/-- Returned packets of a run. -/
def outsOf : Except Fault (St × List (Option (Nat × Nat) × Pkt)) → Option (List (Option (Nat × Nat) × Pkt))
  | .ok r => some r.2
  | .error _ => none

/-- Fault of a run. -/
def faultOf : Except Fault (St × List (Option (Nat × Nat) × Pkt)) → Option Fault
  | .ok _ => none
  | .error f => some f

example : Wire exCalls ∧ Lengths 20 exCalls ∧ outsOf (run 20 100 St.init exCalls) =
    some [(some (7, 0), .recv (exS 7 0).1), (some (7, 1), .rest 101 7 1), (some (7, 2), .recv (exS 7 2).1), (some (9, 0), .recv (exS 9 0).1)] := by
  unfold Wire Lengths; decide +kernel

example : AllOrNothing exCalls := by
  intro c hc b g hg
  simp only [exCalls, List.mem_cons, List.not_mem_nil, or_false] at hc
  rcases hc with rfl | rfl | rfl | rfl
  · left; intro n; cases hg; rfl
  · left; intro n; cases hg; rfl
  · cases hg
  · cases hg

/-- Decoding waits for the first packet of a block: packets 1 and 2 of block 7 are forwarded, block 8 is decoded. -/
example : outsOf (run 20 100 St.init
    [⟨[exS 7 1, exS 7 2, exS 8 0, exS 8 1], [], fun _ => none, fun _ => true⟩, ⟨[], [], fun _ => none, fun _ => true⟩,
     ⟨[], [], fun _ => none, fun _ => true⟩]) = some [(none, .recv (exS 7 1).1), (none, .recv (exS 7 2).1), (some (8, 0), .recv (exS 8 0).1)] := by decide +kernel

/-- One repair packet with block length 0 (which the LDPC header can carry) aborts the receiver. -/
theorem C33_zero_length_fails : faultOf (run 20 100 St.init
    [⟨[exS 7 0], [(⟨0, true, 7, 3, 3, 0, 8⟩, 0)], fun _ => none, fun _ => true⟩]) = some .zeroLen := by decide +kernel

/-- The sum of the source and repair block sizes is not checked if it happens to be equal to the announced one: after a block with 15
repair packets, a block with 10 source packets makes the decoder start with 25 packets, although its limit is 20. -/
theorem C33_over_max_fails : faultOf (run 20 100 St.init
    [⟨[(⟨0, true, 7, 0, 1, 16, 8⟩, 9)], [(⟨1, true, 7, 1, 1, 16, 8⟩, 9)], fun _ => none, fun _ => true⟩,
     ⟨[(⟨2, true, 8, 1, 10, 25, 8⟩, 9)], [(⟨3, true, 8, 11, 10, 25, 8⟩, 9)], fun _ => some (fun _ => none), fun _ => true⟩]) = some .overMax := by
  decide +kernel

/-- If a part of lost packets of a block is restored, and then one more packet of this block arrives, the next repair attempt uses FEC
fields of a restored packet, which has none. -/
theorem C33_null_fec_fails : faultOf (run 20 100 St.init
    [⟨[exS 7 0], [exR 7 3], fun _ => some (fun n => if n = 1 then some 0 else none), fun _ => true⟩,
     ⟨[], [], fun _ => some (fun n => if n = 1 then some 0 else none), fun _ => true⟩,
     ⟨[], [exR 7 4], fun _ => some (fun _ => none), fun _ => true⟩]) = some .nullFec := by decide +kernel

/-- C32's ordering is meaningful: without it a packet of block 7 read after a packet of block 9 would be returned. A late packet is not. -/
example : outsOf (run 20 100 St.init
    [⟨[exS 7 0, exS 9 0], [], fun _ => none, fun _ => true⟩, ⟨[], [], fun _ => none, fun _ => true⟩,
     ⟨[exS 7 1], [], fun _ => none, fun _ => true⟩]) = some [(some (7, 0), .recv (exS 7 0).1), (some (9, 0), .recv (exS 9 0).1)] := by decide +kernel

theorem known_init (k n : Nat) : Known k n none St.init := by
  intro _
  exact Or.inl ⟨rfl, rfl, (fun f hf => by cases hf), (fun f hf => by cases hf), Or.inr rfl, fun c => by cases c⟩

/-- C71: in a stream with `k` source packets of `n` bytes in each block, whatever is lost, duplicated, reordered or restored: if the last
returned packet has position `x`, and a source packet `f` of a later position `a` arrives, then every following call returns a packet, and
nothing after `a` is returned until the packet of position `a` is. In particular it is returned after at most as many calls as there are
positions between `x` and `a`. (As long as the reader has not stopped.) -/
theorem C71_in_time (maxLen maxJump k n : Nat) (h1 h2 : List Call) (c : Call) (hu : Uniform k n (h1 ++ c :: h2))
    (ht : Tidy maxLen maxJump St.init (h1 ++ c :: h2)) {s s' : St} {o1 o2 : List (Option (Nat × Nat) × Pkt)}
    (hr1 : run maxLen maxJump St.init h1 = .ok (s, o1)) (hr2 : run maxLen maxJump s (c :: h2) = .ok (s', o2)) (ha : s'.alive = true)
    {x : Nat × Nat} (hx : (o1.filterMap (·.1)).getLast? = some x) {f : Fec} {i : Nat} (hf : (f, i) ∈ c.srcs) {a : Nat × Nat}
    (hd : 0 ≤ diff f.sbn (x.1 % 65536)) (hpos : a = (x.1 + (diff f.sbn (x.1 % 65536)).toNat, f.esi)) (hb : Before x a) :
    a ∈ o2.filterMap (·.1) ∨
    (o2.length = h2.length + 1 ∧ (∀ y ∈ o2, ∃ z, y.1 = some z ∧ Before z a) ∧ x.1 * k + x.2 + (h2.length + 1) < a.1 * k + a.2) := by
  obtain ⟨hi, hk, ht2⟩ := known_run (k := k) (n := n) h1 (c :: h2) St.init none (inv_init _) (known_init k n)
    (fun d hd => hu d (List.mem_append_left _ hd)) ht _ hr1
  have hk := hk (run_alive hr2 ha)
  rw [hx] at hk
  rcases hk with ⟨k1, _⟩ | ⟨y, k1, k2, k3, k4, k5⟩
  · cases k1
  have k1 : some x = some y := k1
  cases k1
  have hreg : Reg k n f := (hu c (List.mem_append_right _ List.mem_cons_self)).1 _ hf
  have hk5 : val k (s.blk, s.nxt) = val k x + 1 := by
    have k5 : (s.blk, s.nxt) = succ k x := k5
    rw [k5, val_succ]
  have key := pend_run (a := a) (c :: h2) s hi k2 k3 ?_ ?_ (fun d hd => hu d (List.mem_append_right _ hd)) ht2 _ hr2 ha
  · rcases key with key | ⟨q1, q2, q3⟩
    · exact Or.inl key
    · refine Or.inr ⟨q1, q2, ?_⟩
      rw [hk5] at q3
      unfold val at q3
      simp only [List.length_cons] at q3
      omega
  · have hesi : f.esi < k := by rw [← hreg.2.1]; exact (validSource_elim hreg.1).1
    have k5 : (s.blk, s.nxt) = succ k x := k5
    rw [k5]
    unfold succ NotAfter
    unfold Before at hb
    have e2 : a.2 = f.esi := by rw [hpos]
    split_ifs with hh
    · show x.1 + 1 < a.1 ∨ (x.1 + 1 = a.1 ∧ 0 ≤ a.2)
      omega
    · show x.1 < a.1 ∨ (x.1 = a.1 ∧ x.2 + 1 ≤ a.2)
      omega
  · intro c' h' he hal
    injection he with he1 he2
    rw [← he1] at hal ⊢
    rw [hpos] at hb ⊢
    exact pend_arrive k3 k5 k4 hf hreg hd hb hal

/-- C72 in a uniform stream: while no packet was returned in a known position, whatever arrived before, as soon as the first packet of
the queue is the first of its block (and memory is available), decoding starts with this packet, or the reader stops. -/
theorem C72_starts_partial (maxLen maxJump k n : Nat) (h : List Call) (c : Call) (hu : Uniform k n (h ++ [c])) (hk : k ≤ maxLen) (hc : ∀ m, c.alloc m = true)
    {s : St} {out : List (Option (Nat × Nat) × Pkt)} (hr : run maxLen maxJump St.init h = .ok (s, out)) (hn : out.filterMap (·.1) = [])
    {f : Fec} {q : List Fec} (hq : (fetch c.srcs s.srcQ).1 = f :: q) (hf : f.esi = 0)
    {r : St × Option (Option (Nat × Nat) × Pkt)} (hrd : read ⟨maxLen, maxJump, c.alloc, c.dec⟩ s c.srcs c.reps = .ok r) :
    r.1.alive = false ∨ ∃ p, r.2 = some (some (f.sbn, 0), p) := by
  cases hra : r.1.alive with
  | false => exact Or.inl rfl
  | true =>
    right
    have hsa : s.alive = true := by
      cases hs : s.alive with
      | true => rfl
      | false =>
        unfold read at hrd
        rw [if_pos (by rw [hs]; rfl)] at hrd
        cases hrd
        rw [← hs]; exact hra
    obtain ⟨hi, hk0⟩ := known0_run (k := k) (n := n) h St.init (inv_init _) (fun _ => ⟨rfl, (fun f hf => by cases hf), (fun f hf => by cases hf), Or.inr rfl, fun c => by cases c⟩)
      (fun d hd => hu d (List.mem_append_left _ hd)) _ hr hn
    obtain ⟨k2, k3⟩ := hk0 hsa
    have k2 : s.started = false := k2
    obtain ⟨u1, u2⟩ := hu c (List.mem_append_right _ List.mem_cons_self)
    have s1 : ∀ x ∈ c.srcs, SrcOk (anyCtx maxLen) x.1 := fun x hx => ⟨trivial, (u1 x hx).2.2.2⟩
    have s2 : ∀ x ∈ c.reps, RepOk (anyCtx maxLen) x.1 := fun x hx => ⟨(u2 x hx).2.2, fun _ => trivial, fun _ => trivial⟩
    have hf0 : Hom0 k n (fetchAll s c.srcs c.reps) := ⟨fetch_mem c.srcs _ u1 k3.srcQ, fetch_mem c.reps _ u2 k3.repQ, k3.len, k3.pay⟩
    have hreg : Reg k n f := hf0.srcQ f (by show f ∈ (fetch c.srcs s.srcQ).1; rw [hq]; exact List.mem_cons_self)
    have hp := procSource_ok (e := ⟨maxLen, maxJump, c.alloc, c.dec⟩) hf0 hreg hk hc
    have hts : (tryStart ⟨maxLen, maxJump, c.alloc, c.dec⟩ (fetchAll s c.srcs c.reps)).started = true ∧
        (tryStart ⟨maxLen, maxJump, c.alloc, c.dec⟩ (fetchAll s c.srcs c.reps)).blk = f.sbn := by
      unfold tryStart
      rw [show (fetchAll s c.srcs c.reps).srcQ = f :: q from hq]
      simp only [hp]
      exact ⟨by simpa using hf, rfl⟩
    have hg := start_getNext (c := anyCtx maxLen) (e := ⟨maxLen, maxJump, c.alloc, c.dec⟩) (s := fetchAll s c.srcs c.reps)
      (inv_queues hi (fetch_mem c.srcs _ s1 hi.srcQ) (fetch_mem c.reps _ s2 hi.repQ)) k2 hts.1
    unfold read at hrd
    rw [if_neg (by rw [hsa]; decide)] at hrd
    unfold readIn at hrd
    rw [if_neg (show ¬ (fetchAll s c.srcs c.reps).started = true from by show ¬ s.started = true; rw [k2]; decide), if_pos hts.1] at hrd
    cases hgn : getNext ⟨maxLen, maxJump, c.alloc, c.dec⟩ (tryStart ⟨maxLen, maxJump, c.alloc, c.dec⟩ (fetchAll s c.srcs c.reps)) with
    | error y => rw [hgn] at hrd; cases hrd
    | ok u =>
      rw [hgn] at hrd hg
      have hrd : (if (!u.1.alive) = true then Except.ok (u.1, none) else Except.ok u) = Except.ok r := hrd
      by_cases h6 : (!u.1.alive) = true
      · rw [if_pos h6] at hrd
        cases hrd
        have hra : u.1.alive = true := hra
        rw [hra] at h6; cases h6
      · rw [if_neg h6] at hrd
        cases hrd
        rcases hg with ⟨_, g2⟩ | ⟨g, g2⟩
        · rw [hra] at g2; cases g2
        · rw [hts.2] at g2
          exact ⟨_, g2⟩

/-- Sizes that were set before the start are never forgotten. If a packet from the middle of a block of 3 packets comes first, and then
the sender switches to blocks of 5 packets, then decoding never starts, whatever else arrives. -/
theorem C72_other_size_fails (maxJump : Nat) (h : List Call) (hs : ∀ c ∈ h, ∀ x ∈ c.srcs, x.1.sblen = 5) {r : St × List (Option (Nat × Nat) × Pkt)}
    (hr : run 20 maxJump St.init (⟨[exS 7 1], [], fun _ => none, fun _ => true⟩ :: h) = .ok r) : r.2.filterMap (·.1) = [] := by
  obtain ⟨u, v, e1, e2, e3⟩ := run_cons hr
  cases e1
  have := stuck_run h _ ⟨rfl, rfl, rfl, fun f hf => by cases hf⟩ hs _ e2
  rw [e3]
  exact this

/-- The same packets are decoded if the packet from the other stream did not come before them. -/
example : outsOf (run 20 100 St.init [⟨[(⟨0, true, 8, 0, 5, 7, 8⟩, 0)], [], fun _ => none, fun _ => true⟩]) = some [(some (8, 0), .recv ⟨0, true, 8, 0, 5, 7, 8⟩)] ∧
    outsOf (run 20 100 St.init [⟨[exS 7 1], [], fun _ => none, fun _ => true⟩, ⟨[(⟨0, true, 8, 0, 5, 7, 8⟩, 0)], [], fun _ => none, fun _ => true⟩]) =
      some [(none, .recv (exS 7 1).1), (none, .recv ⟨0, true, 8, 0, 5, 7, 8⟩)] := by decide +kernel

/-- Example for C72_starts_partial. -/
example : Uniform 3 8 ([⟨[exS 7 1, exS 7 2], [exR 7 4], fun _ => none, fun _ => true⟩, ⟨[], [], fun _ => none, fun _ => true⟩] ++ [⟨[exS 8 0], [], fun _ => none, fun _ => true⟩]) ∧
    outsOf (run 20 100 St.init [⟨[exS 7 1, exS 7 2], [exR 7 4], fun _ => none, fun _ => true⟩, ⟨[], [], fun _ => none, fun _ => true⟩]) =
      some [(none, .recv (exS 7 1).1), (none, .recv (exS 7 2).1)] := by
  unfold Uniform Reg RegRep; decide +kernel

/-- Decides `Tidy`. -/
def tidyB (maxLen maxJump : Nat) : St → List Call → Bool
  | _, [] => true
  | s, c :: h => (!s.started || decide (Sorted s.sbn (fetch c.srcs s.srcQ).1)) &&
      match read ⟨maxLen, maxJump, c.alloc, c.dec⟩ s c.srcs c.reps with
      | .ok r => tidyB maxLen maxJump r.1 h
      | .error _ => true

theorem tidy_of (maxLen maxJump : Nat) (h : List Call) : ∀ s, tidyB maxLen maxJump s h = true → Tidy maxLen maxJump s h := by
  induction h with
  | nil => intro s _; trivial
  | cons c h ih =>
    intro s hb
    simp only [tidyB, Bool.and_eq_true, Bool.or_eq_true, Bool.not_eq_true', decide_eq_true_eq] at hb
    refine ⟨fun hs => hb.1.resolve_left (by rw [hs]; decide), fun r hr => ih r.1 ?_⟩
    have := hb.2
    rw [hr] at this
    exact this

/-- Example for C71: blocks of 3 packets, the block number wraps; packet (65536, 1) arrives in the second call, before the packets in
front of it, and is returned after them. -/
def exLate : List Call :=
  [⟨[exS 65535 0], [], fun _ => none, fun _ => true⟩,
   ⟨[(⟨5, true, 0, 1, 3, 5, 8⟩, 0), ((exS 65535 1).1, 0)], [], fun _ => none, fun _ => true⟩,
   ⟨[((exS 65535 2).1, 0)], [], fun _ => none, fun _ => true⟩,
   ⟨[(⟨4, true, 0, 0, 3, 5, 8⟩, 0)], [], fun _ => none, fun _ => true⟩,
   ⟨[], [], fun _ => none, fun _ => true⟩]

example : Tidy 20 100 St.init exLate := tidy_of _ _ _ _ (by decide +kernel)

example : Uniform 3 8 exLate ∧ outsOf (run 20 100 St.init (exLate.take 1)) = some [(some (65535, 0), .recv (exS 65535 0).1)] ∧
    diff 0 (65535 % 65536) = 1 ∧ Before (65535, 0) (65536, 1) ∧
    (outsOf (run 20 100 St.init exLate)).map (·.map (·.1)) = some [some (65535, 0), some (65535, 1), some (65535, 2), some (65536, 0), some (65536, 1)] := by
  unfold Uniform Reg RegRep; decide +kernel

end Verif.FecReader
