import Verif.FecReader.Flow
import Verif.FecReader.Props

/-!
# FEC reader: history in which packets arrive in order
-/

namespace Verif.FecReader

/-- What arrives before a call, in order: packets with the unwrapped numbers of their blocks; and what the decoder restores. -/
structure Dlv where
  srcs : List (Nat × Fec)
  reps : List (Nat × Fec)
  dec : Nat → Option (Nat → Option Nat)

/-- The call: packets are put at the end of the queue (`tot` is at least the number of packets in it), all allocations succeed. -/
def Dlv.call (tot : Nat) (d : Dlv) : Call := ⟨d.srcs.map (fun x => (x.2, tot)), d.reps.map (fun x => (x.2, tot)), d.dec, fun _ => true⟩

/-- Blocks do not decrease. -/
def InOrder (l : List (Nat × Fec)) : Prop := l.Pairwise (fun x y => x.1 ≤ y.1)

/-- Blocks of the packets differ from block `b` by at most `w`, and their numbers are those in the packets. -/
def Close (w b : Nat) (l : List (Nat × Fec)) : Prop := ∀ x ∈ l, x.1 ≤ b + w ∧ b ≤ x.1 + w ∧ x.2.sbn = x.1 % 65536

theorem diff_close {w b : Nat} (hw : w < 32768) {x : Nat × Fec} (h : x.1 ≤ b + w ∧ b ≤ x.1 + w ∧ x.2.sbn = x.1 % 65536) :
    diff x.2.sbn (b % 65536) = (x.1 : Int) - b := by
  obtain ⟨h1, h2, h3⟩ := h
  rw [h3]
  unfold diff
  omega

theorem fetch_end {tot : Nat} (l : List (Nat × Fec)) : ∀ (q : List Fec), (∀ x ∈ l, x.2.scheme = true) → q.length + l.length ≤ tot →
    fetch (l.map (fun x => (x.2, tot))) q = (q ++ l.map (·.2), true) := by
  induction l with
  | nil => intro q _ _; simp [fetch]
  | cons x l ih =>
    intro q hs ht
    rw [List.length_cons] at ht
    simp only [List.map_cons, fetch]
    rw [if_neg (by rw [hs x List.mem_cons_self]; decide), List.take_of_length_le (by omega), List.drop_of_length_le (by omega),
      ih _ (fun y hy => hs y (List.mem_cons_of_mem _ hy)) (by rw [List.length_append, List.length_singleton]; omega), List.append_assoc]
    rfl

theorem suffix_map {l : List (Nat × Fec)} {t : List Fec} (h : t <:+ l.map (·.2)) : ∃ l', l' <:+ l ∧ t = l'.map (·.2) := by
  refine ⟨l.drop ((l.map (·.2)).length - t.length), List.drop_suffix _ _, ?_⟩
  rw [List.map_drop]
  exact List.suffix_iff_eq_drop.mp h

theorem close_calm {w b : Nat} (hw : w < 32768) {e : Env} (he : w ≤ e.maxJump) {s : St} (hb : s.sbn = b % 65536) {qs qr : List (Nat × Fec)}
    (h1 : s.srcQ = qs.map (·.2)) (h2 : s.repQ = qr.map (·.2)) (o1 : InOrder qs) (o2 : InOrder qr) (c1 : Close w b qs) (c2 : Close w b qr) : Calm e s := by
  have vis : ∀ q, Close w b q → Vis e s.sbn (q.map (·.2)) := by
    intro q hq f hf
    obtain ⟨x, hx, rfl⟩ := List.mem_map.mp hf
    have := diff_close hw (hq x hx)
    obtain ⟨a1, a2, _⟩ := hq x hx
    rw [hb]
    constructor <;> omega
  have srt : ∀ q, Close w b q → InOrder q → Sorted s.sbn (q.map (·.2)) := by
    intro q hq ho
    unfold Sorted
    rw [List.pairwise_map]
    refine List.Pairwise.imp_of_mem ?_ ho
    intro x y hx hy hxy
    rw [hb, diff_close hw (hq x hx), diff_close hw (hq y hy)]
    omega
  exact ⟨by rw [h1]; exact vis _ c1, by rw [h2]; exact vis _ c2, by rw [h1]; exact srt _ c1 o1, by rw [h2]; exact srt _ c2 o2⟩

/-- Packets that stay in a queue are close to the block after the call. -/
theorem close_stays {w b b' : Nat} (hw : w < 32767) {q q' : List (Nat × Fec)} (hq : q' <:+ q) (hc : Close w b q) (hb : b' = b ∨ b' = b + 1)
    (hl : ∀ f ∈ q'.map (·.2), 0 < diff f.sbn (b' % 65536)) : Close w b' q' := by
  intro x hx
  obtain ⟨a1, a2, a3⟩ := hc x (hq.subset hx)
  have h1 := hl x.2 (List.mem_map.mpr ⟨x, hx, rfl⟩)
  have h2 : diff x.2.sbn (b' % 65536) = (x.1 : Int) - b' := diff_close (w := w + 1) (by omega) ⟨by omega, by omega, a3⟩
  exact ⟨by omega, by omega, a3⟩

/-- All packets are of one stream. -/
def DUni (k r n : Nat) (d : Dlv) : Prop := (∀ x ∈ d.srcs, Reg k n x.2 ∧ x.2.scheme = true) ∧ (∀ x ∈ d.reps, Reg2 k r n x.2 ∧ x.2.scheme = true)

/-- Number of packets. -/
def cnt (l : List Dlv) : Nat := (l.map (fun d => d.srcs.length + d.reps.length)).sum

theorem blk_step {k v : Nat} (hk : 0 < k) : (v + 1) / k = v / k ∨ (v + 1) / k = v / k + 1 := by
  have := Nat.succ_div (a := v) (b := k)
  split_ifs at this <;> omega

/-- Fetching of packets that arrive in order. -/
theorem fetch_flow {tot k r n : Nat} {d : Dlv} {s : St} {qs qr : List (Nat × Fec)} (hu : DUni k r n d) (ha : s.alive = true)
    (h1 : s.srcQ = qs.map (·.2)) (h2 : s.repQ = qr.map (·.2)) (ht : qs.length + qr.length + (d.srcs.length + d.reps.length) ≤ tot) :
    fetchAll s (d.call tot).srcs (d.call tot).reps = { s with srcQ := (qs ++ d.srcs).map (·.2), repQ := (qr ++ d.reps).map (·.2), alive := true } := by
  have e1 := fetch_end (tot := tot) d.srcs s.srcQ (fun x hx => (hu.1 x hx).2) (by rw [h1, List.length_map]; omega)
  have e2 := fetch_end (tot := tot) d.reps s.repQ (fun x hx => (hu.2 x hx).2) (by rw [h2, List.length_map]; omega)
  unfold fetchAll Dlv.call
  dsimp only
  rw [e1, e2, ha, h1, h2, List.map_append, List.map_append]
  rfl

/-- Arrived packets are those of `l` near block `b`, restored packets are those of `res`. -/
def nearCtx (maxLen : Nat) (l : List (Nat × Fec)) (res : Nat → Nat → Nat → Prop) (w b : Nat) : Ctx :=
  ⟨fun _ => True, fun f => ∃ x ∈ l, (x.1 ≤ b + w ∧ b ≤ x.1 + w ∧ x.2.sbn = x.1 % 65536) ∧ x.2 = f, res, maxLen⟩

/-- The packet is the one with number `v`: it arrived, or it was restored for this position. -/
def Own (l : List (Nat × Fec)) (res : Nat → Nat → Nat → Prop) (k v : Nat) : Pkt → Prop
  | .recv f => (v / k, f) ∈ l ∧ f.esi = v % k
  | .rest t b i => (b, i) = posOfNum k v ∧ res t b i

theorem own_of {maxLen w k v : Nat} (hw : w < 32767) {l : List (Nat × Fec)} {res : Nat → Nat → Nat → Prop} {p : Pkt}
    (h : Good (nearCtx maxLen l res w (v / k)) (posOfNum k v) p) : Own l res k v p := by
  cases p with
  | recv f =>
    obtain ⟨⟨⟨x1, x2⟩, hx, ⟨h1, h2, h3⟩, h4⟩, h5, h6⟩ := h
    have h4 : x2 = f := h4
    subst h4
    have h5 : x2.sbn = v / k % 65536 := h5
    have h1 : x1 ≤ v / k + w := h1
    have h2 : v / k ≤ x1 + w := h2
    have h3 : x2.sbn = x1 % 65536 := h3
    have : x1 = v / k := by omega
    rw [this] at hx
    exact ⟨hx, h6⟩
  | rest t b i => exact h

theorem inv_recenter {maxLen w b b' : Nat} (hw : w < 32767) {l q : List (Nat × Fec)} {res : Nat → Nat → Nat → Prop} {s : St}
    (h : Inv (nearCtx maxLen l res w b) s) (hb : b' = b ∨ b' = b + 1) (hs : s.sbn = b' % 65536) (hq : s.srcQ = q.map (·.2))
    (hl : ∀ x ∈ q, x ∈ l) (hc : Close w b' q) : Inv (nearCtx maxLen l res w b') s := by
  refine ⟨h.sbn, ?_, h.repQ, h.srcN, h.repN, h.payN, h.repT, ?_, h.rep, h.rest, h.lt, h.pre⟩
  · intro f hf
    refine ⟨?_, (h.srcQ f hf).2⟩
    rw [hq] at hf
    obtain ⟨x, hx, hxf⟩ := List.mem_map.mp hf
    exact ⟨x, hl x hx, hc x hx, hxf⟩
  · intro i p hp
    have := h.src i p hp
    cases p with
    | recv f =>
      obtain ⟨⟨x, hx, ⟨h1, h2, h3⟩, h4⟩, h5, h6⟩ := this
      refine ⟨⟨x, hx, ?_, h4⟩, h5, h6⟩
      rw [← h4, h3, hs] at h5
      have : x.1 = b' := by omega
      exact ⟨by omega, by omega, h3⟩
    | rest t b i => exact this

/-- Every call of the history, after the start, returns the next packet, and does not stop the reader. -/
theorem flow_run {k r n w tot maxLen maxJump : Nat} (hk0 : 0 < k) (hw : w < 32767) (hj : w ≤ maxJump) (hm : k + r ≤ maxLen) (al : List (Nat × Fec)) (res : Nat → Nat → Nat → Prop) (ds : List Dlv) :
    ∀ (v : Nat) (s : St) (qs qr : List (Nat × Fec)), Inv (anyCtx maxLen) s → s.started = true → Hom2 k r n s → Att k s → (s.blk, s.nxt) = posOfNum k v →
    s.alive = true → s.srcQ = qs.map (·.2) → s.repQ = qr.map (·.2) → InOrder (qs ++ ds.flatMap (·.srcs)) → InOrder (qr ++ ds.flatMap (·.reps)) →
    Close w (v / k) qs → Close w (v / k) qr → qs.length + qr.length + cnt ds ≤ tot →
    (∀ d ∈ ds, DUni k r n d) → (∀ j d, ds[j]? = some d → Close w ((v + j) / k) d.srcs ∧ Close w ((v + j) / k) d.reps) →
    Enough k v (Sym k s) (ds.map (·.call tot)) → Inv (nearCtx maxLen al res w (v / k)) s → (∀ x ∈ qs, x ∈ al) → (∀ d ∈ ds, ∀ x ∈ d.srcs, x ∈ al) →
    (∀ d ∈ ds, ∀ b g m t, d.dec b = some g → g m = some t → res t b m) →
    ∀ u, run maxLen maxJump s (ds.map (·.call tot)) = .ok u →
    u.1.alive = true ∧ u.2.map (·.1) = (List.range ds.length).map (fun j => some (posOfNum k (v + j))) ∧
    ∀ j o p, u.2[j]? = some (o, p) → Own al res k (v + j) p := by
  induction ds with
  | nil =>
    intro v s qs qr _ _ _ _ _ ha _ _ _ _ _ _ _ _ _ _ _ _ _ _ u hr
    cases hr
    exact ⟨ha, rfl, fun j o p hp => by cases hp⟩
  | cons d ds ih =>
    intro v s qs qr hi hst hh hat hpos hs hqs hqr o1 o2 c1 c2 hcnt hu hcl he hni hqa hda hdr u hr
    rw [List.map_cons] at hr he
    obtain ⟨x, y, e1, e2, e3⟩ := run_cons hr
    have hud := hu d List.mem_cons_self
    have u1 : ∀ x ∈ (d.call tot).srcs, Reg k n x.1 := by
      intro x hx
      obtain ⟨z, hz, rfl⟩ := List.mem_map.mp hx
      exact (hud.1 z hz).1
    have u2 : ∀ x ∈ (d.call tot).reps, Reg2 k r n x.1 := by
      intro x hx
      obtain ⟨z, hz, rfl⟩ := List.mem_map.mp hx
      exact (hud.2 z hz).1
    have u2' : ∀ x ∈ (d.call tot).reps, RegRep k n x.1 := fun x hx => (u2 x hx).1
    have s1 : ∀ x ∈ (d.call tot).srcs, SrcOk (anyCtx maxLen) x.1 := fun x hx => ⟨trivial, (u1 x hx).2.2.2⟩
    have s2 : ∀ x ∈ (d.call tot).reps, RepOk (anyCtx maxLen) x.1 := fun x hx => ⟨(u2' x hx).2.2, fun _ => trivial, fun _ => trivial⟩
    have hi' := inv_read (any_env maxLen maxJump (d.call tot)) hi s1 s2
    rw [e1] at hi'
    obtain ⟨k1, k2⟩ := hcl 0 d rfl
    rw [Nat.add_zero] at k1 k2
    have s1' : ∀ x ∈ (d.call tot).srcs, SrcOk (nearCtx maxLen al res w (v / k)) x.1 := by
      intro x hx
      refine ⟨?_, (s1 x hx).2⟩
      obtain ⟨z, hz, rfl⟩ := List.mem_map.mp hx
      exact ⟨z, hda d List.mem_cons_self z hz, k1 z hz, rfl⟩
    have s2' : ∀ x ∈ (d.call tot).reps, RepOk (nearCtx maxLen al res w (v / k)) x.1 := fun x hx => ⟨(u2' x hx).2.2, fun _ => trivial, fun _ => trivial⟩
    have hn' := inv_read (c := nearCtx maxLen al res w (v / k)) (e := ⟨maxLen, maxJump, (d.call tot).alloc, (d.call tot).dec⟩) ⟨rfl, hdr d List.mem_cons_self, fun _ _ _ => Or.inl trivial⟩ hni s1' s2'
    rw [e1] at hn'
    obtain ⟨⟨l, l1, l2, l3⟩, ⟨g, g1, g2⟩, e4⟩ := he
    have hblk : s.blk = v / k := congrArg Prod.fst hpos
    have hsb : s.sbn = v / k % 65536 := by rw [hh.hom.sbn, hblk]
    have hcnt' : qs.length + qr.length + (d.srcs.length + d.reps.length) + cnt ds ≤ tot := by
      have : cnt (d :: ds) = d.srcs.length + d.reps.length + cnt ds := by simp [cnt]
      omega
    have hfa := fetch_flow (tot := tot) hud hs hqs hqr (by omega)
    have hif : Inv (anyCtx maxLen) (fetchAll s (d.call tot).srcs (d.call tot).reps) := inv_queues hi (fetch_mem _ _ s1 hi.srcQ) (fetch_mem _ _ s2 hi.repQ)
    have hf : Hom2 k r n (fetchAll s (d.call tot).srcs (d.call tot).reps) := ⟨hom_fetch hh.hom u1 u2', fetch_mem _ _ u2 hh.repQ, hh.res, hh.res0⟩
    obtain ⟨f, hfd⟩ : ∃ f, f = fetchAll s (d.call tot).srcs (d.call tot).reps := ⟨_, rfl⟩
    have fq1 : f.srcQ = (qs ++ d.srcs).map (·.2) := by rw [hfd, hfa]
    have fq2 : f.repQ = (qr ++ d.reps).map (·.2) := by rw [hfd, hfa]
    have fal : f.alive = true := by rw [hfd, hfa]
    have fsb : f.sbn = v / k % 65536 := by rw [hfd]; exact hsb
    have fbl : f.blk = v / k := by rw [hfd]; exact hblk
    have fnx : f.nxt = s.nxt := by rw [hfd]; rfl
    have fst : f.started = true := by rw [hfd]; exact hst
    have fat : Att k f := by rw [hfd]; exact hat
    rw [List.flatMap_cons, ← List.append_assoc] at o1 o2
    have o1' : InOrder (qs ++ d.srcs) := (List.pairwise_append.mp o1).1
    have o2' : InOrder (qr ++ d.reps) := (List.pairwise_append.mp o2).1
    have cc1 : Close w (v / k) (qs ++ d.srcs) := fun z hz => (List.mem_append.mp hz).elim (c1 z) (k1 z)
    have cc2 : Close w (v / k) (qr ++ d.reps) := fun z hz => (List.mem_append.mp hz).elim (c2 z) (k2 z)
    have calm : Calm ⟨maxLen, maxJump, (d.call tot).alloc, (d.call tot).dec⟩ f := close_calm (by omega) hj fsb fq1 fq2 o1' o2' cc1 cc2
    have fine : Fine k r ⟨maxLen, maxJump, (d.call tot).alloc, (d.call tot).dec⟩ := ⟨fun _ => rfl, hm⟩
    have hsym : ∀ b i, Sym k s b i ∨ Arrives (d.call tot) (v / k) b i → Sym k f b i := by
      intro b i hbi
      have hal : (fetch (d.call tot).srcs s.srcQ).2 = true ∧ (fetch (d.call tot).reps s.repQ).2 = true := by
        have h1 : (s.alive && (fetch (d.call tot).srcs s.srcQ).2 && (fetch (d.call tot).reps s.repQ).2) = true := by
          rw [hfd] at fal; exact fal
        simp only [Bool.and_eq_true] at h1
        exact ⟨h1.1.2, h1.2⟩
      rw [hfd]
      rcases hbi with (hbi | ⟨f, f1, f2, f3⟩) | ⟨f, m, f1, f2, f3, f4⟩
      · exact Or.inl hbi
      · exact Or.inr ⟨f, f1.imp (fetch_keep _ _ f) (fetch_keep _ _ f), f2, f3⟩
      · right
        refine ⟨f, f1.imp (fun hm => fetch_all _ _ hal.1 _ hm) (fun hm => fetch_all _ _ hal.2 _ hm), ?_, ?_, f4⟩
        · show 0 ≤ diff f.sbn s.sbn
          rw [hsb]; exact f2
        · show b = s.blk + (diff f.sbn s.sbn).toNat
          rw [hsb, hblk]; exact f3
    have hl : ∀ i ∈ l, Sym k f f.blk i := fun i hm => by rw [fbl]; exact hsym _ _ (l3 i hm)
    have hg1 : (d.call tot).dec f.blk = some g := by rw [fbl]; exact g1
    unfold read at e1
    rw [if_neg (by rw [hs]; decide)] at e1
    unfold readIn at e1
    rw [← hfd] at hif hf e1
    rw [if_pos fst] at e1
    have hlive := getNext_live hf hif fst fine calm fal (Or.inr ⟨fat, ⟨l, l1, l2, hl⟩, g, hg1, g2⟩)
    have hrec := getNext_rec hf hif fst hk0 ⟨maxLen, maxJump, (d.call tot).alloc, (d.call tot).dec⟩ fat calm.s1 calm.s2 l1 l2 hl hg1 g2
    cases hgn : getNext ⟨maxLen, maxJump, (d.call tot).alloc, (d.call tot).dec⟩ f with
    | error z => rw [hgn] at e1; cases e1
    | ok z =>
      rw [hgn] at e1 hlive hrec
      obtain ⟨⟨v1, v2, v3⟩, v4, v5⟩ := hlive
      have e1 : (if (!z.1.alive) = true then Except.ok (z.1, none) else Except.ok z) = (Except.ok x : Res) := e1
      rw [if_neg (by rw [v1]; decide)] at e1
      cases e1
      obtain ⟨r1, r2, ⟨p, r3⟩, r4, r5⟩ := hrec v1
      rw [fbl, fnx] at r3 r4
      have hp2 : (x.1.blk, x.1.nxt) = posOfNum k (v + 1) := by
        rw [r4, ← hblk, hpos, succ_num hk0]
      have hb2 : x.1.blk = (v + 1) / k := congrArg Prod.fst hp2
      have hsb2 : x.1.sbn = (v + 1) / k % 65536 := by rw [r1.hom.sbn, hb2]
      rw [fq1] at v2
      rw [fq2] at v3
      obtain ⟨qs', q1, q2⟩ := suffix_map v2
      obtain ⟨qr', q3, q4⟩ := suffix_map v3
      rw [q2, hsb2] at v4
      rw [q4, hsb2] at v5
      have ln1 := q1.length_le
      have ln2 := q3.length_le
      rw [List.length_append] at ln1 ln2
      have hqa' : ∀ x ∈ qs', x ∈ al := fun z hz => (List.mem_append.mp (q1.subset hz)).elim (hqa z) (hda d List.mem_cons_self z)
      have cq := close_stays hw q1 cc1 (blk_step hk0) v4
      have key := ih (v + 1) x.1 qs' qr' hi'.1 (hi'.2.1 hst) r1 r2 hp2 v1 q2 q4
        (List.Pairwise.sublist (q1.sublist.append (List.Sublist.refl _)) o1) (List.Pairwise.sublist (q3.sublist.append (List.Sublist.refl _)) o2)
        cq (close_stays hw q3 cc2 (blk_step hk0) v5) (by omega)
        (fun z hz => hu z (List.mem_cons_of_mem _ hz))
        (fun j z hz => by
          have := hcl (j + 1) z hz
          rw [show v + (j + 1) = v + 1 + j from by omega] at this
          exact this)
        (e4.mono _ (fun b i hb hbi => r5 b i (hsym b i hbi) (by rw [hb2]; exact hb)))
        (inv_recenter hw hn'.1 (blk_step hk0) hsb2 q2 hqa' cq) hqa' (fun z hz => hda z (List.mem_cons_of_mem _ hz)) (fun z hz => hdr z (List.mem_cons_of_mem _ hz)) y e2
      have hgood := hn'.2.2
      rw [r3] at hgood
      have hgood := hgood.2.2.2
      rw [← hblk, hpos, hblk] at hgood
      rw [e3]
      refine ⟨key.1, ?_, ?_⟩
      rotate_left
      · intro j o p' hj
        have hj : (x.2.toList ++ y.2)[j]? = some (o, p') := hj
        rw [r3] at hj
        cases j with
        | zero => cases hj; exact own_of hw hgood
        | succ j =>
          have := key.2.2 j o p' hj
          rw [show v + (j + 1) = v + 1 + j from by omega]
          exact this
      show List.map (·.1) (x.2.toList ++ y.2) = _
      rw [r3]
      show some (v / k, s.nxt) :: y.2.map (·.1) = _
      rw [key.2.1, ← hblk, hpos, List.length_cons, List.range_succ_eq_map, List.map_cons, List.map_map]
      congr 1
      apply List.map_congr_left
      intro j _
      show some (posOfNum k (v + 1 + j)) = some (posOfNum k (v + (j + 1)))
      congr 2
      omega

theorem dropPrev_suffix (b : Nat) (q : List Fec) : dropPrev b q <:+ q := by
  induction q with
  | nil => exact List.suffix_refl _
  | cons f q ih =>
    unfold dropPrev
    split_ifs
    · exact ih.trans (List.suffix_cons _ _)
    · exact List.suffix_refl _

/-- Decoding starts when the first packet of the queue is the first one of a block. -/
theorem tryStart_first {k n : Nat} {e : Env} (ha : ∀ m, e.alloc m = true) (hm : k ≤ e.maxLen) {s : St} (hp : s.payRes = false) (hr : s.srcRes = false)
    {f : Fec} {q : List Fec} (hq : s.srcQ = f :: q) (hf : Reg k n f) (he : f.esi = 0) :
    (tryStart e s).started = true ∧ (tryStart e s).alive = s.alive ∧ (tryStart e s).srcQ = s.srcQ ∧ (tryStart e s).repQ = dropPrev f.sbn s.repQ ∧
    (tryStart e s).blk = f.sbn ∧ (tryStart e s).sbn = f.sbn := by
  obtain ⟨f1, f2, f3, f4⟩ := hf
  have hps : (procSource e s f).1 = true ∧ (procSource e s f).2.alive = s.alive := by
    unfold procSource canPay canSrc updSrc updPay
    rw [f1, f2, hp, hr, ha]
    dsimp only
    split_ifs <;> simp_all <;> omega
  have hqq := (procSource_queues e s f).1
  unfold tryStart
  rw [hq]
  dsimp only
  rw [if_neg (by rw [hps.1]; decide)]
  exact ⟨decide_eq_true he, hps.2, hqq.trans hq, rfl, rfl, rfl⟩

/-- The same for a history from the beginning. -/
theorem flow_start {k r n w tot maxLen maxJump : Nat} (hk0 : 0 < k) (hw : w < 32767) (hj : w ≤ maxJump) (hm : k + r ≤ maxLen) (al : List (Nat × Fec)) (res : Nat → Nat → Nat → Prop) (d : Dlv) (ds : List Dlv)
    {b : Nat} (hb : b < 65536) {f0 : Fec} {q0 : List (Nat × Fec)} (hd : d.srcs = (b, f0) :: q0) (h0 : f0.esi = 0)
    (o1 : InOrder ((d :: ds).flatMap (·.srcs))) (o2 : InOrder ((d :: ds).flatMap (·.reps))) (hcnt : cnt (d :: ds) ≤ tot)
    (hu : ∀ c ∈ d :: ds, DUni k r n c) (hcl : ∀ j c, (d :: ds)[j]? = some c → Close w ((b * k + j) / k) c.srcs ∧ Close w ((b * k + j) / k) c.reps)
    (he : Enough k (b * k + 1) (Arrives (d.call tot) b) (ds.map (·.call tot))) (hda : ∀ c ∈ d :: ds, ∀ x ∈ c.srcs, x ∈ al)
    (hdr : ∀ c ∈ d :: ds, ∀ b g m t, c.dec b = some g → g m = some t → res t b m) :
    ∀ u, run maxLen maxJump St.init ((d :: ds).map (·.call tot)) = .ok u →
    u.1.alive = true ∧ u.2.map (·.1) = (List.range (d :: ds).length).map (fun j => some (posOfNum k (b * k + j))) ∧
    ∀ j o p, u.2[j]? = some (o, p) → Own al res k (b * k + j) p := by
  intro u hr
  rw [List.map_cons] at hr
  obtain ⟨x, y, e1, e2, e3⟩ := run_cons hr
  have hud := hu d List.mem_cons_self
  have u1 : ∀ x ∈ (d.call tot).srcs, Reg k n x.1 := by
    intro x hx
    obtain ⟨z, hz, rfl⟩ := List.mem_map.mp hx
    exact (hud.1 z hz).1
  have u2 : ∀ x ∈ (d.call tot).reps, Reg2 k r n x.1 := by
    intro x hx
    obtain ⟨z, hz, rfl⟩ := List.mem_map.mp hx
    exact (hud.2 z hz).1
  have u2' : ∀ x ∈ (d.call tot).reps, RegRep k n x.1 := fun x hx => (u2 x hx).1
  have s1 : ∀ x ∈ (d.call tot).srcs, SrcOk (anyCtx maxLen) x.1 := fun x hx => ⟨trivial, (u1 x hx).2.2.2⟩
  have s2 : ∀ x ∈ (d.call tot).reps, RepOk (anyCtx maxLen) x.1 := fun x hx => ⟨(u2' x hx).2.2, fun _ => trivial, fun _ => trivial⟩
  have hi0 : Inv (anyCtx maxLen) St.init := inv_init _
  have hkn : Known k n none St.init := fun _ => Or.inl ⟨rfl, rfl, (fun f hf => by cases hf), (fun f hf => by cases hf), Or.inr rfl, fun c => by cases c⟩
  have hrep0 : RepInv k r n St.init := ⟨fun f hf => (by cases hf), fun c => (by cases c), fun _ x hx => (by cases hx)⟩
  have hi' := inv_read (any_env maxLen maxJump (d.call tot)) hi0 s1 s2
  rw [e1] at hi'
  have hcnt' : d.srcs.length + d.reps.length + cnt ds ≤ tot := by
    have : cnt (d :: ds) = d.srcs.length + d.reps.length + cnt ds := by simp [cnt]
    omega
  have hfa := fetch_flow (tot := tot) (s := St.init) (qs := []) (qr := []) hud rfl rfl rfl (by simp only [List.length_nil]; omega)
  rw [List.nil_append, List.nil_append] at hfa
  obtain ⟨t, htd⟩ : ∃ t, t = fetchAll St.init (d.call tot).srcs (d.call tot).reps := ⟨_, rfl⟩
  have tq1 : t.srcQ = d.srcs.map (·.2) := by rw [htd, hfa]
  have tq2 : t.repQ = d.reps.map (·.2) := by rw [htd, hfa]
  have tal : t.alive = true := by rw [htd, hfa]
  have tst : t.started = false := by rw [htd]; rfl
  have hti : Inv (anyCtx maxLen) t := by rw [htd]; exact inv_queues hi0 (fetch_mem _ _ s1 hi0.srcQ) (fetch_mem _ _ s2 hi0.repQ)
  have hth : Hom0 k n t := by
    rw [htd]
    exact ⟨fetch_mem _ _ u1 (fun f hf => by cases hf), fetch_mem _ _ u2' (fun f hf => by cases hf), Or.inr rfl, fun c => by cases c⟩
  have htr : RepInv k r n t := by rw [htd]; exact ⟨fetch_mem _ _ u2 hrep0.repQ, hrep0.res, hrep0.res0⟩
  obtain ⟨e, hed⟩ : ∃ e : Env, e = ⟨maxLen, maxJump, (d.call tot).alloc, (d.call tot).dec⟩ := ⟨_, rfl⟩
  have fine : Fine k r e := by rw [hed]; exact ⟨fun _ => rfl, hm⟩
  obtain ⟨k1, k2⟩ := hcl 0 d rfl
  rw [Nat.add_zero, Nat.mul_div_cancel _ hk0] at k1 k2
  have s1' : ∀ x ∈ (d.call tot).srcs, SrcOk (nearCtx maxLen al res w b) x.1 := by
    intro x hx
    refine ⟨?_, (s1 x hx).2⟩
    obtain ⟨z, hz, rfl⟩ := List.mem_map.mp hx
    exact ⟨z, hda d List.mem_cons_self z hz, k1 z hz, rfl⟩
  have s2' : ∀ x ∈ (d.call tot).reps, RepOk (nearCtx maxLen al res w b) x.1 := fun x hx => ⟨(u2' x hx).2.2, fun _ => trivial, fun _ => trivial⟩
  have hn' := inv_read (c := nearCtx maxLen al res w b) (e := ⟨maxLen, maxJump, (d.call tot).alloc, (d.call tot).dec⟩) ⟨rfl, hdr d List.mem_cons_self, fun _ _ _ => Or.inl trivial⟩ (inv_init (nearCtx maxLen al res w b)) s1' s2'
  rw [e1] at hn'
  have hf0 : f0.sbn = b := by
    have := (k1 (b, f0) (by rw [hd]; exact List.mem_cons_self)).2.2
    have this : f0.sbn = b % 65536 := this
    omega
  have hmx : k ≤ e.maxLen := by rw [hed]; show k ≤ maxLen; omega
  obtain ⟨p1, p2, p3, p4, p5, p6⟩ := tryStart_first (e := e) (s := t) fine.alloc hmx (by rw [htd]; rfl) (by rw [htd]; rfl)
    (f := f0) (q := q0.map (·.2)) (by rw [tq1, hd, List.map_cons]) (hud.1 (b, f0) (by rw [hd]; exact List.mem_cons_self)).1 h0
  obtain ⟨a1, a2, a3⟩ := tryStart_att (e := e) hti tst hk0 htr
  have hh : Hom2 k r n (tryStart e t) := a1.hom ((tryStart_hom0 (e := e) hth tst).2 p1)
  rw [tq1] at p3
  rw [tq2] at p4
  rw [hf0] at p4 p5 p6
  obtain ⟨qr, w1, w2⟩ := suffix_map (dropPrev_suffix b (d.reps.map (·.2)))
  rw [w2] at p4
  rw [List.flatMap_cons] at o1 o2
  have o1' : InOrder d.srcs := (List.pairwise_append.mp o1).1
  have o2' : InOrder qr := List.Pairwise.sublist w1.sublist (List.pairwise_append.mp o2).1
  have c2 : Close w b qr := fun z hz => k2 z (w1.subset hz)
  have calm : Calm e (tryStart e t) := close_calm (w := w) (b := b) (by omega) (by rw [hed]; exact hj) (by rw [p6]; omega) p3 p4 o1' o2' k1 c2
  have hsym : Sym k (tryStart e t) (tryStart e t).blk (tryStart e t).nxt := by
    rw [a3, p5]
    have hz : diff f0.sbn (tryStart e t).sbn = 0 := by
      rw [p6, hf0]; unfold diff; omega
    exact Or.inr ⟨f0, Or.inl (by rw [p3, hd]; exact List.mem_cons_self), by omega, by rw [p5, hz]; rfl, h0⟩
  have hlive := getNext_live hh (inv_tryStart hti tst) p1 fine calm (p2.trans tal) (Or.inl hsym)
  have hout := start_getNext hti tst p1
  have e1' := e1
  unfold read at e1
  rw [if_neg (by decide)] at e1
  unfold readIn at e1
  rw [← hed] at e1
  rw [← htd, if_neg (by rw [tst]; decide), if_pos p1] at e1
  cases hgn : getNext e (tryStart e t) with
  | error z => rw [hgn] at e1; cases e1
  | ok z =>
    rw [hgn] at e1 hlive hout
    obtain ⟨⟨v1, v2, v3⟩, v4, v5⟩ := hlive
    have e1 : (if (!z.1.alive) = true then Except.ok (z.1, none) else Except.ok z) = (Except.ok x : Res) := e1
    rw [if_neg (by rw [v1]; decide)] at e1
    cases e1
    rcases hout with ⟨_, hout⟩ | ⟨p, hout⟩
    · have hout : x.1.alive = false := hout
      rw [v1] at hout; cases hout
    rw [p5] at hout
    obtain ⟨m1, m2⟩ := read_keep (any_env maxLen maxJump (d.call tot)) hi0 hkn hrep0 hk0 u1 u2 e1' v1
    obtain ⟨_, m3⟩ := m2 _ _ hout
    obtain ⟨m4, _, m5⟩ := m3 rfl
    have hk' := read_known (any_env maxLen maxJump (d.call tot)) hi0 hkn u1 u2' s1 s2 e1' (fun hs => by cases hs)
    have hxp : posOf x.2 = some (b, 0) := by rw [hout]; rfl
    rw [hxp] at hk'
    rcases hk' v1 with ⟨q1, _⟩ | ⟨y0, q1, q2, q3, q4, q5⟩
    · cases q1
    cases q1
    have hp2 : (x.1.blk, x.1.nxt) = posOfNum k (b * k + 1) := by
      rw [q5, ← succ_num hk0]
      unfold posOfNum
      rw [Nat.mul_div_cancel _ hk0, Nat.mul_mod_left]
    have hb2 : x.1.blk = (b * k + 1) / k := congrArg Prod.fst hp2
    have hsb2 : x.1.sbn = (b * k + 1) / k % 65536 := by rw [q3.sbn, hb2]
    have hbs : (b * k + 1) / k = b ∨ (b * k + 1) / k = b + 1 := by
      have := blk_step (v := b * k) hk0
      rw [Nat.mul_div_cancel _ hk0] at this
      exact this
    rw [p3] at v2
    rw [p4] at v3
    obtain ⟨qs', z1, z2⟩ := suffix_map v2
    obtain ⟨qr', z3, z4⟩ := suffix_map v3
    rw [z2, hsb2] at v4
    rw [z4, hsb2] at v5
    have ln1 := z1.length_le
    have ln2 := (z3.trans w1).length_le
    have hqa' : ∀ x ∈ qs', x ∈ al := fun z hz => hda d List.mem_cons_self z (z1.subset hz)
    have cq := close_stays hw z1 k1 hbs v4
    have hgood := hn'.2.2
    rw [hout] at hgood
    have hgood := hgood.2.2.2
    have key := flow_run hk0 hw hj hm al res ds (b * k + 1) x.1 qs' qr' hi'.1 q2 (m1.hom q3) m4 hp2 v1 z2 z4
      (List.Pairwise.sublist (z1.sublist.append (List.Sublist.refl _)) o1) (List.Pairwise.sublist ((z3.trans w1).sublist.append (List.Sublist.refl _)) o2)
      cq (close_stays hw z3 c2 hbs v5) (by omega)
      (fun z hz => hu z (List.mem_cons_of_mem _ hz))
      (fun j z hz => by
        have := hcl (j + 1) z hz
        rw [show b * k + (j + 1) = b * k + 1 + j from by omega] at this
        exact this)
      (he.mono _ (fun b' i hb' hbi => m5 b' i hbi (by rw [hb2]; exact hb')))
      (inv_recenter hw hn'.1 hbs hsb2 z2 hqa' cq) hqa' (fun z hz => hda z (List.mem_cons_of_mem _ hz)) (fun z hz => hdr z (List.mem_cons_of_mem _ hz)) y e2
    rw [e3]
    have hp0 : (b, 0) = posOfNum k (b * k) := by
      unfold posOfNum
      rw [Nat.mul_div_cancel _ hk0, Nat.mul_mod_left]
    refine ⟨key.1, ?_, ?_⟩
    rotate_left
    · intro j o p' hj
      have hj : (x.2.toList ++ y.2)[j]? = some (o, p') := hj
      rw [hout] at hj
      cases j with
      | zero =>
        cases hj
        rw [hp0] at hgood
        exact own_of (v := b * k) hw (by rw [Nat.mul_div_cancel _ hk0]; exact hgood)
      | succ j =>
        have := key.2.2 j o p' hj
        rw [show b * k + (j + 1) = b * k + 1 + j from by omega]
        exact this
    show List.map (·.1) (x.2.toList ++ y.2) = _
    rw [hout]
    show some (b, 0) :: y.2.map (·.1) = _
    rw [key.2.1, List.length_cons, List.range_succ_eq_map, List.map_cons, List.map_map]
    congr 1
    · unfold posOfNum
      rw [Nat.add_zero, Nat.mul_div_cancel _ hk0, Nat.mul_mod_left]
    · apply List.map_congr_left
      intro j _
      show some (posOfNum k (b * k + 1 + j)) = some (posOfNum k (b * k + (j + 1)))
      congr 2
      omega

end Verif.FecReader
