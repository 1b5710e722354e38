import Verif.Depacketizer.Lemmas
import Mathlib.Tactic.Ring

/-!
# Depacketizer: capture timestamps and flags
-/

namespace Verif.Depacketizer

variable {α : Type}

/-- Number of samples that are not silence. -/
def cnt (out : List (Option α)) : Nat := out.countP (·.isSome)

theorem cnt_append (a b : List (Option α)) : cnt (a ++ b) = cnt a + cnt b := List.countP_append

theorem cnt_none (n : Nat) : cnt (List.replicate n (none : Option α)) = 0 := by
  unfold cnt
  rw [List.countP_eq_zero]
  intro x hx
  rw [List.eq_of_mem_replicate hx]
  simp

theorem cnt_some (l : List α) : cnt (l.map some) = l.length := by
  unfold cnt
  rw [← List.length_map (f := some) (as := l), List.countP_eq_length]
  intro x hx
  obtain ⟨a, _, rfl⟩ := List.mem_map.mp hx
  rfl

/-- The next capture timestamp is that of the next sample of the packet, or of the current position. -/
structure Clk (base per : Int) (s : St α) : Prop where
  valid : s.validCts = true
  none : s.pkt = none → s.nextCts = base + per * s.pos
  some : ∀ dp rem, s.pkt = some (dp, rem) → s.nextCts = base + per * (s.pos + sdiff dp s.ts)

/-- The frame began at position `F`. -/
structure Tim (f0 : Nat) (base per : Int) (F : Nat) (s : St α) (info : Info) : Prop where
  clk : Clk base per s
  filled : F + info.filled = s.pos
  cts : info.cts = base + per * F ∨ (info.cts = 0 ∧ info.decoded = 0 ∧ info.filled = 0) ∨ (info.decoded = 0 ∧ ∃ x ∈ s.got, (s.pos : Int) < start f0 x)

/-- The same while the frame is being filled. -/
structure TimI (base per : Int) (F : Nat) (s : St α) (info : Info) : Prop where
  clk : Clk base per s
  filled : F + info.filled = s.pos
  cts : info.cts = base + per * F ∨ (info.cts = 0 ∧ info.decoded = 0 ∧ info.filled = 0)

theorem setCts_eq {base per : Int} {F : Nat} (hT : base + per * F > 0) {info : Info} {nx : Int} {filled : Nat}
    (h : info.cts = base + per * F ∨ info.cts = 0) (he : nx - per * filled = base + per * F) : setCts per true nx filled info = base + per * F := by
  unfold setCts
  rcases h with h | h
  · rw [if_neg (by intro c; omega), h]
  · rw [if_pos ⟨h, rfl⟩, he]

theorem TimI.or {base per : Int} {F : Nat} {s : St α} {info : Info} (h : TimI base per F s info) : info.cts = base + per * F ∨ info.cts = 0 := by
  rcases h.cts with h | h
  · exact Or.inl h
  · exact Or.inr h.1

theorem sdiff_self (a : Nat) : sdiff a a = 0 := by
  unfold sdiff; omega

theorem shift_ts {pts ts : Nat} {k : Int} (h1 : pts < m32) (h2 : ts < m32) (h : sdiff pts ts = -k) (hk : 0 ≤ k) : (pts + k.toNat) % m32 = ts := by
  unfold sdiff at h
  simp only [m32] at *
  omega

theorem tim_blank {base per : Int} {f0 F : Nat} {s : St α} {info : Info} (hi : Inv f0 s) (ht : TimI base per F s info) (hT : base + per * F > 0) (hp : s.pkt = none) (n : Nat) :
    TimI base per F (blank per s n info).1 (blank per s n info).2 ∧ (blank per s n info).2.decoded = info.decoded := by
  have hpos : (blank per s n info).1.pos = s.pos + n := move_pos hi.first n
  have hn := ht.clk.none hp
  have hf := ht.filled
  refine ⟨⟨⟨ht.clk.valid, ?_, ?_⟩, ?_, Or.inl ?_⟩, rfl⟩
  · intro _
    rw [hpos]
    show (if s.validCts then s.nextCts + per * n else s.nextCts) = _
    rw [if_pos ht.clk.valid, hn]
    push_cast; ring
  · intro dp rem h
    have h : s.pkt = some (dp, rem) := h
    rw [hp] at h; cases h
  · rw [hpos]
    show F + (info.filled + n) = _
    omega
  · show setCts per s.validCts s.nextCts info.filled info = _
    rw [ht.clk.valid]
    refine setCts_eq hT ht.or ?_
    rw [hn, ← hf]
    push_cast; ring

/-- Playing. -/
theorem tim_play {base per : Int} {f0 F : Nat} {s : St α} {info : Info} (hi : Inv f0 s) (ht : TimI base per F s info) (hT : base + per * F > 0)
    {dp : Nat} {rem : List α} (hdp : dp = s.ts) (hnx : s.nextCts = base + per * s.pos) (n : Nat) :
    TimI base per F (play per s dp rem (min n rem.length) n info).1 (play per s dp rem (min n rem.length) n info).2 := by
  obtain ⟨k, hk⟩ : ∃ k, k = min n rem.length := ⟨_, rfl⟩
  rw [← hk]
  have hpos : (play per s dp rem k n info).1.pos = s.pos + k := move_pos hi.first k
  have hf := ht.filled
  have hnx' : (play per s dp rem k n info).1.nextCts = base + per * (s.pos + k) := by
    show (if s.validCts then s.nextCts + per * k else s.nextCts) = _
    rw [if_pos ht.clk.valid, hnx]
    ring
  refine ⟨⟨ht.clk.valid, ?_, ?_⟩, ?_, ?_⟩
  · intro _
    rw [hpos, hnx']
    push_cast; ring
  · intro dp' rem' h
    have h : (if k < n then none else some ((dp + k) % m32, rem.drop k)) = some (dp', rem') := h
    by_cases hkn : k < n
    · rw [if_pos hkn] at h; cases h
    · rw [if_neg hkn] at h
      injection h with h
      injection h with h1 h2
      have e : (play per s dp rem k n info).1.ts = dp' := by
        rw [← h1, hdp]; rfl
      rw [e, sdiff_self, hnx', hpos]
      push_cast; ring
  · rw [hpos]
    show F + (info.filled + k) = _
    omega
  · show (if k ≠ 0 then setCts per s.validCts s.nextCts info.filled info else info.cts) = _ ∨ _
    by_cases hk0 : k ≠ 0
    · rw [if_pos hk0]
      left
      rw [ht.clk.valid]
      refine setCts_eq hT ht.or ?_
      rw [hnx, ← hf]
      push_cast; ring
    · rw [if_neg hk0]
      rw [not_not] at hk0
      rcases ht.cts with h | h
      · exact Or.inl h
      · right
        refine ⟨?_, ?_, ?_⟩
        · show (if k ≠ 0 then setCts per s.validCts s.nextCts info.filled info else info.cts) = 0
          rw [if_neg (by omega)]; exact h.1
        · show info.decoded + k = 0
          omega
        · show info.filled + k = 0
          omega

theorem TimI.tim {base per : Int} {f0 F : Nat} {s : St α} {info : Info} (h : TimI base per F s info) : Tim f0 base per F s info :=
  ⟨h.clk, h.filled, h.cts.elim Or.inl (fun c => Or.inr (Or.inl c))⟩

/-- What is known about a part. -/
structure Told (f0 : Nat) (base per : Int) (F : Nat) (info : Info) (n : Nat) (r : Part α) : Prop where
  tim : Tim f0 base per F r.1 r.2.2.2
  more : r.2.2.1.length < n → TimI base per F r.1 r.2.2.2

theorem told_readPart {base per : Int} {f0 F : Nat} {s : St α} {q : List (Pkt α)} {info : Info} (hi : Inv f0 s) (ht : TimI base per F s info) (hT : base + per * F > 0) (n : Nat)
    {r : Part α} (h : readPart per s q n info = .ok r) : Told f0 base per F info n r := by
  unfold readPart at h
  rcases Option.eq_none_or_eq_some s.pkt with hp | ⟨y, hp⟩
  · rw [hp] at h
    have h := Except.ok.inj h
    rw [← h]
    exact ⟨(tim_blank hi ht hT hp n).1.tim, fun _ => (tim_blank hi ht hT hp n).1⟩
  · obtain ⟨dp, rem⟩ := y
    rw [hp] at h
    have h : (if s.ts ≠ dp then if ¬ sdiff s.ts dp < 0 then Except.error Fault.panic else Except.ok (consume per s q dp rem (min (sdiff dp s.ts).toNat n) n info)
      else Except.ok (consumeNow per s q dp rem n info)) = Except.ok r := h
    obtain ⟨done, x, D, hg, hd, hh⟩ := hi.some dp rem hp
    have hle := hh.le
    have hs : sdiff dp s.ts = D - s.pos := by rw [hi.ts, hh.dp, (sdiff_ahead hh.le hh.lt).1]
    have hnx := ht.clk.some dp rem hp
    rw [hs] at hnx
    have hnx : s.nextCts = base + per * D := by rw [hnx]; ring
    by_cases h1 : s.ts ≠ dp
    · rw [if_pos h1] at h
      by_cases h2 : sdiff s.ts dp < 0
      · rw [if_neg (not_not.mpr h2), hs] at h
        have hDp : ((D : Int) - s.pos).toNat = D - s.pos := by omega
        rw [hDp] at h
        have h := Except.ok.inj h
        rw [← h]
        obtain ⟨m, hm⟩ : ∃ m, m = min (D - s.pos) n := ⟨_, rfl⟩
        rw [← hm]
        have hpos := move_pos hi.first m
        obtain ⟨g1, g2, g3⟩ := inv_gap hi hp hg hd hh (m := m) (by omega)
        have hf := ht.filled
        have hf' : F + (info.filled + m) = (s.move m).pos := by omega
        have hclk : Clk base per (s.move m) := by
          refine ⟨ht.clk.valid, ?_, ?_⟩
          · intro c
            have c : s.pkt = none := c
            rw [hp] at c; cases c
          · intro dp' rem' c
            have c : s.pkt = some (dp', rem') := c
            rw [hp] at c
            injection c with c
            injection c with c1 c2
            rw [← c1, g1.ts, g3.dp, (sdiff_ahead g3.le g3.lt).1]
            show s.nextCts = _
            rw [hnx]; ring
        have hcts : s.pos + m = D → setCts per s.validCts s.nextCts (info.filled + m) info = base + per * F := by
          intro e
          rw [ht.clk.valid]
          refine setCts_eq hT ht.or ?_
          rw [hnx, ← e, ← hf]
          push_cast; ring
        unfold consume
        by_cases hn : n - m > 0
        · rw [if_pos hn]
          have hDm : D = (s.move m).pos := by omega
          have t1 : TimI base per F (gap per s m info).1 (gap per s m info).2 := ⟨hclk, hf', Or.inl (hcts (by omega))⟩
          have t2 := tim_play g1 (info := (gap per s m info).2) t1 hT (dp := dp) (rem := rem) (by rw [g3.dp, g1.ts, hDm]) (by rw [← hDm]; exact hnx) (n - m)
          exact ⟨t2.tim, fun _ => t2⟩
        · rw [if_neg hn]
          refine ⟨⟨hclk, hf', ?_⟩, ?_⟩
          · by_cases e : s.pos + m = D
            · exact Or.inl (hcts e)
            · rcases ht.cts with c | c
              · left
                show setCts per s.validCts s.nextCts (info.filled + m) info = _
                unfold setCts
                rw [if_neg (by intro c'; omega), c]
              · right; right
                refine ⟨c.2.1, x, by show x ∈ s.got; rw [hg]; simp, ?_⟩
                show ((s.move m).pos : Int) < _
                have : (D : Int) = start f0 x := by
                  rcases hh.at_ with c | c
                  · omega
                  · exact c
                omega
          · intro hl
            have hl : (List.replicate m (none : Option α)).length < n := hl
            rw [List.length_replicate] at hl
            omega
      · rw [if_pos h2] at h
        cases h
    · rw [if_neg h1] at h
      rw [not_not] at h1
      have h := Except.ok.inj h
      rw [← h]
      have hD : D = s.pos := eq_ahead hh.le hh.lt (by rw [← hi.ts, ← hh.dp]; exact h1)
      have t2 := tim_play hi ht hT (dp := dp) (rem := rem) h1.symm (by rw [hnx, hD]) n
      exact ⟨t2.tim, fun _ => t2⟩

theorem clk_accept {base per : Int} {f0 : Nat} {s : St α} (hf : s.first = false) (hts : s.ts = (f0 + s.pos) % m32) {p : Pkt α} (hp : POk p)
    (hlt : sdiff s.ts ((p.ts + p.samples.length) % m32) < 0) (hc : p.cts ≠ 0 ∧ p.cts = base + per * start f0 (s.pos, p))
    {r : St α} (h : accept per s p = .ok r) : Clk base per r := by
  obtain ⟨a1, a2, a3⟩ := accept_arith hts hp.2.1 hp.2.2 hp.1 hlt
  have hst : startTs s p = s.ts := by unfold startTs; rw [hf]; rfl
  obtain ⟨v, hv⟩ : ∃ v, v = sdiff s.ts ((p.ts + p.samples.length) % m32) := ⟨_, rfl⟩
  rw [← hv] at a1 a2 a3 hlt
  have hstart : start f0 (s.pos, p) = s.pos - v - p.samples.length := by
    unfold start stop
    rw [← hts, hv]
  rw [hstart] at hc
  have hval : nowValid s p = true := by
    unfold nowValid
    rw [decide_eq_true hc.1, Bool.or_true]
  have hts2 : s.ts < m32 := by rw [hts]; exact Nat.mod_lt _ (by simp [m32])
  obtain ⟨p1, p2, p3⟩ := hp
  unfold accept at h
  rw [hst, hval] at h
  by_cases h1 : sdiff p.ts s.ts < 0
  · rw [if_pos h1, if_neg (by omega)] at h
    have h := Except.ok.inj h
    rw [← h]
    refine ⟨rfl, fun c => (by cases c), ?_⟩
    intro dp rem c
    injection c with c
    injection c with c1 c2
    have e : dp = s.ts := by
      rw [← c1, a2]
      exact shift_ts p1 hts2 (by rw [a1]; ring) (by omega)
    rw [e]
    show (if true = true then p.cts + per * sdiff s.ts p.ts else p.cts) = base + per * (s.pos + sdiff s.ts s.ts)
    rw [if_pos rfl, sdiff_self, a2, hc.2]
    ring
  · rw [if_neg h1] at h
    have h := Except.ok.inj h
    rw [← h]
    refine ⟨rfl, fun c => (by cases c), ?_⟩
    intro dp rem c
    injection c with c
    injection c with c1 c2
    rw [← c1]
    show p.cts = base + per * (s.pos + sdiff p.ts s.ts)
    rw [a1, hc.2]
    ring

theorem tim_update {base per : Int} {f0 : Nat} {s : St α} (hi : Inv f0 s) (hk : Clk base per s) {q : List (Pkt α)} (hq : ∀ p ∈ q, POk p)
    {u : St α × List (Pkt α) × Nat} (h : update per s q = .ok u) (ht : Truth base per f0 u.1.got) : Clk base per u.1 := by
  unfold update at h
  rcases Option.eq_none_or_eq_some s.pkt with hp | ⟨y, hp⟩
  rotate_left
  · rw [if_pos (by rw [hp]; rfl)] at h
    have h := Except.ok.inj h
    rw [← h]
    exact hk
  · rw [if_neg (by rw [hp]; simp)] at h
    obtain ⟨ev, r, q', d, i1, i2, i3, i4, i5⟩ := fetch_spec hi.ts q hq
    have i1 : fetch s.first s.ts s.pos q = (ev, r, q', d) := by rw [hi.first]; exact i1
    rw [i1] at h
    cases r with
    | none =>
      have h := Except.ok.inj h
      rw [← h]
      exact ⟨hk.valid, hk.none, hk.some⟩
    | some p =>
      obtain ⟨j1, ev0, j2, j3, j4⟩ := i5 p rfl
      have h : (accept per { s with got := s.got ++ ev } p).bind (fun s' => .ok (s', q', d)) = .ok u := h
      cases ha : accept per { s with got := s.got ++ ev } p with
      | error f => rw [ha] at h; cases h
      | ok t =>
        rw [ha] at h
        have h := Except.ok.inj h
        rw [← h]
        have hmem : (s.pos, p) ∈ u.1.got := by
          have hgt : t.got = s.got ++ ev := by
            unfold accept at ha
            split at ha
            · split at ha
              · cases ha
              · rw [← Except.ok.inj ha]
            · rw [← Except.ok.inj ha]
          have : u.1.got = s.got ++ ev := by rw [← h]; exact hgt
          rw [this, j2]
          simp
        exact clk_accept (s := { s with got := s.got ++ ev }) hi.first hi.ts j1 j4 (ht _ hmem) ha

theorem got_readPart {per : Int} {f0 : Nat} {s : St α} (hi : Inv f0 s) {q : List (Pkt α)} (hq : s.pkt = none → q = []) {n : Nat} {info : Info} {r : Part α}
    (h : readPart per s q n info = .ok r) : ∀ x ∈ s.got, x ∈ r.1.got := by
  obtain ⟨r', hr, hpost⟩ := (post_readPart hi per q hq n info).elim
  rw [h] at hr
  rw [Except.ok.inj hr]
  obtain ⟨ev, e, _⟩ := hpost.ev
  rw [e]
  exact fun x hx => List.mem_append_left _ hx

theorem told_readSamples {base per : Int} {f0 F : Nat} {s : St α} {q : List (Pkt α)} {info : Info} (hi : Inv f0 s) (ht : TimI base per F s info) (hT : base + per * F > 0)
    (hq : ∀ p ∈ q, POk p) (n : Nat) {r : Part α} (h : readSamples per s q n info = .ok r) (htr : Truth base per f0 r.1.got) : Told f0 base per F info n r := by
  unfold readSamples at h
  obtain ⟨u, hu, u1, u2, u3, u4, u5, ev, u6, u7, u8⟩ := (inv_update hi per q hq).elim
  rw [hu] at h
  have h : readPart per u.1 u.2.1 n { info with dropped := info.dropped + u.2.2 } = .ok r := h
  have hc : Clk base per u.1 := tim_update hi ht.clk hq hu (fun x hx => htr x (got_readPart u1 u3 h x hx))
  have t : TimI base per F u.1 { info with dropped := info.dropped + u.2.2 } := ⟨hc, by rw [u2]; exact ht.filled, ht.cts⟩
  have := told_readPart u1 t hT n h
  exact ⟨this.tim, this.more⟩

theorem told_loop {base per : Int} {f0 F : Nat} (hT : base + per * F > 0) (fuel : Nat) {s : St α} {q : List (Pkt α)} {info : Info} (hi : Inv f0 s) (ht : TimI base per F s info)
    (hq : ∀ p ∈ q, POk p) (n : Nat) (hf : 2 * q.length + held s + 1 < fuel) {r : Part α} (h : loop per fuel s q n info = .ok r) (htr : Truth base per f0 r.1.got) :
    Tim f0 base per F r.1 r.2.2.2 := by
  induction fuel generalizing s q n info r with
  | zero => omega
  | succ fuel ih =>
    unfold loop at h
    by_cases hn : n = 0
    · rw [if_pos hn] at h
      rw [← Except.ok.inj h]
      exact ht.tim
    · rw [if_neg hn] at h
      obtain ⟨t, hr, r1, r2, r3⟩ := (post_readSamples hi per q hq n info).elim
      rw [hr] at h
      have h : (loop per fuel t.1 t.2.1 (n - t.2.2.1.length) t.2.2.2).bind (fun r' => .ok (r'.1, r'.2.1, t.2.2.1 ++ r'.2.2.1, r'.2.2.2)) = .ok r := h
      obtain ⟨ev, e1, e2, e3⟩ := r1.ev
      have hq' : ∀ p ∈ t.2.1, POk p := fun p hp => hq p (by rw [← e2]; exact List.mem_append_right _ hp)
      by_cases hl : t.2.2.1.length < n
      · have hm := r3 hl
        obtain ⟨r', hl', g1, g2⟩ := (post_loop per fuel r1.inv t.2.1 hq' (n - t.2.2.1.length) t.2.2.2 (by omega)).elim
        rw [hl'] at h
        have h := Except.ok.inj h
        have hgot : r.1.got = r'.1.got := by rw [← h]
        obtain ⟨ev', e1', e2', e3'⟩ := g1.ev
        have htold := told_readSamples hi ht hT hq n hr (fun x hx => htr x (by rw [hgot, e1']; exact List.mem_append_left _ hx))
        have := ih r1.inv (htold.more hl) hq' _ (by omega) hl' (by rw [← hgot]; exact htr)
        rw [← h]
        exact this
      · have h0 : n - t.2.2.1.length = 0 := by omega
        rw [h0] at h
        obtain ⟨fu, hfu⟩ : ∃ fu, fuel = fu + 1 := ⟨fuel - 1, by omega⟩
        rw [hfu] at h
        unfold loop at h
        rw [if_pos rfl] at h
        have h := Except.ok.inj h
        have hgot : r.1.got = t.1.got := by rw [← h]
        have htold := told_readSamples hi ht hT hq n hr (by rw [← hgot]; exact htr)
        rw [← h]
        exact htold.tim

/-- Decoded samples are counted. -/
theorem cnt_readPart {per : Int} {s : St α} {q : List (Pkt α)} {n : Nat} {info : Info} {r : Part α} (h : readPart per s q n info = .ok r) :
    r.2.2.2.decoded = info.decoded + cnt r.2.2.1 := by
  unfold readPart at h
  rcases Option.eq_none_or_eq_some s.pkt with hp | ⟨y, hp⟩
  · rw [hp] at h
    rw [← Except.ok.inj h]
    show info.decoded = info.decoded + cnt (List.replicate n none)
    rw [cnt_none, Nat.add_zero]
  · obtain ⟨dp, rem⟩ := y
    rw [hp] at h
    have h : (if s.ts ≠ dp then if ¬ sdiff s.ts dp < 0 then Except.error Fault.panic else Except.ok (consume per s q dp rem (min (sdiff dp s.ts).toNat n) n info)
      else Except.ok (consumeNow per s q dp rem n info)) = Except.ok r := h
    by_cases h1 : s.ts ≠ dp
    · rw [if_pos h1] at h
      by_cases h2 : sdiff s.ts dp < 0
      · rw [if_neg (not_not.mpr h2)] at h
        rw [← Except.ok.inj h]
        generalize min (sdiff dp s.ts).toNat n = m
        unfold consume
        by_cases hn : n - m > 0
        · rw [if_pos hn]
          show info.decoded + min (n - m) rem.length = info.decoded + cnt (List.replicate m none ++ (rem.take (n - m)).map some)
          rw [cnt_append, cnt_none, cnt_some, List.length_take]; omega
        · rw [if_neg hn]
          show info.decoded = info.decoded + cnt (List.replicate m none)
          rw [cnt_none, Nat.add_zero]
      · rw [if_pos h2] at h
        cases h
    · rw [if_neg h1] at h
      rw [← Except.ok.inj h]
      show info.decoded + min n rem.length = info.decoded + cnt ((rem.take n).map some)
      rw [cnt_some, List.length_take]

theorem cnt_loop {per : Int} (fuel : Nat) {s : St α} {q : List (Pkt α)} {n : Nat} {info : Info} {r : Part α} (h : loop per fuel s q n info = .ok r) :
    r.2.2.2.decoded = info.decoded + cnt r.2.2.1 := by
  induction fuel generalizing s q n info r with
  | zero => cases h
  | succ fuel ih =>
    unfold loop at h
    by_cases hn : n = 0
    · rw [if_pos hn] at h
      rw [← Except.ok.inj h]
      rfl
    · rw [if_neg hn] at h
      cases hr : readSamples per s q n info with
      | error f => rw [hr] at h; cases h
      | ok t =>
        rw [hr] at h
        have h : (loop per fuel t.1 t.2.1 (n - t.2.2.1.length) t.2.2.2).bind (fun r' => .ok (r'.1, r'.2.1, t.2.2.1 ++ r'.2.2.1, r'.2.2.2)) = .ok r := h
        cases hl : loop per fuel t.1 t.2.1 (n - t.2.2.1.length) t.2.2.2 with
        | error f => rw [hl] at h; cases h
        | ok r' =>
          rw [hl] at h
          have h := Except.ok.inj h
          have i := ih hl
          rw [← h]
          show r'.2.2.2.decoded = info.decoded + cnt (t.2.2.1 ++ r'.2.2.1)
          rw [cnt_append, i]
          unfold readSamples at hr
          cases hu : update per s q with
          | error f => rw [hu] at hr; cases hr
          | ok u =>
            rw [hu] at hr
            have := cnt_readPart (show readPart per u.1 u.2.1 n { info with dropped := info.dropped + u.2.2 } = .ok t from hr)
            rw [this]
            show info.decoded + _ + _ = _
            omega

end Verif.Depacketizer
