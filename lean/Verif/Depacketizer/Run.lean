import Verif.Depacketizer.Time

/-!
# Depacketizer: histories
-/

namespace Verif.Depacketizer

variable {α : Type}

theorem cnt_pos {l : List (Option α)} : cnt l ≠ 0 ↔ ∃ x ∈ l, x ≠ none := by
  unfold cnt
  rw [← Nat.pos_iff_ne_zero, List.countP_pos_iff]
  constructor
  · rintro ⟨x, h1, h2⟩
    exact ⟨x, h1, by rw [← Option.isSome_iff_ne_none]; exact h2⟩
  · rintro ⟨x, h1, h2⟩
    exact ⟨x, h1, by rw [← Option.isSome_iff_ne_none] at h2; exact h2⟩

theorem cnt_lt {l : List (Option α)} : cnt l < l.length ↔ ∃ x ∈ l, x = none := by
  unfold cnt
  have h1 := List.countP_le_length (p := fun o : Option α => o.isSome) (l := l)
  have h2 := List.countP_eq_length (p := fun o : Option α => o.isSome) (l := l)
  constructor
  · intro h
    by_contra c
    have : List.countP (fun o : Option α => o.isSome) l = l.length := by
      rw [h2]
      intro x hx
      cases x with
      | none => exact absurd ⟨none, hx, rfl⟩ c
      | some a => rfl
    omega
  · rintro ⟨x, hx, rfl⟩
    rcases Nat.lt_or_ge (List.countP (fun o : Option α => o.isSome) l) l.length with h | h
    · exact h
    · have := h2.mp (by omega) none hx
      cases this

/-- What is known after a call. -/
structure Call1 (base per : Int) (f0 : Nat) (s : St α) (q : List (Pkt α)) (n : Nat) (r : St α × List (Pkt α) × Frame α) (ev : List (Nat × Pkt α)) : Prop where
  inv : Inv f0 r.1
  pos : r.1.pos = s.pos + n
  got : r.1.got = s.got ++ ev
  taken : ev.map (·.2) ++ r.2.1 = q
  time : ∀ x ∈ ev, s.pos ≤ x.1 ∧ x.1 ≤ s.pos + n
  size : r.2.2.samples.length = n
  chunk : Chunk f0 r.1.got r.2.1 s.pos r.2.2.samples
  clk : Truth base per f0 r.1.got → Clk base per r.1
  notBlank : r.2.2.notBlank = true ↔ ∃ x ∈ r.2.2.samples, x ≠ none
  notComplete : r.2.2.notComplete = true ↔ ∃ x ∈ r.2.2.samples, x = none
  clock : Truth base per f0 r.1.got → r.2.2.samples ≠ [] →
    ((∃ x ∈ r.2.2.samples, x ≠ none) ∨ ∀ x ∈ r.1.got, start f0 x ≤ (s.pos + n : Nat)) → r.2.2.cts = some (base + per * s.pos)

/-- `read` with the loop replaced. -/
def frameOf (n : Nat) (r : Part α) : St α × List (Pkt α) × Frame α :=
  (r.1, r.2.1, ⟨r.2.2.1, decide (r.2.2.2.decoded ≠ 0), decide (r.2.2.2.decoded < n), decide (r.2.2.2.dropped ≠ 0),
      if r.2.2.2.cts > 0 then some r.2.2.2.cts else none⟩)

theorem pos_time {base per : Int} (hb : base > 0) (hp : per ≥ 0) (F : Nat) : base + per * F > 0 := by
  have := Int.mul_nonneg hp (Int.natCast_nonneg F)
  omega

theorem call_loop {base per : Int} (hb : base > 0) (hper : per ≥ 0) {f0 : Nat} {s : St α} (hi : Inv f0 s) (hc : Truth base per f0 s.got → Clk base per s)
    {q : List (Pkt α)} (hq : ∀ p ∈ q, POk p) {n fuel : Nat} (hf : 2 * q.length + held s + 1 < fuel) :
    Sat (fun r => ∃ ev, Call1 base per f0 s q n (frameOf n r) ev) (loop per fuel s q n ⟨0, 0, 0, 0⟩) := by
  obtain ⟨r, hr, p1, p2⟩ := (post_loop per fuel hi q hq n ⟨0, 0, 0, 0⟩ hf).elim
  rw [hr]
  obtain ⟨ev, e1, e2, e3⟩ := p1.ev
  have hpos := p1.pos
  rw [p2] at hpos
  have hcnt := cnt_loop fuel hr
  have hcnt : r.2.2.2.decoded = cnt r.2.2.1 := by rw [hcnt]; exact Nat.zero_add _
  have hT := pos_time hb hper s.pos
  have htim : Truth base per f0 r.1.got → Tim f0 base per s.pos r.1 r.2.2.2 := by
    intro ht
    have h0 : TimI base per s.pos s ⟨0, 0, 0, 0⟩ :=
      ⟨hc (fun x hx => ht x (by rw [e1]; exact List.mem_append_left _ hx)), rfl, Or.inr ⟨rfl, rfl, rfl⟩⟩
    exact told_loop hT fuel hi h0 hq n hf hr ht
  have hnb : decide (r.2.2.2.decoded ≠ 0) = true ↔ ∃ x ∈ r.2.2.1, x ≠ none := by
    rw [decide_eq_true_iff, hcnt, cnt_pos]
  refine ⟨ev, p1.inv, hpos, e1, e2, ?_, p2, p1.chunk, fun ht => (htim ht).clk, hnb, ?_, ?_⟩
  · rw [← hpos]; exact e3
  · show decide (r.2.2.2.decoded < n) = true ↔ ∃ x ∈ r.2.2.1, x = none
    rw [decide_eq_true_iff, hcnt, ← p2, cnt_lt]
  · intro ht hne hor
    have ht := htim ht
    have hcts : r.2.2.2.cts = base + per * s.pos := by
      rcases ht.cts with c | c | ⟨c, x, hx, c'⟩
      · exact c
      · exfalso
        have := ht.filled
        apply hne
        show r.2.2.1 = []
        apply List.eq_nil_of_length_eq_zero
        omega
      · exfalso
        rcases hor with h | h
        · have := hnb.mpr h
          rw [decide_eq_true_iff] at this
          exact this c
        · have := h x hx
          rw [hpos] at c'
          omega
    show (if r.2.2.2.cts > 0 then some r.2.2.2.cts else none) = _
    rw [hcts, if_pos hT]

theorem read_eq (per : Int) (s : St α) (q : List (Pkt α)) (n : Nat) :
    read per s q n = (loop per (2 * q.length + n + 2) s q n ⟨0, 0, 0, 0⟩).bind fun r => .ok (frameOf n r) := rfl

/-- A call after the stream has started. -/
theorem call_read {base per : Int} (hb : base > 0) (hper : per ≥ 0) {f0 : Nat} {s : St α} (hi : Inv f0 s) (hc : Truth base per f0 s.got → Clk base per s)
    {q : List (Pkt α)} (hq : ∀ p ∈ q, POk p) (n : Nat) :
    Sat (fun r => ∃ ev, Call1 base per f0 s q n r ev) (read per s q n) := by
  rw [read_eq]
  by_cases hn : n = 0
  · rw [hn]
    show Sat _ (Except.ok _)
    refine ⟨[], hi, rfl, by simp [frameOf], rfl, (fun x hx => by cases hx), rfl, (post_refl hi q ⟨0, 0, 0, 0⟩).chunk, hc, ?_, ?_, ?_⟩
    · show decide (0 ≠ 0) = true ↔ ∃ x ∈ ([] : List (Option α)), x ≠ none
      simp
    · show decide (0 < 0) = true ↔ ∃ x ∈ ([] : List (Option α)), x = none
      simp
    · intro _ c
      exact absurd rfl c
  · refine (call_loop hb hper hi hc hq (n := n) ?_).bind (fun r hr => hr)
    unfold held
    split_ifs <;> omega

/-- No packets were seen. -/
structure Fresh (s : St α) : Prop where
  first : s.first = true
  pkt : s.pkt = none
  got : s.got = []
  pos : s.pos = 0
  valid : s.validCts = false

theorem fresh_start {base per : Int} {s : St α} (hs : Fresh s) {p : Pkt α} (hp : POk p) :
    Sat (fun t => Inv p.ts t ∧ (Truth base per p.ts t.got → Clk base per t) ∧ t.got = [(0, p)] ∧ t.pos = 0 ∧ t.pkt.isSome = true)
      (accept per { s with got := s.got ++ [(s.pos, p)] } p) := by
  have e : accept per { s with got := s.got ++ [(s.pos, p)] } p = accept per { s with got := s.got ++ [(s.pos, p)], ts := p.ts, first := false } p := by
    unfold accept startTs
    rw [if_pos hs.first, if_neg Bool.false_ne_true]
    rfl
  rw [e]
  have hg : s.got ++ [(s.pos, p)] = [(0, p)] := by rw [hs.got, hs.pos]; rfl
  have hts : p.ts = (p.ts + 0) % m32 := by rw [Nat.add_zero, Nat.mod_eq_of_lt hp.1]
  have hlt : sdiff p.ts ((p.ts + p.samples.length) % m32) < 0 := by
    obtain ⟨p1, p2, p3⟩ := hp
    unfold sdiff
    simp only [m32] at *
    omega
  obtain ⟨t, ht, i1, i2, i3, i4⟩ := (inv_accept (f0 := p.ts) (s := { s with got := s.got ++ [(s.pos, p)], ts := p.ts, first := false }) (ev0 := []) rfl
    (by show p.ts = (p.ts + s.pos) % m32; rw [hs.pos]; exact hts) hp (by show s.got ++ _ = _; rw [hs.got]) (fun y hy => by cases hy)
    (by intro x hx
        have hx : x ∈ s.got ++ [(s.pos, p)] := hx
        rw [hs.got] at hx
        rw [List.mem_singleton.mp hx]) hlt per).elim
  rw [ht]
  have hgot : t.got = [(0, p)] := i2.trans hg
  refine ⟨i1, ?_, hgot, i3.trans hs.pos, i4⟩
  intro htr
  rw [hgot] at htr
  refine clk_accept (s := { s with got := s.got ++ [(s.pos, p)], ts := p.ts, first := false }) (f0 := p.ts) rfl
    (by show p.ts = (p.ts + s.pos) % m32; rw [hs.pos]; exact hts) hp hlt ?_ ht
  show p.cts ≠ 0 ∧ p.cts = base + per * start p.ts (s.pos, p)
  rw [hs.pos]
  exact htr _ List.mem_cons_self

/-- A call before the stream has started. -/
theorem call_fresh {base per : Int} (hb : base > 0) (hper : per ≥ 0) {s : St α} (hs : Fresh s) {q : List (Pkt α)} (hq : ∀ p ∈ q, POk p) (n : Nat) :
    Sat (fun r => (Fresh r.1 ∧ r.2.1 = q ∧ (q = [] ∨ r.2.2.samples = []) ∧ r.2.2 = ⟨List.replicate n none, false, decide (0 < n), false, none⟩) ∨
      ∃ p q', q = p :: q' ∧ ∃ ev, Call1 base per p.ts ({ s with got := [] }) q n r ((0, p) :: ev)) (read per s q n) := by
  rw [read_eq]
  by_cases hn : n = 0
  · rw [hn]
    exact Or.inl ⟨hs, rfl, Or.inr rfl, rfl⟩
  · cases q with
    | nil =>
      have h1 : update per s [] = .ok ({ s with got := s.got ++ [] }, [], 0) := by
        unfold update
        rw [if_neg (by rw [hs.pkt]; simp)]
        rfl
      have h2 : readSamples per s [] n ⟨0, 0, 0, 0⟩ =
          .ok ((blank per { s with got := s.got ++ [] } n ⟨0, 0, 0, 0⟩).1, [], List.replicate n none, (blank per { s with got := s.got ++ [] } n ⟨0, 0, 0, 0⟩).2) := by
        unfold readSamples
        rw [h1]
        show readPart per { s with got := s.got ++ [] } [] n ⟨0, 0, 0, 0⟩ = _
        unfold readPart
        show (match s.pkt with | none => _ | some (dp, rem) => _) = _
        rw [hs.pkt]
      have h3 : loop per (2 * ([] : List (Pkt α)).length + n + 2) s [] n ⟨0, 0, 0, 0⟩ =
          .ok ((blank per { s with got := s.got ++ [] } n ⟨0, 0, 0, 0⟩).1, [], List.replicate n none ++ [], (blank per { s with got := s.got ++ [] } n ⟨0, 0, 0, 0⟩).2) := by
        show (if n = 0 then _ else _) = _
        rw [if_neg hn, h2]
        show (loop per (2 * ([] : List (Pkt α)).length + n + 1) _ [] (n - (List.replicate n (none : Option α)).length) _).bind _ = _
        rw [List.length_replicate, Nat.sub_self]
        show (if 0 = 0 then _ else _ : Except Fault (Part α)).bind _ = _
        rw [if_pos rfl]
        rfl
      rw [h3]
      refine Or.inl ⟨⟨hs.first, hs.pkt, ?_, ?_, hs.valid⟩, rfl, Or.inl rfl, ?_⟩
      · show s.got ++ [] = []
        rw [hs.got]; rfl
      · show (if s.first then s.pos else s.pos + n) = 0
        rw [if_pos hs.first, hs.pos]
      · have hc : (blank per { s with got := s.got ++ [] } n ⟨0, 0, 0, 0⟩).2.cts = 0 := by
          show setCts per s.validCts s.nextCts 0 ⟨0, 0, 0, 0⟩ = 0
          unfold setCts
          rw [hs.valid, if_neg (by simp)]
        unfold frameOf
        show Frame.mk (List.replicate n none ++ []) _ _ _ (if (blank per { s with got := s.got ++ [] } n ⟨0, 0, 0, 0⟩).2.cts > 0 then _ else _) = _
        rw [hc, if_neg (by omega), List.append_nil]
        rfl
    | cons p q' =>
      obtain ⟨t, ht, t1, t2, t3, t4, t5⟩ := (fresh_start (base := base) (per := per) hs (hq p List.mem_cons_self)).elim
      have h1 : update per s (p :: q') = .ok (t, q', 0) := by
        unfold update
        rw [if_neg (by rw [hs.pkt]; simp)]
        unfold fetch
        rw [if_pos hs.first]
        show (accept per { s with got := s.got ++ [(s.pos, p)] } p).bind _ = _
        rw [ht]
        rfl
      have h1' : update per t q' = .ok (t, q', 0) := by
        unfold update
        rw [if_pos t5]
      have h3 : loop per (2 * (p :: q').length + n + 2) s (p :: q') n ⟨0, 0, 0, 0⟩ = loop per (2 * (p :: q').length + n + 2) t q' n ⟨0, 0, 0, 0⟩ := by
        show (if n = 0 then _ else (readSamples per s (p :: q') n ⟨0, 0, 0, 0⟩).bind _) = if n = 0 then _ else (readSamples per t q' n ⟨0, 0, 0, 0⟩).bind _
        rw [if_neg hn, if_neg hn]
        unfold readSamples
        rw [h1, h1']
      rw [h3]
      refine (call_loop hb hper t1 t2 (fun x hx => hq x (List.mem_cons_of_mem _ hx)) (n := n) ?_).bind ?_
      · unfold held
        rw [if_pos t5, List.length_cons]; omega
      · rintro r ⟨ev, hr⟩
        refine Or.inr ⟨p, q', rfl, ev, ?_⟩
        have e := hs.pos.trans t4.symm
        refine ⟨hr.inv, ?_, ?_, ?_, ?_, hr.size, ?_, hr.clk, hr.notBlank, hr.notComplete, ?_⟩
        · show _ = s.pos + n
          rw [e]; exact hr.pos
        · rw [hr.got, t3]; rfl
        · show p :: (ev.map (·.2) ++ _) = _
          rw [hr.taken]
        · intro x hx
          show s.pos ≤ x.1 ∧ x.1 ≤ s.pos + n
          rcases List.mem_cons.mp hx with hx | hx
          · rw [hx, hs.pos]
            exact ⟨Nat.le_refl _, Nat.zero_le _⟩
          · rw [e]; exact hr.time x hx
        · show Chunk p.ts _ _ s.pos _
          rw [e]; exact hr.chunk
        · show _ → _ → (_ ∨ ∀ x ∈ _, start p.ts x ≤ (s.pos + n : Nat)) → _ = some (base + per * s.pos)
          rw [e]; exact hr.clock

/-- What is known after calls in a started stream. -/
structure Many (base per : Int) (f0 : Nat) (s : St α) (h : List (Call α)) (r : St α × List (Done α)) : Prop where
  served : List.Forall₂ Served h r.2
  tl : ∃ got, r.1.got = s.got ++ got ∧ Timeline (fun pos d got => Eager f0 pos d got ∧ Clock base per f0 pos d got) s.pos r.2 s.got got
  val : ∀ j, j < (output r.2).length → (output r.2)[j]? = some (expected f0 r.1.got (s.pos + j))

theorem Timeline.le {P : Nat → Done α → List (Nat × Pkt α) → Prop} {ds : List (Done α)} {pos : Nat} {b got : List (Nat × Pkt α)} (h : Timeline P pos ds b got) : ∀ x ∈ got, pos ≤ x.1 := by
  induction ds generalizing pos b got with
  | nil =>
    have h : got = [] := h
    rw [h]
    intro x hx; cases hx
  | cons d ds ih =>
    obtain ⟨ev, rest, rfl, _, h3, _, h5⟩ := h
    intro x hx
    rcases List.mem_append.mp hx with hx | hx
    · exact (h3 x hx).1
    · have := ih h5 x hx
      omega

theorem served_call {base per : Int} {f0 : Nat} {s : St α} {c : Call α} {r : St α × List (Pkt α) × Frame α} {ev : List (Nat × Pkt α)}
    (h : Call1 base per f0 s c.pkts c.size r ev) :
    Served c ⟨r.2.2, c.pkts.take (c.pkts.length - r.2.1.length), r.2.1⟩ ∧ ev.map (·.2) = c.pkts.take (c.pkts.length - r.2.1.length) := by
  have h1 := h.taken
  have h2 := congrArg List.length h1
  rw [List.length_append] at h2
  have e : c.pkts.take (c.pkts.length - r.2.1.length) = ev.map (·.2) := by
    rw [← h1, List.take_append_of_le_length (by rw [List.length_append]; omega), List.take_of_length_le (by rw [List.length_append]; omega)]
  exact ⟨⟨h.size, by show c.pkts = c.pkts.take _ ++ _; rw [e, h1], h.notBlank, h.notComplete⟩, e.symm⟩

theorem many_cons {base per : Int} {f0 : Nat} {s : St α} {c : Call α} {h : List (Call α)} {r : St α × List (Pkt α) × Frame α} {ev : List (Nat × Pkt α)}
    (h1 : Call1 base per f0 s c.pkts c.size r ev) {r' : St α × List (Done α)} (h2 : Many base per f0 r.1 h r') :
    Many base per f0 s (c :: h) (r'.1, ⟨r.2.2, c.pkts.take (c.pkts.length - r.2.1.length), r.2.1⟩ :: r'.2) := by
  obtain ⟨g1, g2⟩ := served_call h1
  obtain ⟨got, t1, t2⟩ := h2.tl
  refine ⟨List.Forall₂.cons g1 h2.served, ⟨ev ++ got, ?_, ev, got, rfl, g2, ?_, ⟨?_, ?_⟩, ?_⟩, ?_⟩
  · show r'.1.got = _
    rw [t1, h1.got, List.append_assoc]
  · show ∀ x ∈ ev, s.pos ≤ x.1 ∧ x.1 ≤ s.pos + r.2.2.samples.length
    rw [h1.size]; exact h1.time
  · rw [← h1.got]; exact h1.chunk.why
  · rw [← h1.got]
    unfold Clock
    show _ → _ → (_ ∨ ∀ x ∈ _, _ ≤ ((s.pos + r.2.2.samples.length : Nat) : Int)) → _
    rw [h1.size]
    exact h1.clock
  · show Timeline _ (s.pos + r.2.2.samples.length) r'.2 (s.got ++ ev) got
    rw [h1.size, ← h1.pos, ← h1.got]
    exact t2
  · intro j hj
    have ho : output (⟨r.2.2, c.pkts.take (c.pkts.length - r.2.1.length), r.2.1⟩ :: r'.2) = r.2.2.samples ++ output r'.2 := rfl
    show (output (⟨r.2.2, c.pkts.take (c.pkts.length - r.2.1.length), r.2.1⟩ :: r'.2))[j]? = some (expected f0 r'.1.got (s.pos + j))
    have hj : j < (output (⟨r.2.2, c.pkts.take (c.pkts.length - r.2.1.length), r.2.1⟩ :: r'.2)).length := hj
    rw [ho] at hj ⊢
    rw [List.length_append] at hj
    have hs := h1.size
    have hp := h1.pos
    by_cases hl : j < r.2.2.samples.length
    · rw [List.getElem?_append_left hl, h1.chunk.val j hl, t1, expected_append]
      intro x hx
      have := t2.le x hx
      omega
    · rw [List.getElem?_append_right (by omega), h2.val _ (by omega)]
      congr 2
      omega

theorem many_run {base per : Int} (hb : base > 0) (hper : per ≥ 0) {f0 : Nat} (h : List (Call α)) {s : St α} (hi : Inv f0 s)
    (hc : Truth base per f0 s.got → Clk base per s) (hq : Sane h) : Sat (Many base per f0 s h) (run per s h) := by
  induction h generalizing s with
  | nil => exact ⟨List.Forall₂.nil, ⟨[], by simp, rfl⟩, (fun j hj => by cases hj)⟩
  | cons c h ih =>
    unfold run
    refine (call_read hb hper hi hc (hq c List.mem_cons_self) c.size).bind ?_
    rintro r ⟨ev, hr⟩
    refine (ih hr.inv hr.clk (fun c' hc' => hq c' (List.mem_cons_of_mem _ hc'))).bind ?_
    intro r' hr'
    exact many_cons hr hr'

/-- What is known after calls from the beginning. -/
structure All (base per : Int) (h : List (Call α)) (r : St α × List (Done α)) (pre post : List (Done α)) (f0 : Nat) : Prop where
  served : List.Forall₂ Served h r.2
  split : r.2 = pre ++ post
  silent : ∀ d ∈ pre, Silent d
  begin_ : post ≠ [] → ∃ p got, r.1.got = (0, p) :: got ∧ f0 = p.ts
  tl : Timeline (fun pos d got => Eager f0 pos d got ∧ Clock base per f0 pos d got) 0 post [] r.1.got
  val : ∀ j, j < (output post).length → (output post)[j]? = some (expected f0 r.1.got j)

theorem all_run {base per : Int} (hb : base > 0) (hper : per ≥ 0) (h : List (Call α)) {s : St α} (hs : Fresh s) (hq : Sane h) :
    Sat (fun r => ∃ pre post f0, All base per h r pre post f0) (run per s h) := by
  induction h generalizing s with
  | nil => exact ⟨[], [], 0, List.Forall₂.nil, rfl, (fun d hd => by cases hd), (fun c => absurd rfl c), hs.got, (fun j hj => by cases hj)⟩
  | cons c h ih =>
    unfold run
    refine (call_fresh hb hper hs (hq c List.mem_cons_self) c.size).bind ?_
    rintro r (⟨r1, r2, r3, r4⟩ | ⟨p, q', r1, ev, hr⟩)
    · refine (ih r1 (fun c' hc' => hq c' (List.mem_cons_of_mem _ hc'))).bind ?_
      rintro r' ⟨pre, post, f0, hr'⟩
      have hsil : ∀ x ∈ r.2.2.samples, x = none := by
        rw [r4]
        intro x hx
        exact List.eq_of_mem_replicate hx
      refine ⟨⟨r.2.2, c.pkts.take (c.pkts.length - r.2.1.length), r.2.1⟩ :: pre, post, f0, List.Forall₂.cons ?_ hr'.served, ?_, ?_, hr'.begin_, hr'.tl, hr'.val⟩
      · refine ⟨?_, ?_, ?_, ?_⟩
        · show r.2.2.samples.length = _
          rw [r4]; exact List.length_replicate
        · show c.pkts = c.pkts.take (c.pkts.length - r.2.1.length) ++ r.2.1
          rw [r2]; simp
        · show r.2.2.notBlank = true ↔ ∃ x ∈ r.2.2.samples, x ≠ none
          constructor
          · intro e
            rw [r4] at e; cases e
          · rintro ⟨x, hx, hx'⟩
            exact absurd (hsil x hx) hx'
        · show r.2.2.notComplete = true ↔ ∃ x ∈ r.2.2.samples, x = none
          rw [r4]
          show decide (0 < c.size) = true ↔ ∃ x ∈ List.replicate c.size none, x = none
          rw [decide_eq_true_iff]
          constructor
          · intro e
            exact ⟨none, List.mem_replicate.mpr ⟨by omega, rfl⟩, rfl⟩
          · rintro ⟨x, hx, hx'⟩
            have := (List.mem_replicate.mp hx).1
            omega
      · show _ :: r'.2 = _
        rw [hr'.split]; rfl
      · intro d hd
        rcases List.mem_cons.mp hd with hd | hd
        · rw [hd]
          refine ⟨hsil, ?_, ?_, ?_⟩
          · show c.pkts.take (c.pkts.length - r.2.1.length) = []
            rw [r2]; simp
          · show r.2.1 = [] ∨ r.2.2.samples = []
            rw [r2]; exact r3
          · show r.2.2.cts = none
            rw [r4]
        · exact hr'.silent d hd
    · refine (many_run hb hper h hr.inv hr.clk (fun c' hc' => hq c' (List.mem_cons_of_mem _ hc'))).bind ?_
      intro r' hr'
      have hm := many_cons hr hr'
      obtain ⟨got, t1, t2⟩ := hr'.tl
      obtain ⟨got', t1', t2'⟩ := hm.tl
      have e1 : r'.1.got = got' := t1'
      have e2 : ({ s with got := [] } : St α).pos = 0 := hs.pos
      refine ⟨[], _, p.ts, hm.served, rfl, (fun d hd => by cases hd), ?_, ?_, ?_⟩
      · intro _
        refine ⟨p, ev ++ got, ?_, rfl⟩
        show r'.1.got = _
        rw [t1, hr.got]; rfl
      · show Timeline _ 0 _ [] r'.1.got
        rw [e1, ← e2]
        exact t2'
      · intro j hj
        have := hm.val j hj
        rw [e2, Nat.zero_add] at this
        exact this

end Verif.Depacketizer
