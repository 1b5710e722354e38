import Verif.Reporter.Cover

/-!
# RTCP reporter: properties C30, C61, C62
-/

namespace Verif.Reporter

/-- A result is not one of the failures. -/
abbrev Fine {α : Type} (o : Out α) : Prop := ∃ a, o = .ok a

/-! ## C30: no abort -/

/-- Whatever packets are received and whenever reports are generated, no call aborts, uses a dangling pointer or hangs, if the
clock goes forward, the inactivity timeout is positive, and either nobody uses our source, or the participant sends all the
time to a configured address and is able to choose an unused source. The full statement has no such conditions; see
`C30_collision_fails`, `C30_early_fails`, `C30_dangling_fails`. -/
theorem C30_no_abort_partial (src : Nat) (cname : List Nat) (dest : Option Nat) (timeout : Int) (cs : List Call) (ht : 0 < timeout)
    (hs : Spaced 0 cs)
    (hm : (dest.isSome ∧ (∀ c ∈ cs, c.part.hasSend = true) ∧ ∀ c ∈ cs, c.Picks (mentioned cs)) ∨
      ∀ c ∈ cs, ∀ e ∈ c.evs, e.source ≠ src) :
    Fine ((St.init src cname dest timeout).run cs) := by
  rcases hm with ⟨h1, h2, h3⟩ | hm
  · obtain ⟨s', ls, e, _⟩ := run_ok (M := mentioned cs) (K := True) (Q := False) cs
      (inv_init (mentioned cs) True False src cname dest timeout ht (fun _ => h1)) hs (fun x hx => hx) (fun _ => h2) (fun q => q.elim)
      (.inl ⟨trivial, h3⟩)
    exact ⟨_, e⟩
  · obtain ⟨s', ls, e, _⟩ := run_ok (M := mentioned cs) (K := False) (Q := False) cs
      (inv_init (mentioned cs) False False src cname dest timeout ht (fun k => k.elim)) hs (fun x hx => hx) (fun k => k.elim) (fun q => q.elim)
      (.inr ⟨rfl, hm⟩)
    exact ⟨_, e⟩

/-- A history of a receiver: two senders, reports, a goodbye, the clock repeats once. -/
def demo : List Call :=
  [.packet 5 ⟨false, [(7, 1), (8, 2)]⟩ 3 [.cname 7 [65], .sr 7 true, .sr 8 true], .report 5 ⟨false, [(7, 1), (8, 2)]⟩ [],
   .packet 10 ⟨false, [(7, 3), (8, 4)]⟩ 3 [.bye 7], .report 12 ⟨false, [(8, 5)]⟩ []]

example : Spaced 0 demo ∧ (∀ c ∈ demo, ∀ e ∈ c.evs, e.source ≠ 1) ∧ reports ((St.init 1 [66] none 100).run demo) =
    some [[], [⟨3, [], [(7, 1), (8, 2)], none⟩], [], [⟨3, [], [(8, 5)], none⟩]] :=
  ⟨by simp [Spaced, demo, Call.now], by decide +kernel, by decide +kernel⟩

theorem update_fresh {s : St} (hb : Base s) {k : Nat} (h : ∃ x ∈ s.streams, x.ssrc = k) :
    ∃ x ∈ (s.update k).streams, x.ssrc = k ∧ x.last = s.time := by
  obtain ⟨x, hx, e⟩ := h
  have hf := find_of_mem hb.keys hx
  rw [e] at hf
  unfold St.update
  rw [hf]
  show ∃ y ∈ (if x.last = s.time then s else _).streams, _
  by_cases ht : x.last = s.time
  · rw [if_pos ht]; exact ⟨x, hx, e, ht⟩
  · rw [if_neg ht]
    exact ⟨{ x with last := s.time }, List.mem_map.mpr ⟨x, hx, if_pos e⟩, e, rfl⟩

theorem ensure_mem (s : St) (k : Nat) : ∃ x ∈ (s.ensure k).streams, x.ssrc = k := by
  unfold St.ensure
  cases h : s.find k with
  | some x => exact ⟨x, (find_some h).1, (find_some h).2⟩
  | none => exact ⟨newStream s.next k s.time, List.mem_append_right _ (List.mem_singleton.mpr rfl), rfl⟩

theorem mark_mem {s : St} {k addr : Nat} {has : Stream → Bool} {f : Stream → Stream} (hf : ∀ x, (f x).ssrc = x.ssrc)
    (h : ∃ x ∈ s.streams, x.ssrc = k) : ∃ x ∈ (s.mark k addr has f).streams, x.ssrc = k := by
  obtain ⟨x, hx, e⟩ := h
  unfold St.mark
  cases s.find k with
  | none => exact ⟨x, hx, e⟩
  | some y => exact ⟨{ f x with addr := addr }, List.mem_map.mpr ⟨x, hx, if_pos e⟩, (hf x).trans e⟩

theorem Inv.mono {M M' : List Nat} {K Q : Prop} {s : St} (h : Inv M K Q s) (hm : ∀ x ∈ M, x ∈ M') : Inv M' K Q s :=
  ⟨h.base, fun x hx => hm _ (h.named x hx), h.index, h.times, h.idx, h.must, h.timeout, h.dest⟩

theorem run_append {s s1 : St} {cs ds : List Call} {ls : List (List Rep)} (h : s.run cs = .ok (s1, ls)) :
    ∀ {s2 : St} {ms : List (List Rep)}, s1.run ds = .ok (s2, ms) → s.run (cs ++ ds) = .ok (s2, ls ++ ms) := by
  induction cs generalizing s ls with
  | nil =>
    intro s2 ms h2
    cases h
    exact h2
  | cons c cs ih =>
    intro s2 ms h2
    unfold St.run at h
    cases hc : s.call c with
    | abort => rw [hc] at h; cases h
    | ub => rw [hc] at h; cases h
    | hang => rw [hc] at h; cases h
    | ok r =>
      obtain ⟨s', l⟩ := r
      rw [hc] at h
      dsimp only at h
      cases hr : s'.run cs with
      | abort => rw [hr] at h; cases h
      | ub => rw [hr] at h; cases h
      | hang => rw [hr] at h; cases h
      | ok r =>
        obtain ⟨s'', ls'⟩ := r
        rw [hr] at h
        cases h
        have := ih hr h2
        show (St.run s (c :: (cs ++ ds))) = _
        conv => lhs; unfold St.run
        rw [hc]
        dsimp only
        rw [this]
        rfl

/-- When somebody else turns out to use our source, the next generation of a participant that sends to a configured address
tells this address that the old source leaves, and the source is changed to a different one. -/
theorem C30_collision_resolved (src : Nat) (cname : List Nat) (a : Nat) (timeout : Int) (cs : List Call) (now1 now2 : Int) (p1 p2 : Part)
    (addr : Nat) (ts : Bool) (ids : List Nat) (ht : 0 < timeout)
    (hs : Spaced 0 (cs ++ [.packet now1 p1 addr [.sr src ts], .report now2 p2 ids]))
    (hsend : (∀ c ∈ cs, c.part.hasSend = true) ∧ p1.hasSend = true ∧ p2.hasSend = true)
    (hnew : src ∉ mentioned cs ∧ src ∉ p1.recvs.map (·.1))
    (hids : ∃ i ∈ ids, i ∉ mentioned (cs ++ [.packet now1 p1 addr [.sr src ts], .report now2 p2 ids])) :
    ∃ s ls l, (St.init src cname (some a) timeout).run (cs ++ [.packet now1 p1 addr [.sr src ts], .report now2 p2 ids]) =
      .ok (s, ls ++ [[], l]) ∧ (∃ d ∈ l, d.addr = a) ∧ (∀ d ∈ l, d.bye = some src) ∧ s.src ∈ ids ∧ s.src ≠ src := by
  obtain ⟨M0, hM0⟩ : ∃ M0, M0 = mentioned cs ++ p1.recvs.map (·.1) := ⟨_, rfl⟩
  obtain ⟨M, hM⟩ : ∃ M, M = mentioned (cs ++ [.packet now1 p1 addr [.sr src ts], .report now2 p2 ids]) := ⟨_, rfl⟩
  have hMe : M = mentioned cs ++ ([src] ++ p1.recvs.map (·.1) ++ p2.recvs.map (·.1)) := by
    rw [hM]
    simp [mentioned, Call.evs, Call.part, Ev.source]
  have hs0 : Spaced 0 cs := by
    clear hnew hids hM hMe hsend hM0
    generalize (0 : Int) = t at hs
    induction cs generalizing t with
    | nil => exact trivial
    | cons c cs ih => exact ⟨hs.1, hs.2.1, ih _ hs.2.2⟩
  have hquiet : ∀ c ∈ cs, ∀ e ∈ c.evs, e.source ≠ src := by
    intro c hc e he eq
    apply hnew.1
    exact List.mem_flatMap.mpr ⟨c, hc, List.mem_append_left _ (eq ▸ List.mem_map_of_mem he)⟩
  obtain ⟨s1, ls, er, hi, ed, _, _, hsd, _, hsp, _⟩ := run_ok (M := M0) (K := True) (Q := False) cs
    (inv_init M0 True False src cname (some a) timeout ht (fun _ => rfl)) hs0 (fun x hx => by rw [hM0]; exact List.mem_append_left _ hx)
    (fun _ => hsend.1) (fun q => q.elim) (.inr ⟨rfl, hquiet⟩)
  obtain ⟨sd1, sd2⟩ := hsd hquiet rfl
  obtain ⟨q1, q2, q3, q4, _⟩ := hsp _ hs
  have q1 : 0 < now1 := q1
  have hb := begin_ok (now := now1) (p := p1) hi q2 (fun r hr => by rw [hM0]; exact List.mem_append_right _ (List.mem_map_of_mem hr))
    (fun _ => hsend.2.1) (fun q => q.elim)
  obtain ⟨hi2, _, e1, e2, e3, e4, e5, e6, e7, _⟩ := hb
  obtain ⟨s2, hs2⟩ : ∃ s2, s2 = s1.begin now1 p1 := ⟨_, rfl⟩
  rw [← hs2] at hi2 e1 e2 e3 e4 e5 e6 e7
  have hfn : s2.find src = none := by
    cases hf : s2.find src with
    | none => rfl
    | some x =>
      exfalso
      obtain ⟨hx, ex⟩ := find_some hf
      have := hi2.named x hx
      rw [hM0, ex] at this
      rcases List.mem_append.mp this with h | h
      · exact hnew.1 h
      · exact hnew.2 h
  have hcol : s2.collide src = { s2 with detected := true, reported := false } := by
    unfold St.collide
    rw [e2, sd2, if_neg (by intro e; cases e), if_neg (by rw [e1, sd1]; exact fun n => n rfl), hfn]
  have hi3 : Inv M True False s2 := hi2.mono (fun x hx => by
    rw [hM0] at hx
    rw [hMe]
    rcases List.mem_append.mp hx with h | h
    · exact List.mem_append_left _ h
    · exact List.mem_append_right _ (List.mem_append_left _ (List.mem_append_right _ h)))
  have hsrcM : src ∈ M := by
    rw [hMe]
    exact List.mem_append_right _ (List.mem_append_left _ (List.mem_append_left _ (List.mem_singleton.mpr rfl)))
  obtain ⟨s3, hs3⟩ : ∃ s3, s3 = s2.on addr (.sr src ts) := ⟨_, rfl⟩
  have g3 : Grow M s2 s3 := by rw [hs3]; exact grow_on addr s2 (.sr src ts) hsrcM
  have hi4 := inv_grow hi3 g3
  obtain ⟨s2c, hs2c⟩ : ∃ c, c = s2.collide src := ⟨_, rfl⟩
  have hs3e : s3 = ((s2c.ensure src).mark src addr (·.hasSend) (fun x => { x with hasSend := true, sendTs := ts })).update src := by
    rw [hs3, hs2c]; rfl
  have hdet3 : s3.detected = true ∧ s3.src = src := by
    have h1 := ((sd_ensure s2c src).trans (sd_mark _ src addr (·.hasSend) (fun x => { x with hasSend := true, sendTs := ts }))).trans (sd_update _ src)
    rw [← hs3e] at h1
    rw [h1.2, h1.1, hs2c, hcol]
    exact ⟨rfl, e1.trans sd1⟩
  have hg2 : Grow M s2 ((s2c.ensure src).mark src addr (·.hasSend) (fun x => { x with hasSend := true, sendTs := ts })) := by
    rw [hs2c]
    exact (grow_collide M s2 src).trans ((grow_ensure _ hsrcM).trans (grow_mark M _ src addr _ _ (fun _ => rfl) (fun _ => rfl) (fun _ => rfl)))
  obtain ⟨x, hx, ex, elx⟩ : ∃ x ∈ s3.streams, x.ssrc = src ∧ x.last = s3.time := by
    obtain ⟨x, hx, ex, el⟩ := update_fresh (hg2.base hi3.base) (mark_mem (addr := addr) (has := (·.hasSend))
      (f := fun x => { x with hasSend := true, sendTs := ts }) (fun _ => rfl) (ensure_mem s2c src))
    rw [← hs3e] at hx
    exact ⟨x, hx, ex, el.trans (hg2.time.trans g3.time.symm)⟩
  obtain ⟨s4, k1, k2, k3, k4, k5⟩ := expire_ok M s3 hi4.base hi4.timeout
  have hx4 := k5 x hx (by rw [elx]; have := hi4.timeout; omega)
  have hproc : s1.process now1 p1 addr [.sr src ts] = .ok s4 := by
    unfold St.process
    rw [if_neg (by omega), ← hs2, List.foldl_cons, List.foldl_nil, ← hs3, k1]
  have hi5 := inv_grow hi4 k2
  have ht4 : s4.time = if now1 = s1.time then s1.time + 1 else now1 := by rw [k2.time, g3.time, e7]
  have q4' : s4.time ≤ now2 := by rw [ht4]; exact q4
  have hp2 : ∀ r ∈ p2.recvs, r.1 ∈ M := by
    intro r hr
    rw [hMe]
    exact List.mem_append_right _ (List.mem_append_right _ (List.mem_map_of_mem hr))
  obtain ⟨_, _, _, _, _, _, _, _, _, hkeys⟩ := begin_ok (now := now2) (p := p2) hi5 q4' hp2 (fun _ => hsend.2.2) (fun q => q.elim)
  obtain ⟨s5, l, m1, m2, m3, m4, m5, m6, m7, m8, m9, m10, m11⟩ := generate_ok (now := now2) (p := p2) (ids := ids) hi5 q3 q4' hp2
    (fun _ => hsend.2.2) (fun q => q.elim) (fun _ => ⟨trivial, by rw [hM]; exact hids⟩)
  have hd4 : s4.detected = true := k4.trans hdet3.1
  refine ⟨s5, ls, l, ?_, ?_, ?_, (m5 hd4).1, ?_⟩
  · apply run_append er
    have c1 : s1.call (.packet now1 p1 addr [.sr src ts]) = .ok (s4, []) := by
      show (match s1.process now1 p1 addr [.sr src ts] with
        | .ok s' => Out.ok (s', [])
        | .abort => .abort
        | .ub => .ub
        | .hang => .hang) = _
      rw [hproc]
    have c2 : s4.call (.report now2 p2 ids) = .ok (s5, l) := m1
    unfold St.run
    rw [c1]
    dsimp only
    unfold St.run
    rw [c2]
    rfl
  · obtain ⟨d, hd, e⟩ := m10 trivial
    refine ⟨d, hd, ?_⟩
    have : s4.dest = some a := by rw [k2.dest, g3.dest, e5, ed]; rfl
    rw [this] at e
    exact Option.some.inj e
  · intro d hd
    rw [m11 d hd, hd4, k3, hdet3.2]
    rfl
  · intro e
    have hn := (m5 hd4).2
    obtain ⟨y, hy, ey⟩ := hkeys x hx4
    exact find_none hn y hy (ey.trans (ex.trans e.symm))

example : Spaced 0 [Call.packet 5 ⟨true, []⟩ 3 [.sr 1 true], .report 10 ⟨true, []⟩ [1, 2]] ∧
    reports ((St.init 1 [66] (some 9) 100).run [.packet 5 ⟨true, []⟩ 3 [.sr 1 true], .report 10 ⟨true, []⟩ [1, 2]]) =
    some [[], [⟨9, [], [], some 1⟩]] :=
  ⟨by simp [Spaced, Call.now], by decide +kernel⟩

/-- A receiver that has no destination yet (or a sender that did not start to send) aborts at the next generation after anybody
sends a report with its source. -/
theorem C30_collision_fails : ∃ cs, Spaced 0 cs ∧ (∀ c ∈ cs, c.Picks (mentioned cs)) ∧ (St.init 1 [66] none 100).run cs = .abort :=
  ⟨[.packet 5 ⟨false, [(7, 1)]⟩ 3 [.reception 1 2], .report 10 ⟨false, [(7, 1)]⟩ [2]],
    by simp [Spaced, Call.now], by simp [Call.Picks, mentioned, Call.evs, Call.part, Ev.source], by decide +kernel⟩

/-- Same for a sender that has a configured address, when the packet comes before it starts to send. -/
theorem C30_early_fails : ∃ cs, Spaced 0 cs ∧ (∀ c ∈ cs, c.Picks (mentioned cs)) ∧ (St.init 1 [66] (some 9) 100).run cs = .abort :=
  ⟨[.packet 5 ⟨false, []⟩ 3 [.metrics 1 2], .report 10 ⟨true, []⟩ [2]],
    by simp [Spaced, Call.now], by simp [Call.Picks, mentioned, Call.evs, Call.part, Ev.source], by decide +kernel⟩

/-- If the same time is given to four calls (three queued packets, then generation), a pointer to a destroyed stream is used:
the second call rebuilds the index, the third one destroys a stream, the fourth one does not clear the list of pointers. -/
theorem C30_dangling_fails : ∃ cs : List Call, (∀ c ∈ cs, 0 < c.now) ∧ List.Pairwise (fun x y => x.now ≤ y.now) cs ∧
    (∀ c ∈ cs, ∀ e ∈ c.evs, e.source ≠ 1) ∧ (St.init 1 [66] none 100).run cs = .ub :=
  ⟨[.packet 5 ⟨false, [(7, 1), (8, 2)]⟩ 3 [.sr 7 true, .sr 8 true], .packet 10 ⟨false, [(7, 1), (8, 2)]⟩ 3 [],
    .packet 10 ⟨false, [(7, 1), (8, 2)]⟩ 3 [.bye 7], .report 10 ⟨false, [(8, 2)]⟩ []],
    by decide +kernel, by decide +kernel, by decide +kernel, by decide +kernel⟩

/-! ## C61: reports are about the right stream -/

/-- Every reception report is about a stream that is received at this moment, and has the data that the pipeline returned for
this stream, as long as the list of received streams does not change without changing its length. The full statement has no
such condition; see `C61_faithful_fails`. -/
theorem C61_faithful_partial (src : Nat) (cname : List Nat) (dest : Option Nat) (timeout : Int) (cs : List Call) (ht : 0 < timeout)
    (hs : Spaced 0 cs) (hst : Steady [] cs) (hm : ∀ c ∈ cs, ∀ e ∈ c.evs, e.source ≠ src) :
    ∃ s ls, (St.init src cname dest timeout).run cs = .ok (s, ls) ∧ List.Forall₂ Faithful cs ls := by
  obtain ⟨s', ls, e, _, _, hf, _⟩ := run_ok (M := mentioned cs) (K := False) (Q := True) cs
    (inv_init (mentioned cs) False True src cname dest timeout ht (fun k => k.elim)) hs (fun x hx => hx) (fun k => k.elim) (fun _ => hst)
    (.inr ⟨rfl, hm⟩)
  exact ⟨s', ls, e, hf trivial⟩

example : Spaced 0 demo ∧ Steady [] demo ∧ (∀ c ∈ demo, ∀ e ∈ c.evs, e.source ≠ 1) :=
  ⟨by simp [Spaced, demo, Call.now], by simp [Steady, demo, Call.part], by decide +kernel⟩

/-- When one received stream is replaced by another known one, a report about the old stream is sent, with the data of the new
one. -/
theorem C61_faithful_fails : ∃ cs ls, Spaced 0 cs ∧ (∀ c ∈ cs, ∀ e ∈ c.evs, e.source ≠ 1) ∧
    reports ((St.init 1 [66] none 100).run cs) = some ls ∧ ls = [[], [], [⟨3, [], [(7, 2)], none⟩]] ∧ ¬ List.Forall₂ Faithful cs ls := by
  refine ⟨[.packet 5 ⟨false, [(7, 1)]⟩ 3 [.sr 7 true, .sr 8 true], .packet 10 ⟨false, [(7, 1)]⟩ 3 [],
    .report 20 ⟨false, [(8, 2)]⟩ []], [[], [], [⟨3, [], [(7, 2)], none⟩]], by simp [Spaced, Call.now], by decide +kernel, by decide +kernel, rfl, ?_⟩
  intro h
  cases h with
  | cons _ h =>
    cases h with
    | cons _ h =>
      cases h with
      | cons h _ =>
        have := h _ List.mem_cons_self (7, 2) List.mem_cons_self
        simp [Call.part] at this

/-! ## C62: the configured address gets reports -/

/-- A participant that sends all the time with a configured address reports to this address in every generation. The full
statement does not require that it sends from the beginning; see `C62_dest_fails`. -/
theorem C62_dest_partial (src : Nat) (cname : List Nat) (a : Nat) (timeout : Int) (cs : List Call) (ht : 0 < timeout) (hs : Spaced 0 cs)
    (hk : ∀ c ∈ cs, c.part.hasSend = true) (hp : ∀ c ∈ cs, c.Picks (mentioned cs)) :
    ∃ s ls, (St.init src cname (some a) timeout).run cs = .ok (s, ls) ∧
      List.Forall₂ (fun c l => (∃ n p ids, c = Call.report n p ids) → ∃ d ∈ l, d.addr = a) cs ls := by
  obtain ⟨s', ls, e, _, _, _, hd, _⟩ := run_ok (M := mentioned cs) (K := True) (Q := False) cs
    (inv_init (mentioned cs) True False src cname (some a) timeout ht (fun _ => rfl)) hs (fun x hx => hx) (fun _ => hk) (fun q => q.elim)
    (.inl ⟨trivial, hp⟩)
  refine ⟨s', ls, e, ?_⟩
  refine List.Forall₂.imp ?_ (hd trivial)
  intro c l h hc
  obtain ⟨d, hd, e⟩ := h hc
  exact ⟨d, hd, Option.some.inj e⟩

example : Spaced 0 [Call.packet 5 ⟨true, []⟩ 3 [.reception 7 1, .rrtr 7 true], .report 10 ⟨true, []⟩ [2]] ∧
    reports ((St.init 1 [66] (some 9) 100).run [.packet 5 ⟨true, []⟩ 3 [.reception 7 1, .rrtr 7 true], .report 10 ⟨true, []⟩ [2]]) =
      some [[], [⟨9, [7], [], none⟩]] :=
  ⟨by simp [Spaced, Call.now], by decide +kernel⟩

/-- If a packet comes before the participant starts to send, it does not send reports to the configured address afterwards, even
though it sends. -/
theorem C62_dest_fails : ∃ cs, Spaced 0 cs ∧ (∀ c ∈ cs, c.Picks (mentioned cs)) ∧
    cs = [.packet 5 ⟨false, []⟩ 3 [.metrics 7 1], .report 10 ⟨true, []⟩ [2], .report 20 ⟨true, []⟩ [2]] ∧
    reports ((St.init 1 [66] (some 9) 100).run cs) = some [[], [], []] :=
  ⟨_, by simp [Spaced, Call.now], by simp [Call.Picks, mentioned, Call.evs, Call.part, Ev.source], rfl, by decide +kernel⟩

/-! ## C70: reports go where the sender is -/

theorem spaced_left : ∀ (cs ds : List Call) (t : Int), Spaced t (cs ++ ds) → Spaced t cs
  | [], _, _, _ => trivial
  | _ :: cs, ds, _, h => ⟨h.1, h.2.1, spaced_left cs ds _ h.2.2⟩

theorem steady_left : ∀ (cs ds : List Call) (l : List (Nat × Nat)), Steady l (cs ++ ds) → Steady l cs
  | [], _, _, _ => trivial
  | _ :: cs, ds, _, h => ⟨h.1, steady_left cs ds _ h.2⟩

/-- After any history, a packet from address `a` that ends with a sender report of `k`, and then any calls that do not involve
`k` and do not last longer than the inactivity timeout: if `k` is received when reports are generated, it is reported to the
configured address, or to `a` if there is none, and not to any other address. The full statement does not require
that timestamps are not zero, nor that the list of received streams is steady; see `C70_zero_timestamp_fails` and
`C70_replaced_fails`. -/
theorem C70_addressed_partial (src : Nat) (cname : List Nat) (dest : Option Nat) (timeout : Int) (cs ds : List Call) (now1 now2 : Int) (p1 p2 : Part)
    (a k : Nat) (evs : List Ev) (ids : List Nat) (ht : 0 < timeout)
    (hs : Spaced 0 (cs ++ (.packet now1 p1 a (evs ++ [.sr k true]) :: ds) ++ [.report now2 p2 ids]))
    (hst : Steady [] (cs ++ (.packet now1 p1 a (evs ++ [.sr k true]) :: ds) ++ [.report now2 p2 ids]))
    (hm : ∀ c ∈ cs ++ (.packet now1 p1 a (evs ++ [.sr k true]) :: ds), ∀ e ∈ c.evs, e.source ≠ src ∧ e.Stamped)
    (hds : ∀ c ∈ ds, (∀ e ∈ c.evs, e.source ≠ k) ∧ c.now + 1 < now1 + timeout) (hk : k ∈ p2.recvs.map (·.1)) :
    ∃ s ls l, (St.init src cname dest timeout).run (cs ++ (.packet now1 p1 a (evs ++ [.sr k true]) :: ds) ++ [.report now2 p2 ids]) = .ok (s, ls ++ [l]) ∧
      (∃ d ∈ l, d.addr = dest.getD a ∧ k ∈ d.recv.map (·.1)) ∧ (∀ d ∈ l, k ∈ d.recv.map (·.1) → d.addr = dest.getD a) := by
  obtain ⟨c1, hc1⟩ : ∃ c1, c1 = Call.packet now1 p1 a (evs ++ [.sr k true]) := ⟨_, rfl⟩
  rw [← hc1] at hs hst hm ⊢
  obtain ⟨M, hM⟩ : ∃ M, M = mentioned (cs ++ (c1 :: ds) ++ [.report now2 p2 ids]) := ⟨_, rfl⟩
  have hMin : ∀ c ∈ cs ++ (c1 :: ds) ++ [.report now2 p2 ids], (∀ e ∈ c.evs, e.source ∈ M) ∧ (∀ r ∈ c.part.recvs, r.1 ∈ M) := by
    intro c hc
    rw [hM]
    exact ⟨fun e he => List.mem_flatMap.mpr ⟨c, hc, List.mem_append_left _ (List.mem_map_of_mem he)⟩,
      fun r hr => List.mem_flatMap.mpr ⟨c, hc, List.mem_append_right _ (List.mem_map_of_mem hr)⟩⟩
  have hsub : ∀ l : List Call, (∀ c ∈ l, c ∈ cs ++ (c1 :: ds) ++ [.report now2 p2 ids]) → ∀ x ∈ mentioned l, x ∈ M := by
    intro l hl x hx
    obtain ⟨c, hc, hx⟩ := List.mem_flatMap.mp hx
    rw [hM]
    exact List.mem_flatMap.mpr ⟨c, hl c hc, hx⟩
  have hs0 := hs
  have hst0 := hst
  rw [List.append_assoc] at hs0 hst0
  obtain ⟨s1, ls1, er1, i1, q1, sd1, ed1, et1, _, sp1, st1⟩ := cinv_run (M := M) cs
    (inv_init M False True src cname dest timeout ht (fun k => k.elim)) (cinv_init src cname dest timeout) rfl (spaced_left _ _ _ hs0)
    (hsub cs (fun c hc => List.mem_append_left _ (List.mem_append_left _ hc))) (steady_left _ _ _ hst0)
    (fun c hc => hm c (List.mem_append_left _ hc))
  have sp1 := sp1 _ hs0
  have st1 := st1 _ hst0
  have hm1 : ∀ e ∈ c1.evs, e.source ≠ s1.src ∧ e.Stamped := fun e he => by
    rw [sd1.1]
    exact hm c1 (List.mem_append_right _ List.mem_cons_self) e he
  have hc1M := hMin c1 (List.mem_append_left _ (List.mem_append_right _ List.mem_cons_self))
  have hmode : Mode M False s1 [c1] := .inr ⟨sd1.2, fun c hc e he => by
    rw [List.mem_singleton.mp hc] at he
    exact (hm1 e he).1⟩
  obtain ⟨s2, l2, e2, i2, _, er2, et2, ed2, _⟩ := call_ok i1 c1 [] sp1.1 sp1.2.1 hc1M.2 hc1M.1 (fun k => k.elim) (fun _ => st1.1) hmode
  obtain ⟨q2, _, eto2⟩ := cinv_call i1 q1 c1 sd1.2 sp1.1 sp1.2.1 hc1M.2 hc1M.1 (fun k => k.elim) st1.1 (fun e he => (hm1 e he).1) (fun e he => (hm1 e he).2) e2
  have has2 : Has k a now1 s2 := by
    rw [hc1] at e2 sp1 st1 hc1M hm1
    exact sr_has i1 sp1.1 sp1.2.1 hc1M.2 hc1M.1 (fun k => k.elim) st1.1 (fun e he => (hm1 e he).1) e2
  have sd2 : SD s1 s2 := by
    rw [hc1] at e2 sp1 st1 hc1M hm1
    obtain ⟨s2', k1, _, k2, _⟩ := process_ok (addr := a) i1 sp1.1 sp1.2.1 hc1M.2 hc1M.1 (fun k => k.elim) (fun _ => st1.1)
    have e2' : (match s1.process now1 p1 a (evs ++ [.sr k true]) with
      | .ok s' => Out.ok (s', [])
      | .abort => .abort
      | .ub => .ub
      | .hang => .hang) = Out.ok (s2, l2) := e2
    have k1' : s1.process now1 p1 a (evs ++ [.sr k true]) = .ok s2' := k1
    rw [k1'] at e2'
    cases e2'
    exact k2 (fun e he => (hm1 e he).1)
  have sp2 : Spaced s2.time (ds ++ [.report now2 p2 ids]) := by rw [et2]; exact sp1.2.2
  have st2 : Steady s2.recvs (ds ++ [.report now2 p2 ids]) := by rw [er2]; exact st1.2
  obtain ⟨s3, ls3, er3, i3, q3, sd3, ed3, et3, hh3, sp3, st3⟩ := cinv_run (M := M) ds i2 q2 (sd2.2.trans sd1.2) (spaced_left _ _ _ sp2)
    (hsub ds (fun c hc => List.mem_append_left _ (List.mem_append_right _ (List.mem_cons_of_mem _ hc)))) (steady_left _ _ _ st2)
    (fun c hc e he => by
      rw [sd2.1, sd1.1]
      exact hm c (List.mem_append_right _ (List.mem_cons_of_mem _ hc)) e he)
  have sp3 := sp3 _ sp2
  have st3 := st3 _ st2
  have ett : s2.timeout = timeout := eto2.trans et1
  have has3 := hh3 k a now1 (fun c hc => by rw [ett]; exact hds c hc) has2
  have hrM := hMin (.report now2 p2 ids) (List.mem_append_right _ (List.mem_singleton.mpr rfl))
  have hdet3 : s3.detected = false := sd3.2.trans (sd2.2.trans sd1.2)
  obtain ⟨ib, hrb, _, _, eb3, _, edb, _⟩ := begin_ok (now := now2) (p := p2) i3 sp3.2.1 hrM.2 (fun k => k.elim) (fun _ => st3.1)
  obtain ⟨qb, hb⟩ := cinv_begin (now := now2) (p := p2) i3 q3 sp3.2.1 hrM.2 st3.1
  obtain ⟨s4, l, eg, _⟩ := generate_ok (now := now2) (p := p2) (ids := ids) i3 sp3.1 sp3.2.1 hrM.2 (fun k => k.elim) (fun _ => st3.1)
    (by rw [hdet3]; intro e; cases e)
  have hl : (s3.begin now2 p2).index.mapM ((s3.begin now2 p2).repTo p2) = some l := by
    have eg' := eg
    unfold St.generate at eg'
    rw [if_neg (by have h : 0 < now2 := sp3.1; omega)] at eg'
    cases hx : (s3.begin now2 p2).index.mapM ((s3.begin now2 p2).repTo p2) with
    | none => rw [hx] at eg'; cases eg'
    | some m =>
      rw [hx] at eg'
      simp only [] at eg'
      split at eg'
      · split at eg'
        · cases eg'; rfl
        · cases eg'
        · cases eg'
        · cases eg'
      · cases eg'
      · cases eg'
      · cases eg'
  have key := report_cover ib qb hrb eb3 hk (hb k a now1 has3) hl
  have edest : (s3.begin now2 p2).dest = dest := edb.trans (ed3.trans (ed2.trans ed1))
  rw [edest] at key
  refine ⟨s4, ls1 ++ (l2 :: ls3), l, ?_, key.1, key.2⟩
  have r2 : s1.run (c1 :: ds) = .ok (s3, l2 :: ls3) := by
    conv => lhs; unfold St.run
    rw [e2]
    show (match s2.run ds with
      | .ok (s'', rs) => Out.ok (s'', l2 :: rs)
      | .abort => .abort
      | .ub => .ub
      | .hang => .hang) = _
    rw [er3]
  have r3 : s3.run [.report now2 p2 ids] = .ok (s4, [l]) := by
    have c2 : s3.call (.report now2 p2 ids) = .ok (s4, l) := eg
    unfold St.run
    rw [c2]
    rfl
  exact run_append (run_append er1 r2) r3

/-- A sender that moves: reports follow it. -/
example : Steady [] ([Call.packet 5 ⟨false, [(7, 1), (8, 2)]⟩ 3 [.sr 7 true, .sr 8 true], .report 6 ⟨false, [(7, 1), (8, 2)]⟩ []] ++
      (.packet 8 ⟨false, [(7, 1), (8, 2)]⟩ 4 ([] ++ [.sr 7 true]) :: [.packet 9 ⟨false, [(7, 1), (8, 2)]⟩ 3 [.sr 8 true]]) ++
      [.report 12 ⟨false, [(7, 3), (8, 4)]⟩ []]) ∧ Spaced 0 ([Call.packet 5 ⟨false, [(7, 1), (8, 2)]⟩ 3 [.sr 7 true, .sr 8 true], .report 6 ⟨false, [(7, 1), (8, 2)]⟩ []] ++
      (.packet 8 ⟨false, [(7, 1), (8, 2)]⟩ 4 ([] ++ [.sr 7 true]) :: [.packet 9 ⟨false, [(7, 1), (8, 2)]⟩ 3 [.sr 8 true]]) ++
      [.report 12 ⟨false, [(7, 3), (8, 4)]⟩ []]) ∧
    reports ((St.init 1 [66] none 100).run ([Call.packet 5 ⟨false, [(7, 1), (8, 2)]⟩ 3 [.sr 7 true, .sr 8 true], .report 6 ⟨false, [(7, 1), (8, 2)]⟩ []] ++
      (.packet 8 ⟨false, [(7, 1), (8, 2)]⟩ 4 ([] ++ [.sr 7 true]) :: [.packet 9 ⟨false, [(7, 1), (8, 2)]⟩ 3 [.sr 8 true]]) ++
      [.report 12 ⟨false, [(7, 3), (8, 4)]⟩ []])) =
    some [[], [⟨3, [], [(7, 1), (8, 2)], none⟩], [], [], [⟨3, [], [(8, 4)], none⟩, ⟨4, [], [(7, 3)], none⟩]] :=
  ⟨by simp [Steady, Call.part], by simp [Spaced, Call.now], by decide +kernel⟩

/-- If the first sender report has a zero timestamp, the stream is not reported even after reports with proper timestamps
come. -/
theorem C70_zero_timestamp_fails : ∃ cs, Spaced 0 cs ∧ Steady [] cs ∧ (∀ c ∈ cs, ∀ e ∈ c.evs, e.source ≠ 1) ∧
    cs = [.packet 5 ⟨false, [(7, 1)]⟩ 3 [.sr 7 false], .packet 10 ⟨false, [(7, 1)]⟩ 3 [.sr 7 true], .packet 15 ⟨false, [(7, 1)]⟩ 3 [.sr 7 true],
      .report 20 ⟨false, [(7, 2)]⟩ []] ∧
    reports ((St.init 1 [66] none 100).run cs) = some [[], [], [], []] :=
  ⟨_, by simp [Spaced, Call.now], by simp [Steady, Call.part], by simp [Call.evs, Ev.source], rfl, by decide +kernel⟩

/-- If one received stream is replaced by another known one, the new one is not reported. -/
theorem C70_replaced_fails : ∃ cs, Spaced 0 cs ∧ (∀ c ∈ cs, ∀ e ∈ c.evs, e.source ≠ 1 ∧ e.Stamped) ∧
    cs = [.packet 5 ⟨false, [(7, 1)]⟩ 3 [.sr 7 true, .sr 8 true], .packet 10 ⟨false, [(7, 1)]⟩ 3 [], .report 20 ⟨false, [(8, 2)]⟩ []] ∧
    reports ((St.init 1 [66] none 100).run cs) = some [[], [], [⟨3, [], [(7, 2)], none⟩]] :=
  ⟨_, by simp [Spaced, Call.now], by simp [Call.evs, Ev.source, Ev.Stamped], rfl, by decide +kernel⟩

end Verif.Reporter
